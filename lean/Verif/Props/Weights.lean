import Verif.Props.Access
import Verif.Props.Parts

/-! The three weights of the scoring, exactly: C34. -/

namespace LS
open Spec Demo

/-- The sum of the three weights, as numbers. -/
def weights (cfg : ScoringConfig) : Nat := cfg.stakeWeight.toNat + cfg.apyWeight.toNat + cfg.nodesWeight.toNat

/-- The three sums the check lets pass. -/
def PassingSum (n : Nat) : Prop := n = 100 ∨ n = 2 ^ 64 + 100 ∨ n = 2 ^ 65 + 100

/-- **C34, exactly.**  The full claim is refuted by `C34_false`.  A call of `setScoringConfig` succeeds if and only if it comes
from a manager or the owner and the weights add up to 100, to 2^64 + 100 or to 2^65 + 100. -/
theorem C34_exact_partial {w : World} {c : Addr} {cfg : ScoringConfig} :
    (∃ w', step w (.setScoringConfig c cfg) = .ok w') ↔ c ≠ w.self ∧ isManager w c = true ∧ PassingSum (weights cfg) := by
  have hsum : cfg.stakeWeight + cfg.apyWeight + cfg.nodesWeight = 100 ↔ PassingSum (weights cfg) := by
    rw [← UInt64.toNat_inj, UInt64.toNat_add, UInt64.toNat_add]
    have h100 : (100 : UInt64).toNat = 100 := rfl
    rw [h100]
    have h1 := cfg.stakeWeight.toNat_lt
    have h2 := cfg.apyWeight.toNat_lt
    have h3 := cfg.nodesWeight.toNat_lt
    unfold PassingSum weights
    omega
  constructor
  · rintro ⟨w', h⟩
    obtain ⟨h1, h2, h3, _⟩ := setScoringConfig_ok.1 h
    exact ⟨h1, h2, hsum.1 h3⟩
  · rintro ⟨h1, h2, h3⟩
    exact ⟨_, setScoringConfig_ok.2 ⟨h1, h2, hsum.2 h3, rfl⟩⟩

/-- **C34**, for every history: no other sum is ever in force. -/
theorem C34_stored_partial {w : World} (hr : Reachable w) {cfg : ScoringConfig} (h : w.st.scoring = some cfg) :
    PassingSum (weights cfg) := by
  induction hr with
  | init hi =>
    obtain ⟨self, owner, contracts, epoch, funds, acc, fees, rpe, mr, ms, ma, ub, _, _, rfl⟩ := isInit_eq hi
    cases h
  | @step w w' op hr hs ih =>
    by_cases ho : ∃ c cfg, op = .setScoringConfig c cfg
    · obtain ⟨c, cfg', rfl⟩ := ho
      obtain ⟨_, _, h3⟩ := C34_exact_partial.1 ⟨w', hs⟩
      obtain ⟨_, _, _, rfl⟩ := setScoringConfig_ok.1 hs
      cases h
      exact h3
    · refine ih ?_
      have hp : Part.scoring ∉ touched w op → w'.st.scoring = w.st.scoring := C64_only_its_parts hr hs .scoring
      rw [← h, hp ?_]
      cases op with
      | setScoringConfig c cfg => exact absurd ⟨c, cfg, rfl⟩ ho
      | unDelegate c v ps => simp only [touched, positionParts]; split_ifs <;> simp
      | deliver i o =>
        simp only [touched]
        split
        · rename_i f _
          cases f <;> cases o <;> simp only [callbackParts] <;> first | (split_ifs <;> simp) | simp
        · simp
      | issued i o =>
        simp only [touched]
        split
        · split_ifs <;> simp
        · split_ifs <;> simp
        · simp
      | owner c cmd => cases cmd <;> simp [touched, settingOf]
      | _ => simp [touched]

/-- All three sums occur. -/
theorem C34_each : ∀ n, PassingSum n → ∃ (w : World) (cfg : ScoringConfig), Reachable w ∧ w.st.scoring = some cfg ∧ weights cfg = n := by
  have key : ∀ cfg : ScoringConfig, PassingSum (weights cfg) →
      ∃ (w : World) (cfg' : ScoringConfig), Reachable w ∧ w.st.scoring = some cfg' ∧ weights cfg' = weights cfg := by
    intro cfg hp
    have hm : 1 ≠ fresh.self ∧ isManager fresh 1 = true := by decide +kernel
    obtain ⟨w', h⟩ := C34_exact_partial.2 ⟨hm.1, hm.2, hp⟩
    refine ⟨w', cfg, .step _ (.init fresh_isInit) h, ?_, rfl⟩
    obtain ⟨_, _, _, rfl⟩ := setScoringConfig_ok.1 h
    rfl
  rintro n (rfl | rfl | rfl)
  · exact key ScoringConfig.default (.inl (by decide))
  · exact key { ScoringConfig.default with stakeWeight := 9223372036854775808, apyWeight := 9223372036854775808, nodesWeight := 100 }
      (.inr (.inl (by decide)))
  · exact key { ScoringConfig.default with stakeWeight := 18446744073709551615, apyWeight := 18446744073709551615, nodesWeight := 102 }
      (.inr (.inr (by decide)))

/-- The second sum is let pass, one beside it is not. -/
example : works fresh (.setScoringConfig 1 { ScoringConfig.default with
      stakeWeight := 9223372036854775808, apyWeight := 9223372036854775808, nodesWeight := 100 }) = true ∧
    works fresh (.setScoringConfig 1 { ScoringConfig.default with
      stakeWeight := 9223372036854775808, apyWeight := 9223372036854775808, nodesWeight := 101 }) = false := by
  decide +kernel

end LS
