import Verif.Proofs.GainsStep
import Verif.Props.Rewards

/-! C105: a complete account of what a group of accounts owns, over every transaction there is. -/

namespace LS
open Spec Demo

/-- **C105**.  Take any group of accounts, the contract not among them, any reachable state and any transaction whatsoever: by a member,
by an outsider, by an operator, an answer of a provider, a transfer, a clock tick.  What the group owns afterwards, in EGLD, is what it
owned before, plus what the transaction handed to it, less what it gave away, plus its share of the rewards credited; but for rounding.
Rounding takes at most one unit, of EGLD or of LS token, from a member who deals with the pool, brings at most the group's share of
one unit when an outsider does, and is nothing otherwise. -/
theorem C105_step {C : Finset Addr} {w w' : World} {op : Op} {u u' : Nat} (hr : Reachable w) (hs : step w op = .ok w')
    (hself : w.self ∉ C) (hu : IsSum (unstakesIn C w) u) (hu' : IsSum (unstakesIn C w') u') :
    worth C w u + handed C w w' op - spent C w op + shareOf C w op - roundingLoss C w op ≤ worth C w' u' ∧
    worth C w' u' ≤ worth C w u + handed C w w' op - spent C w op + shareOf C w op + roundingGain C w w' op := by
  obtain ⟨h1, h2⟩ := explained_step op hr hs hself hu hu'
  unfold residue at h1 h2
  constructor <;> linarith

/-- **C105**, over any history: the account adds up. -/
theorem C105_history {C : Finset Addr} {w w' : World} {h s g lo hi : ℚ} {u u' : Nat} (hr : Reachable w) (hself : w.self ∉ C)
    (ha : Account C w w' h s g lo hi) (hu : IsSum (unstakesIn C w) u) (hu' : IsSum (unstakesIn C w') u') :
    worth C w u + h - s + g - lo ≤ worth C w' u' ∧ worth C w' u' ≤ worth C w u + h - s + g + hi := by
  have key : Reachable w' ∧ w'.self = w.self ∧ ∀ u', IsSum (unstakesIn C w') u' →
      worth C w u + h - s + g - lo ≤ worth C w' u' ∧ worth C w' u' ≤ worth C w u + h - s + g + hi := by
    clear hu'
    induction ha with
    | nil =>
      refine ⟨hr, rfl, fun u' hu' => ?_⟩
      rw [hu'.unique hu]
      constructor <;> linarith
    | @snoc w1 w2 h s g lo hi op _ hs ih =>
      obtain ⟨hr1, e1, ih⟩ := ih
      refine ⟨.step op hr1 hs, (frame_step op (reachable_regInv hr1) (reachable_issInv hr1) hs).self.trans e1, fun u' hu' => ?_⟩
      obtain ⟨i1, i2⟩ := ih _ (isSum_unstakesIn C w1)
      obtain ⟨j1, j2⟩ := C105_step hr1 hs (e1 ▸ hself) (isSum_unstakesIn C w1) hu'
      constructor <;> linarith
  exact key.2.2 u' hu'

/-- **C105**, the account is never empty-handed: every history has one, whatever was attempted in it. -/
theorem C105_all (C : Finset Addr) (w : World) (ops : List Op) : ∃ h s g lo hi, Account C w (run w ops) h s g lo hi := by
  suffices H : ∀ (ops : List Op) (w1 : World) (h s g lo hi : ℚ), Account C w w1 h s g lo hi →
      ∃ h s g lo hi, Account C w (run w1 ops) h s g lo hi from H ops w 0 0 0 0 0 .nil
  intro ops
  induction ops with
  | nil => exact fun w1 h s g lo hi ha => ⟨h, s, g, lo, hi, ha⟩
  | cons op ops ih =>
    intro w1 h s g lo hi ha
    show ∃ h s g lo hi, Account C w (run (exec w1 op) ops) h s g lo hi
    cases hs : step w1 op with
    | ok w2 =>
      have e : exec w1 op = w2 := by unfold exec; rw [hs]
      rw [e]
      exact ih _ _ _ _ _ _ (.snoc op ha hs)
    | error _ =>
      have e : exec w1 op = w1 := by unfold exec; rw [hs]
      rw [e]
      exact ih _ _ _ _ _ _ ha

/-- **C105**, no entry is negative, and rounding never brings a group more than one unit, of EGLD or of LS token, in a transaction. -/
theorem C105_entries {C : Finset Addr} {w w' : World} {op : Op} (hr : Reachable w) (hs : step w op = .ok w') :
    0 ≤ handed C w w' op ∧ 0 ≤ spent C w op ∧ 0 ≤ shareOf C w op ∧ shareOf C w op ≤ creditedBy w op ∧
    0 ≤ roundingLoss C w op ∧ roundingLoss C w op ≤ max (rate w) 1 ∧
    0 ≤ roundingGain C w w' op ∧ (w.self ∉ C → roundingGain C w w' op ≤ max (rate w) 1) := by
  have hrate : 0 ≤ rate w := by unfold rate; positivity
  have hm : (0 : ℚ) ≤ max (rate w) 1 := le_trans zero_le_one (le_max_right _ _)
  have hl : ∑ a ∈ C, lsOf w a ≤ supply w := by
    obtain ⟨s, hs1, hs2⟩ := C05_supply_is_total hr
    exact Nat.le_trans (isSum_ge hs1 C) (by omega)
  refine ⟨?_, ?_, by unfold shareOf; positivity, ?_, ?_, ?_, ?_, ?_⟩
  · unfold handed; split <;> (try split) <;> (try split) <;> positivity
  · unfold spent; split <;> (try split) <;> positivity
  · unfold shareOf
    rcases Nat.eq_zero_or_pos (supply w) with h0 | h0
    · rw [h0]; simp
    · have qS : (0 : ℚ) < supply w := by exact_mod_cast h0
      have ql : ((∑ a ∈ C, lsOf w a : Nat) : ℚ) ≤ supply w := by exact_mod_cast hl
      rw [div_le_iff₀ qS]
      exact mul_le_mul_of_nonneg_left ql (by positivity)
  · unfold roundingLoss; split <;> (try split) <;> first | exact hm | exact le_refl _
  · unfold roundingLoss; split <;> (try split) <;> first | exact hm | exact le_refl _
  · unfold roundingGain; split <;> (try split) <;> first | positivity | exact le_refl _
  · intro hself
    have out : ∀ c, dealer w op = some c → c ∉ C → ∑ a ∈ C, lsOf w a ≤ supply w' := by
      intro c hd hc
      have e2 : ∑ a ∈ C, lsOf w' a = ∑ a ∈ C, lsOf w a := sum_same (outsider_ls hr hs hself hd hc)
      obtain ⟨s, hs1, hs2⟩ := C05_supply_is_total (.step op hr hs)
      rw [← e2]
      exact Nat.le_trans (isSum_ge hs1 C) (by omega)
    unfold roundingGain
    cases hd : dealer w op with
    | none => exact hm
    | some c =>
      dsimp only
      split
      · exact hm
      · rename_i hc
        have hl' := out c hd hc
        rcases Nat.eq_zero_or_pos (supply w') with h0 | h0
        · rw [h0]; simp only [Nat.cast_zero, div_zero, mul_zero]; exact hm
        · have qS : (0 : ℚ) < supply w' := by exact_mod_cast h0
          have ql : ((∑ a ∈ C, lsOf w a : Nat) : ℚ) ≤ supply w' := by exact_mod_cast hl'
          calc max (rate w) 1 * (((∑ a ∈ C, lsOf w a : Nat) : ℚ) / (supply w' : ℚ)) ≤ max (rate w) 1 * 1 :=
                mul_le_mul_of_nonneg_left ((div_le_one qS).2 ql) hm
            _ = max (rate w) 1 := mul_one _

/-- Account 12 holds 50 LS tokens of 152.  A claim credits 6.72 EGLD: its share is 2.21.  Then account 11, an outsider, redeems an
amount that does not divide evenly, and account 12 gains by the rounding; then account 12 deposits an odd amount itself and loses by it;
in both cases less than a unit. -/
def afterClaim : World := exec claiming (.deliver 0 (.ok (E 7) (E 7)))

def afterClaimLeft : World := exec afterClaim (.unDelegate 11 0 [⟨500, 0, E 1 + 7⟩])

def afterClaimJoined : World := exec afterClaim (.delegate 12 (E 1 + 1))

theorem afterClaim_reachable : Reachable afterClaim := reachable_exec claiming_reachable _

example : Reachable claiming ∧ claiming.self ∉ ({12} : Finset Addr) ∧
    step claiming (.deliver 0 (.ok (E 7) (E 7))) = .ok afterClaim ∧
    2210526315789473684 < shareOf {12} claiming (.deliver 0 (.ok (E 7) (E 7))) ∧
    worth {12} afterClaim 0 = worth {12} claiming 0 + shareOf {12} claiming (.deliver 0 (.ok (E 7) (E 7))) := by
  refine ⟨claiming_reachable, by decide +kernel, step_exec (by decide +kernel), by decide +kernel, by decide +kernel⟩

example : step afterClaim (.unDelegate 11 0 [⟨500, 0, E 1 + 7⟩]) = .ok afterClaimLeft ∧
    handed {12} afterClaim afterClaimLeft (.unDelegate 11 0 [⟨500, 0, E 1 + 7⟩]) = 0 ∧
    shareOf {12} afterClaim (.unDelegate 11 0 [⟨500, 0, E 1 + 7⟩]) = 0 ∧
    worth {12} afterClaim 0 < worth {12} afterClaimLeft 0 ∧
    worth {12} afterClaimLeft 0 < worth {12} afterClaim 0 + 1 ∧
    worth {12} afterClaimLeft 0 ≤ worth {12} afterClaim 0 + roundingGain {12} afterClaim afterClaimLeft (.unDelegate 11 0 [⟨500, 0, E 1 + 7⟩]) := by
  refine ⟨step_exec (by decide +kernel), rfl, by decide +kernel, by decide +kernel, by decide +kernel, by decide +kernel⟩

example : step afterClaim (.delegate 12 (E 1 + 1)) = .ok afterClaimJoined ∧
    worth {12} afterClaimJoined 0 < worth {12} afterClaim 0 ∧
    worth {12} afterClaim 0 - roundingLoss {12} afterClaim (.delegate 12 (E 1 + 1)) ≤ worth {12} afterClaimJoined 0 := by
  refine ⟨step_exec (by decide +kernel), by decide +kernel, by decide +kernel⟩

/-- A history with all kinds of entries: rewards, an outsider's redemption, an own deposit, a gift received and a gift made. -/
example : ∃ (w w' : World) (h s g lo hi : ℚ), Reachable w ∧ w.self ∉ ({12} : Finset Addr) ∧ Account {12} w w' h s g lo hi ∧
    0 < h ∧ 0 < s ∧ 0 < g ∧ 0 < lo ∧ 0 < hi := by
  let w1 := afterClaim
  let w2 := exec w1 (.unDelegate 11 0 [⟨500, 0, E 1 + 7⟩])
  let w3 := exec w2 (.delegate 12 (E 1 + 1))
  let w4 := exec w3 (.transferLs 11 12 (E 3))
  let w5 := exec w4 (.transferLs 12 11 (E 2))
  have c1 : works claiming (.deliver 0 (.ok (E 7) (E 7))) = true := by decide +kernel
  have c2 : works w1 (.unDelegate 11 0 [⟨500, 0, E 1 + 7⟩]) = true := by decide +kernel
  have c3 : works w2 (.delegate 12 (E 1 + 1)) = true := by decide +kernel
  have c4 : works w3 (.transferLs 11 12 (E 3)) = true := by decide +kernel
  have c5 : works w4 (.transferLs 12 11 (E 2)) = true := by decide +kernel
  have a := (((((Account.nil (C := {12}) (w := claiming)).snoc _ (step_exec c1)).snoc _ (step_exec c2)).snoc _ (step_exec c3)).snoc _
    (step_exec c4)).snoc _ (step_exec c5)
  exact ⟨claiming, w5, _, _, _, _, _, claiming_reachable, by decide +kernel, a, by decide +kernel, by decide +kernel, by decide +kernel,
    by decide +kernel, by decide +kernel⟩

end LS
