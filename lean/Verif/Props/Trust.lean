import Verif.Props.Accept
import Verif.Props.Economy
import Verif.Props.Deposit
import Verif.Props.Parts

/-! What the operators can take: C107. -/

namespace LS
open Spec Demo

/-- EGLD that is there for the holders of LS tokens and for redemptions not yet collected: waiting, staked with providers (`s` in all) and on
the way to them (delegations whose answer was lost included). -/
def Spec.backing (w : World) (s : Nat) : Nat := pendingEgld w + s + allDelegations (unsettled w)

/-- What it has to cover: the value of all LS tokens, redemptions queued and stake asked back. -/
def Spec.promised (w : World) : Nat := reserve w + toUndelegate w + allUndelegations (unsettled w)

/-- Transactions of two accounts that bring no EGLD along. -/
def Spec.FreeOf (o m : Addr) (op : Op) : Prop :=
  (∃ a, op = .setMigrationSc o a) ∨ (∃ v x, op = .migrate m v x) ∨ ∃ p, op = .unDelegate m 0 p

private theorem coined {S R v : Nat} (hR : 0 < R) (hv : R ≤ v) (hS : 0 < S) :
    0 < v * S / R ∧ v - R ≤ (v * S / R) * (R + v) / (S + v * S / R) ∧ (v * S / R) * (R + v) / (S + v * S / R) ≤ v := by
  have h1 : v * S / R * R ≤ v * S := Nat.div_mul_le_self _ _
  have h2 : v * S < v * S / R * R + R := Nat.lt_div_mul_add hR
  have h0 : 0 < v * S / R := Nat.div_pos (Nat.le_trans hv (Nat.le_mul_of_pos_right _ hS)) hR
  generalize v * S / R = l at *
  refine ⟨h0, ?_, ?_⟩
  · rw [Nat.le_div_iff_mul_le (by omega)]
    obtain ⟨k, rfl⟩ := Nat.exists_eq_add_of_le hv
    rw [Nat.add_sub_cancel_left]
    nlinarith
  · refine Nat.le_of_lt_succ ((Nat.div_lt_iff_lt_mul (by omega)).2 ?_)
    nlinarith

/-- **C107 is false of the code.**  In every state with an active contract and LS tokens in existence the owner and any contract `m` can take
all EGLD waiting in the contract, without bringing any: `m` is made the migration contract, credits itself LS tokens and redeems them.
Afterwards there are as many LS tokens as before, held by the same accounts, and the rate is no lower: nothing shows. -/
theorem C107_theft {w : World} {m : Addr} {t : TokenId} (hr : ReachableBy HonestManager w) (ha : w.st.state = .active)
    (ht : w.st.lsToken = some t) (hu : w.st.unstakeToken ≠ none) (hS : 0 < supply w) (ho : w.owner ≠ w.self) (hm : m ∈ w.contracts)
    (hm0 : m ≠ 0) (hms : m ≠ w.self) :
    ∃ w', Trace (fun _ op _ => FreeOf w.owner m op) w w' ∧ egldOf w' m = egldOf w m + pendingEgld w ∧ pendingEgld w' = 0 ∧
      (∀ a, lsOf w' a = lsOf w a) ∧ supply w' = supply w ∧ reserve w ≤ reserve w' ∧ ∀ n, unstakeOf w n m ≤ unstakeOf w' n m := by
  have hR : 0 < reserve w := (C06_reserve_positive (reachableBy_reachable hr)).2 hS
  obtain ⟨v, hv⟩ : ∃ v, v = pendingEgld w + oneEgld + reserve w := ⟨_, rfl⟩
  obtain ⟨k1, k2, k3⟩ := coined (S := supply w) (v := v) hR (by omega) hS
  have hl : lsFor (supply w) (reserve w) v = v * supply w / reserve w := if_neg (by omega)
  obtain ⟨w1, e1, s1⟩ : ∃ w1, w1 = ({ w with st := { w.st with migrationSc := some m } } : World) ∧
      step w (.setMigrationSc w.owner m) = .ok w1 := ⟨_, rfl, setMigrationSc_ok.2 ⟨ho, rfl, hm, rfl⟩⟩
  have t1 : w1.st.lsToken = some t := by rw [e1]; exact ht
  have r1 : supply w1 = supply w ∧ reserve w1 = reserve w ∧ pendingEgld w1 = pendingEgld w := by rw [e1]; exact ⟨rfl, rfl, rfl⟩
  have b1 : (∀ a, lsOf w1 a = lsOf w a) ∧ (∀ a, egldOf w1 a = egldOf w a) ∧ ∀ n a, unstakeOf w1 n a = unstakeOf w n a := by
    rw [e1]; exact ⟨fun _ => rfl, fun _ => rfl, fun _ _ => rfl⟩
  have q1 : w1.st.state = .active ∧ w1.st.unstakeToken ≠ none ∧ w1.self = w.self := by rw [e1]; exact ⟨ha, hu, rfl⟩
  obtain ⟨w2, s2⟩ : ∃ w2, step w1 (.migrate m v m) = .ok w2 :=
    ⟨_, migrate_ok.2 ⟨by rw [q1.2.2]; exact hms, by rw [e1], hm0, by rw [e1]; exact hm, t, _, t1,
      lsQuote_iff.2 ⟨by show 0 < lsFor (supply w1) (reserve w1) v; rw [r1.1, r1.2.1, hl]; exact k1, rfl⟩, rfl⟩⟩
  have hr1 : ReachableBy HonestManager w1 := reachableBy_trace hr (.snoc _ .nil s1 trivial)
  have hr2 : ReachableBy HonestManager w2 := reachableBy_trace hr1 (.snoc _ .nil s2 trivial)
  obtain ⟨_, c1, c2, c3, c4, _, c5, c6, c7, _⟩ := C39_migrate (reachableBy_reachable hr1) s2
  rw [r1.1, r1.2.1, hl] at c1 c3
  rw [r1.2.1] at c4
  have ht2 := C64_only_its_parts (reachableBy_reachable hr1) s2 .lsSlot (by simp [touched])
  have hu2 := C64_only_its_parts (reachableBy_reachable hr1) s2 .unstakeSlot (by simp [touched])
  have ha2 := C64_only_its_parts (reachableBy_reachable hr1) s2 .switch (by simp [touched])
  have hself2 := (frame_step _ (reachable_regInv (reachableBy_reachable hr1)) (reachable_issInv (reachableBy_reachable hr1)) s2).self
  have hval : egldFor (supply w2) (reserve w2) (v * supply w / reserve w) =
      (v * supply w / reserve w) * (reserve w + v) / (supply w + v * supply w / reserve w) := by rw [c3, c4]; rfl
  obtain ⟨w3, s3⟩ := C16_redemption_accepted hr2 (c := m) (t := t) (l := v * supply w / reserve w) (by rw [ha2]; exact q1.1)
    (by rw [ht2.1]; exact t1) (by rw [hu2.1]; exact q1.2.1) (by rw [hself2, q1.2.2]; exact hms) (by omega) (by rw [hval]; omega)
  obtain ⟨i, u, k, hsp, hpay, p1, _⟩ := C14_unDelegate_split s3
  obtain ⟨t', l', i', u', n', f1, f2, f3, f4, f5, f6, f7, f8, f9, f10, f11, f12, f13⟩ := C02_unDelegate_pays_pro_rata s3
  obtain rfl : v * supply w / reserve w = l' := by simp at f2; exact f2.2
  rw [c7, r1.2.2] at hsp p1
  have hi : i = pendingEgld w := by
    have := hsp.largest (pendingEgld w) (Nat.le_refl _) (by rw [hval]; omega) (.inl (by omega)) (.inr (by rw [hval]; omega))
    have := hsp.fits
    omega
  refine ⟨w3, .snoc _ (.snoc _ (.snoc _ .nil s1 (.inl ⟨_, rfl⟩)) s2 (.inr (.inl ⟨_, _, rfl⟩))) s3 (.inr (.inr ⟨_, rfl⟩)), ?_, ?_, ?_, ?_, ?_, ?_⟩
  · rw [hpay.1, c5, b1.2.1, hi]
  · omega
  · intro a
    by_cases h : a = m
    · subst h
      have := b1.1 a
      omega
    · rw [f12 a h, c2 a h, b1.1]
  · omega
  · rw [hval] at f5
    omega
  · intro n
    by_cases h : n = k
    · subst h
      rw [hpay.2.1, c6, b1.2.2]
      omega
    · rw [hpay.2.2 n h, c6, b1.2.2]

/-- Users 11 and 12 deposited 150 EGLD, which wait in the contract; 3 is a contract of the owner. -/
example : ReachableBy HonestManager deposited ∧ deposited.st.state = .active ∧ 0 < supply deposited ∧ deposited.owner ≠ deposited.self ∧
    3 ∈ deposited.contracts ∧ pendingEgld deposited = E 150 ∧
    egldOf (run deposited [.setMigrationSc 1 3, .migrate 3 (E 303) 3, .unDelegate 3 0 [⟨500, 0, E 303⟩]]) 3 = egldOf deposited 3 + E 150 :=
  ⟨reachableBy_honest (ops := [.registerLsToken 1 0, .issued 0 (some 500), .registerUnstakeToken 1 0, .issued 0 (some 501),
    .owner 1 .stateActive, .setScoringConfig 1 ScoringConfig.default, .whitelist 1 (E 1) 21 41 (E 1000) (E 1500) 10 800,
    .deliver 0 (.ok 0 0), .whitelist 1 (E 1) 22 42 (E 1000) 0 20 900, .deliver 0 (.ok 0 0), .delegate 11 (E 100), .delegate 12 (E 50)])
    (by decide +kernel), by decide +kernel, by decide +kernel, by decide +kernel, by decide +kernel, by decide +kernel, by decide +kernel⟩

/-- **C107**, exactly when the LS tokens are covered: when the reserve credited to migration contracts in all does not exceed the EGLD they
brought. -/
theorem C107_covered_iff {w : World} (hr : Reachable w) :
    ∃ s, IsSum (figure (·.staked) w) s ∧ (promised w ≤ backing w s ↔ w.migratedVirtual ≤ w.migratedPending) ∧
      promised w + w.migratedPending = backing w s + w.migratedVirtual := by
  obtain ⟨s, h1, h2⟩ := C08_reserve_backed hr
  refine ⟨s, h1, ?_, ?_⟩ <;> unfold promised backing <;> omega

example : Reachable redeemed ∧ promised redeemed = E 152 + 6720000000000000000 ∧ redeemed.migratedVirtual = 0 :=
  ⟨redeemed_reachable, by decide +kernel, by decide +kernel⟩

/-- **C107** is false of the code: two users deposit 150 EGLD, a contract of the owner takes them, and 150 EGLD are missing from what is
there for the LS tokens; nothing is on its way that could bring them. -/
theorem C107_false : ∃ w s, Reachable w ∧ IsSum (figure (·.staked) w) s ∧ w.flights = [] ∧ backing w s + 150 * oneEgld ≤ promised w ∧
    lsOf w 11 = 100 * oneEgld ∧ lsOf w 12 = 50 * oneEgld ∧ egldOf w w.self = 0 := by
  have hr : Reachable (run deposited [.setMigrationSc 1 3, .migrate 3 (E 150) 3, .unDelegate 3 0 [⟨500, 0, E 150⟩]]) :=
    reachable_run deposited_reachable _
  obtain ⟨s, h1, _, h2⟩ := C107_covered_iff hr
  refine ⟨_, s, hr, h1, by decide +kernel, ?_, by decide +kernel, by decide +kernel, by decide +kernel⟩
  have e1 : (run deposited [.setMigrationSc 1 3, .migrate 3 (E 150) 3, .unDelegate 3 0 [⟨500, 0, E 150⟩]]).migratedVirtual = 150 * oneEgld := by
    decide +kernel
  have e2 : (run deposited [.setMigrationSc 1 3, .migrate 3 (E 150) 3, .unDelegate 3 0 [⟨500, 0, E 150⟩]]).migratedPending = 0 := by
    decide +kernel
  rw [e1, e2] at h2
  omega

/-- **C107, what does hold.**  The full claim ("what the LS tokens are worth is there", for all reachable worlds) is refuted by
`C107_false`, and `C107_theft` shows that it can be broken out of every state.  True is: it holds in every history without `migrate`,
whatever owner, managers, providers and users do.  Missing from the code is a payment of EGLD with `migrate`. -/
theorem C107_partial {w : World} (hr : ReachableBy (fun _ op _ => ∀ c v o, op ≠ .migrate c v o) w) :
    ∃ s, IsSum (figure (·.staked) w) s ∧ promised w ≤ backing w s := by
  have key : w.migratedVirtual = 0 := by
    obtain ⟨w0, hi, ht⟩ := hr
    induction ht with
    | nil =>
      obtain ⟨self, owner, contracts, epoch, funds, acc, fees, rpe, mr, ms, ma, ub, _, _, rfl⟩ := isInit_eq hi
      rfl
    | @snoc w1 w2 op ht hs hp ih =>
      have hr1 : Reachable w1 := reachable_trace (.init hi) ht
      by_cases hmp : ∃ c v, op = .migratePending c v
      · obtain ⟨c, v, rfl⟩ := hmp
        obtain ⟨_, _, _, _, _, _, _, _, rfl⟩ := migratePending_ok.1 hs
        exact ih
      · have : Part.migrated ∉ touched w1 op := by
          cases op
          case migrate c v o => exact absurd rfl (hp c v o)
          case migratePending c v => exact absurd ⟨c, v, rfl⟩ hmp
          case unDelegate c v ps => simp only [touched, positionParts]; split <;> simp
          case owner c cmd => cases cmd <;> simp [touched, settingOf]
          case issued i o => simp only [touched]; split <;> simp
          case deliver i o =>
            simp only [touched]
            split
            · next f _ => cases f <;> cases o <;> simp [callbackParts]; split <;> simp
            · simp
          all_goals simp [touched]
        rw [(C64_only_its_parts hr1 hs _ this).1]
        exact ih
  obtain ⟨s, h1, h2, _⟩ := C107_covered_iff (reachableBy_reachable hr)
  exact ⟨s, h1, h2.2 (by omega)⟩

private def noMigrate : List Op → Bool
  | [] => true
  | .migrate .. :: _ => false
  | _ :: ops => noMigrate ops

private theorem reachableBy_noMigrate {ops : List Op} (h : noMigrate ops = true) :
    ReachableBy (fun _ op _ => ∀ c v o, op ≠ .migrate c v o) (run fresh ops) := by
  refine ⟨fresh, fresh_isInit, trace_of_run (fun _ => noMigrate) (fun w op ops h => ?_) ops fresh h⟩
  cases op <;> first | exact ⟨h, fun _ _ _ _ _ e => by cases e⟩ | cases h

/-- A history of deposits, batches, rewards and redemptions. -/
example : ReachableBy (fun _ op _ => ∀ c v o, op ≠ .migrate c v o) (run fresh busy) ∧ 0 < reserve (run fresh busy) ∧
    0 < withdrawable (run fresh busy) :=
  ⟨reachableBy_noMigrate (by decide +kernel), by decide +kernel, by decide +kernel⟩

end LS
