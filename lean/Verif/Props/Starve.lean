import Verif.Props.Ledger
import Verif.Props.Callbacks

/-! Callbacks that run out of gas: C78. -/

namespace LS
open Spec Demo

/-! ### C78 -/

/-- **C78.** An answer whose callback runs out of gas takes its call out of those in flight and leaves what it brought in the contract's
account; nothing else changes: not the pool, the records, the lists, anybody's EGLD or tokens. -/
theorem C78_starved {w w' : World} {i : Nat} {o : Outcome} (h : step w (.starve i o) = .ok w') :
    ∃ f, w.flights[i]? = some f ∧ w'.flights = w.flights.eraseIdx i ∧ w'.dead = w.dead ++ [f] ∧
      egldOf w' w.self = egldOf w w.self + brought f o ∧ (∀ a, a ≠ w.self → egldOf w' a = egldOf w a) ∧
      w' = { w with flights := w'.flights, dead := w'.dead, egld := w'.egld } := by
  obtain ⟨f, hf, rfl⟩ := starve_ok h
  have hb : attached f o = brought f o := by cases f <;> cases o <;> rfl
  refine ⟨f, hf, rfl, rfl, ?_, fun a ha => ?_, rfl⟩
  · show (credit w.egld w.self (attached f o)).get 0 w.self = _
    rw [get_credit, hb]; simp [egldOf]
  · show (credit w.egld w.self (attached f o)).get 0 a = _
    rw [get_credit, if_neg (Ne.symm ha)]; rfl

theorem delegationsTo_mem {p : Addr} {a : Nat} : ∀ {l : List Flight}, .delegate p a ∈ l → a ≤ delegationsTo p l
  | f :: l, h => by
    rcases List.mem_cons.1 h with h | h
    · subst h; simp [delegationsTo]
    · have := delegationsTo_mem h
      cases f <;> simp only [delegationsTo] <;> omega

theorem undelegationsFrom_mem {p : Addr} {a : Nat} : ∀ {l : List Flight}, .undelegate p a ∈ l → a ≤ undelegationsFrom p l
  | f :: l, h => by
    rcases List.mem_cons.1 h with h | h
    · subst h; simp [undelegationsFrom]
    · have := undelegationsFrom_mem h
      cases f <;> simp only [undelegationsFrom] <;> omega

/-- Calls whose callback failed are never taken up again. -/
theorem dead_prefix {w w' : World} (hr : Reachable w) (h : Later w w') : Reachable w' ∧ w.dead <+: w'.dead := by
  induction h with
  | nil => exact ⟨hr, List.prefix_rfl⟩
  | @snoc w1 w2 op _ hs _ ih =>
    obtain ⟨hr1, hp⟩ := ih
    refine ⟨.step op hr1 hs, hp.trans ?_⟩
    have hst := fstep (reachable_regInv hr1) hs
    generalize w2.flights = fl at hst
    generalize w2.dead = dd at hst ⊢
    cases hst <;> first | exact List.prefix_rfl | exact List.prefix_append _ _

/-- **C78**, lost for ever: the amount of a delegation or un-delegation whose callback ran out of gas stays counted as on its way at its
provider, whatever happens later. -/
theorem C78_for_ever {w w1 w' : World} {i : Nat} {o : Outcome} {p : Addr} {a : Nat} (hr : Reachable w)
    (h : step w (.starve i o) = .ok w1) (hl : Later w1 w') :
    (w.flights[i]? = some (.delegate p a) → a ≤ figure (·.pStake) w' p) ∧
    (w.flights[i]? = some (.undelegate p a) → a ≤ figure (·.pUnstake) w' p) := by
  obtain ⟨f, hf, _, hd, _⟩ := C78_starved h
  obtain ⟨hr', hpre⟩ := dead_prefix (.step _ hr h) hl
  have hm : f ∈ unsettled w' := List.mem_append_right _ (hpre.subset (by rw [hd]; simp))
  have hc := C21_counters_in_flight hr' p
  refine ⟨fun e => ?_, fun e => ?_⟩ <;> rw [hf] at e <;> cases e
  · rw [hc.1]; exact delegationsTo_mem hm
  · rw [hc.2]; exact undelegationsFrom_mem hm

/-- The redemption of `redeemed` was sent to the providers; provider 21's answer found no gas.  Both providers returned the EGLD. -/
def starving : World := run redeemed [
  .unDelegatePending 1 none, .starve 0 (.ok 0 0), .deliver 0 (.ok 0 0), .advance 60, .withdrawPending 1 21, .withdrawPending 1 22,
  .deliver 0 (.ok 38672954215174376577 0), .deliver 0 (.ok 3095466837457202370 0)]

theorem starving_reachable : Reachable starving := reachable_run (reachable_run settled_reachable _) _

/-- What is left of it when user 11 withdraws. -/
def underpaid : World := exec starving (.withdraw 11 0 [⟨501, 1, 41768421052631578947⟩])

/-- Non-vacuity. -/
example : ∃ (w w1 w' : World) (a : Nat), Reachable w ∧ step w (.starve 0 (.ok 0 0)) = .ok w1 ∧ 0 < a ∧
    w.flights[0]? = some (.undelegate 21 a) ∧ Later w1 w' ∧ w'.epoch = 60 := by
  let w := exec redeemed (.unDelegatePending 1 none)
  let w1 := exec w (.starve 0 (.ok 0 0))
  have hl : Later w1 (exec w1 (.advance 60)) := .snoc _ .nil (step_exec (by decide +kernel)) trivial
  exact ⟨w, _, _, 38672954215174376577, .step _ (reachable_run settled_reachable _) (step_exec (by decide +kernel)),
    step_exec (by decide +kernel), by decide, by decide +kernel, hl, by decide +kernel⟩

/-- What it means for holders: after one callback without gas the withdrawal of provider 21 cannot be booked either.  User 11's
unstake tokens have matured and the EGLD for them is in the contract's account, but they are paid the part from provider 22 only; the
rest is outside the contract's books and nothing is left unbonding.  With gas they would have been paid in full. -/
example : Reachable starving ∧ unstakeOf starving 1 11 = 41768421052631578947 ∧
    ((maturityOf starving 1).any fun e => decide (e ≤ starving.epoch)) = true ∧
    egldOf underpaid 11 = egldOf starving 11 + 3095466837457202370 ∧ unstakeOf underpaid 1 11 = 38672954215174376577 ∧
    spare underpaid = 38672954215174376577 ∧ withdrawable underpaid = 0 ∧ unbonding underpaid = 0 ∧
    egldOf (exec ready (.withdraw 11 0 [⟨501, 1, 41768421052631578947⟩])) 11 = egldOf ready 11 + 41768421052631578947 :=
  ⟨starving_reachable, by decide +kernel⟩

end LS
