import Verif.Proofs.Order
import Verif.Demo

/-! The order in which answers arrive: C71. -/

namespace LS

open Spec Demo

/-- **C71.** Answers that have nothing to do with each other may change places: the answers can arrive in the new order too, and the
contract ends in the same state. -/
theorem C71_reordered_answers {w w1 : World} {l l' : List Answer} (hr : Reachable w) (h : Reorder l l') (hd : Delivers w l w1) :
    (∃ w2, Delivers w l' w2) ∧ ∀ w2, Delivers w l' w2 → Agree w1 w2 := by
  obtain ⟨a1, a2, a3, a4, _⟩ := delivers_abs hr hd
  obtain ⟨h1, h2, h3⟩ := reorder_abs (k := fixedOf w) h (absOf w)
  have hp : (l.map Prod.fst).Perm (l'.map Prod.fst) := h3.map _
  refine ⟨can_deliver (a4.trans (hp.append_right _)), fun w2 hd2 => ?_⟩
  obtain ⟨b1, b2, b3, b4, _⟩ := delivers_abs hr hd2
  refine agree_of (by rw [b1, a1, h1]) (by rw [b2, a2]) ?_ (by rw [a3, b3]; exact h2.append_left _)
  have := (a4.symm.trans b4).trans (hp.symm.append_right _)
  exact (List.perm_append_left_iff _).1 this

/-- **C71.** Without first delegations among them, the answers may arrive in any order that keeps the order of each provider's own
answers: the contract ends in the same state. -/
theorem C71_any_order {w w1 : World} {l l' : List Answer} (hr : Reachable w) (hn : ∀ x ∈ l, isFirst x.1 = false) (hp : l.Perm l')
    (ho : ∀ p, answersOf p l = answersOf p l') (hd : Delivers w l w1) :
    (∃ w2, Delivers w l' w2) ∧ ∀ w2, Delivers w l' w2 → Agree w1 w2 :=
  C71_reordered_answers hr (reorder_of_same hp hn ho) hd

/-- Two delegations, a call for rewards and a withdrawal on their way; provider 21 accepts, 22 refuses. -/
def answering : World := run staked [.claimRewards 1, .withdrawPending 1 21]

def answersA : List Answer :=
  [(.delegate 21 1615627648148068116, .ok 0 0), (.delegate 22 5104372351851931884, .err), (.claim [21, 22], .ok (E 3) (E 3)),
   (.withdraw 21, .ok 5 0)]

def answersB : List Answer :=
  [(.claim [21, 22], .ok (E 3) (E 3)), (.delegate 22 5104372351851931884, .err), (.delegate 21 1615627648148068116, .ok 0 0),
   (.withdraw 21, .ok 5 0)]

example : Reachable answering ∧ (∀ x ∈ answersA, isFirst x.1 = false) ∧ answersA.Perm answersB ∧
    (∀ p, answersOf p answersA = answersOf p answersB) ∧
    Delivers answering answersA (run answering [.deliver 0 (.ok 0 0), .deliver 0 .err, .deliver 0 (.ok (E 3) (E 3)), .deliver 0 (.ok 5 0)]) ∧
    Delivers answering answersB (run answering [.deliver 2 (.ok (E 3) (E 3)), .deliver 1 .err, .deliver 0 (.ok 0 0), .deliver 0 (.ok 5 0)]) := by
  refine ⟨reachable_run staked_reachable _, by decide +kernel, by decide +kernel, fun p => ?_, ?_, ?_⟩
  · by_cases h1 : p = 21
    · subst h1; decide +kernel
    · by_cases h2 : p = 22
      · subst h2; decide +kernel
      · simp [answersOf, answersA, answersB, calledBy, Ne.symm h1, Ne.symm h2]
  · exact .cons (i := 0) (by decide +kernel) (step_exec (by decide +kernel)) (.cons (i := 0) (by decide +kernel) (step_exec (by decide +kernel))
      (.cons (i := 0) (by decide +kernel) (step_exec (by decide +kernel)) (.cons (i := 0) (by decide +kernel) (step_exec (by decide +kernel)) .nil)))
  · exact .cons (i := 2) (by decide +kernel) (step_exec (by decide +kernel)) (.cons (i := 1) (by decide +kernel) (step_exec (by decide +kernel))
      (.cons (i := 0) (by decide +kernel) (step_exec (by decide +kernel)) (.cons (i := 0) (by decide +kernel) (step_exec (by decide +kernel)) .nil)))

/-- An un-delegation from provider 21 and a withdrawal from it are on their way. -/
def overtaking : World := run redeemed [.unDelegatePending 1 none, .withdrawPending 1 21]

theorem two_delivered {w : World} {i j : Nat} {f g : Flight} {o q : Outcome} (hf : w.flights[i]? = some f)
    (h1 : works w (.deliver i o) = true) (hg : (exec w (.deliver i o)).flights[j]? = some g)
    (h2 : works (exec w (.deliver i o)) (.deliver j q) = true) :
    Delivers w [(f, o), (g, q)] (exec (exec w (.deliver i o)) (.deliver j q)) :=
  .cons hf (step_exec h1) (.cons hg (step_exec h2) .nil)

/-- Both conditions are needed.  The answers of one provider may not change places: a withdrawal that overtakes the un-delegation it
belongs to is lost. -/
theorem C71_own_order_matters : ∃ w w1 w2 : World, ∃ x y : Answer, Reachable w ∧ calledBy x.1 = calledBy y.1 ∧ Delivers w [x, y] w1 ∧
    Delivers w [y, x] w2 ∧ withdrawable w1 = withdrawable w2 + E 1 ∧ egldOf w1 w.self = egldOf w2 w.self :=
  ⟨overtaking, exec (exec overtaking (.deliver 0 (.ok 0 0))) (.deliver 1 (.ok (E 1) 0)),
    exec (exec overtaking (.deliver 2 (.ok (E 1) 0))) (.deliver 0 (.ok 0 0)),
    (.undelegate 21 38672954215174376577, .ok 0 0), (.withdraw 21, .ok (E 1) 0), reachable_run redeemed_reachable _, rfl,
    two_delivered (by decide +kernel) (by decide +kernel) (by decide +kernel) (by decide +kernel),
    two_delivered (by decide +kernel) (by decide +kernel) (by decide +kernel) (by decide +kernel),
    by decide +kernel, by decide +kernel⟩

/-- A call for rewards and the first delegation of a third provider are on their way. -/
def pricing : World := run settled [.claimRewards 1, .whitelist 1 (E 1) 23 43 (E 1000) 0 20 900]

/-- And a first delegation that is answered before the rewards are credited gets more LS tokens than after. -/
theorem C71_first_order_matters : ∃ w w1 w2 : World, ∃ x y : Answer, Reachable w ∧ calledBy x.1 ≠ calledBy y.1 ∧ Delivers w [x, y] w1 ∧
    Delivers w [y, x] w2 ∧ supply w2 < supply w1 :=
  ⟨pricing, exec (exec pricing (.deliver 1 (.ok 0 0))) (.deliver 0 (.ok (E 3) (E 3))),
    exec (exec pricing (.deliver 0 (.ok (E 3) (E 3)))) (.deliver 0 (.ok 0 0)),
    (.whitelist 23 (E 1) 1, .ok 0 0), (.claim [21, 22], .ok (E 3) (E 3)), reachable_run settled_reachable _, by simp [calledBy],
    two_delivered (by decide +kernel) (by decide +kernel) (by decide +kernel) (by decide +kernel),
    two_delivered (by decide +kernel) (by decide +kernel) (by decide +kernel) (by decide +kernel),
    by decide +kernel⟩

end LS
