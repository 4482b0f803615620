import Verif.Spec.Effects
import Verif.Spec.Parts

/-! The order in which answers arrive. -/

namespace LS.Spec

/-- An answer: the call it answers, and how. -/
abbrev Answer := Flight × Outcome

/-- The answers in the list arrive one after the other, each to a call that is on its way. -/
inductive Delivers : World → List Answer → World → Prop
  | nil {w : World} : Delivers w [] w
  | cons {w w1 w' : World} {i : Nat} {f : Flight} {o : Outcome} {l : List Answer} (call : w.flights[i]? = some f)
      (now : step w (.deliver i o) = .ok w1) (later : Delivers w1 l w') : Delivers w ((f, o) :: l) w'

/-- The provider a call went to; a call for rewards goes to the delegation manager. -/
def calledBy : Flight → Option Addr
  | .delegate p _ => some p
  | .undelegate p _ => some p
  | .withdraw p => some p
  | .claim _ => none
  | .whitelist p _ _ => some p

/-- A first delegation: its answer mints LS tokens at the rate of the moment. -/
def isFirst : Flight → Bool
  | .whitelist .. => true
  | _ => false

/-- A call whose answer changes the rate, or could. -/
def isPricing : Flight → Bool
  | .whitelist .. => true
  | .claim _ => true
  | _ => false

/-- Two calls that have nothing to do with each other: they went to different addresses, and not one of them mints at a rate that the
other changes. -/
def Apart (f g : Flight) : Prop :=
  (calledBy f = none ∨ calledBy f ≠ calledBy g) ∧ (isFirst f = true → isPricing g = false) ∧ (isFirst g = true → isPricing f = false)

instance (f g : Flight) : Decidable (Apart f g) := by unfold Apart; infer_instance

/-- One list is the other with neighbours swapped, any number of times, that have nothing to do with each other. -/
inductive Reorder : List Answer → List Answer → Prop
  | refl {l : List Answer} : Reorder l l
  | swap {pre post : List Answer} {x y : Answer} (apart : Apart x.1 y.1) : Reorder (pre ++ x :: y :: post) (pre ++ y :: x :: post)
  | trans {l l' l'' : List Answer} : Reorder l l' → Reorder l' l'' → Reorder l l''

/-- The answers of one provider, in the order in which they arrive. -/
def answersOf (p : Addr) (l : List Answer) : List Answer := l.filter (fun x => calledBy x.1 = some p)

/-- Two worlds are the same in everything the contract and its users can see: every part of the state; the calls on their way and the
callbacks that failed up to their order.  Only the log of events, which has no order-free meaning, is left out. -/
structure Agree (w w' : World) : Prop where
  parts : ∀ x : Part, x ≠ .calls → x ≠ .failed → x ≠ .events → Same w w' x
  calls : w.flights.Perm w'.flights
  failed : w.dead.Perm w'.dead

end LS.Spec
