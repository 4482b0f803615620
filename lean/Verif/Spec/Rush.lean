import Verif.Spec.Observe

/-! Holders of unstake tokens who withdraw after each other. -/

namespace LS.Spec

/-- Who withdraws, and the unstake tokens paid in. -/
abbrev Claimant := Addr × List Payment

/-- The claimants withdraw after each other, each successfully, and nothing else happens. -/
inductive Rush : List Claimant → World → World → Prop
  | nil {w : World} : Rush [] w w
  | cons {c : Addr} {ps : List Payment} {cs : List Claimant} {w w1 w2 : World} :
      step w (.withdraw c 0 ps) = .ok w1 → Rush cs w1 w2 → Rush ((c, ps) :: cs) w w2

/-- All that is claimed. -/
def claimedInAll (cs : List Claimant) : Nat := (cs.map fun x => totalPaid x.2).sum

/-- What account `a` claims. -/
def claimedBy (a : Addr) (cs : List Claimant) : Nat := (cs.map fun x => if x.1 = a then totalPaid x.2 else 0).sum

/-- What account `a` claims with nonce `n`. -/
def claimedWith (n : Nat) (a : Addr) (cs : List Claimant) : Nat := (cs.map fun x => if x.1 = a then paidWith n x.2 else 0).sum

end LS.Spec
