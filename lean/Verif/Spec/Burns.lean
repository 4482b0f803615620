import Verif.Spec.Observe

/-! What holders burn on their own. -/

namespace LS.Spec

/-- LS tokens a transaction burns outside the contract. -/
def lsBurned : Op → Nat
  | .burnLs _ v => v
  | _ => 0

/-- Unstake tokens a transaction takes out of users' hands without paying for them: burned outside the contract, or sent to it by a plain
transfer. -/
def unstakesBurned : Op → Nat
  | .burnUnstake _ _ v => v
  | .giveUnstake _ _ v => v
  | _ => 0

end LS.Spec
