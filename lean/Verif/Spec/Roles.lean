import Verif.Spec.Observe

/-! Appointments: the calls that give a role, and to whom. -/

namespace LS.Spec

/-- The accounts a transaction would give a role: manager, owner, migration contract, admin of a provider. -/
def names : Op → List Addr
  | .owner _ (.addManagers l) => l
  | .changeOwner _ d => [d]
  | .setMigrationSc _ a => [a]
  | .whitelist _ _ _ admin _ _ _ _ => [admin]
  | .changeAdmin _ _ admin => [admin]
  | _ => []

end LS.Spec
