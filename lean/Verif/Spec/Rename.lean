import Verif.Model.Step

/-! Other names for the accounts: every address in the state and in a transaction replaced by another one. -/

namespace LS.Spec

/-- A ledger or table with its keys, and what it holds, renamed. -/
def renMap {K V : Type} (f : K → K) (g : V → V) (m : Map K V) : Map K V := m.map fun e => (f e.1, g e.2)

variable (f : Addr → Addr)

def renData (d : ProviderData) : ProviderData := { d with admin := f d.admin }

def renFlight : Flight → Flight
  | .delegate c a => .delegate (f c) a
  | .undelegate c a => .undelegate (f c) a
  | .withdraw c => .withdraw (f c)
  | .claim l => .claim (l.map f)
  | .whitelist c a u => .whitelist (f c) a (f u)

def renIssue (x : Issue) : Issue := { x with caller := f x.caller }

def renKind : EventKind → EventKind
  | .withdrawPending a c => .withdrawPending a (f c)
  | k => k

def renEvent : Event → Event
  | .change k c t r e => .change (renKind f k) (f c) t r e
  | .protocolRevenue x e => .protocolRevenue x e

def renStore (s : Store) : Store :=
  { s with
    accumulator := f s.accumulator
    managers := s.managers.map f
    migrationSc := s.migrationSc.map f
    delegList := s.delegList.map f
    undelegList := s.undelegList.map f
    data := renMap f (Option.map (renData f)) s.data }

/-- The world with other names for all accounts, those of the contract, the owner and the providers included. -/
def renWorld (w : World) : World :=
  { w with
    self := f w.self
    owner := f w.owner
    contracts := w.contracts.map f
    st := renStore f w.st
    egld := renMap f id w.egld
    ls := renMap f id w.ls
    nft := renMap (fun k => (k.1, f k.2)) id w.nft
    flights := w.flights.map (renFlight f)
    dead := w.dead.map (renFlight f)
    issues := w.issues.map (renIssue f)
    events := w.events.map (renEvent f) }

def renCmd : OwnerCmd → OwnerCmd
  | .accumulator a => .accumulator (f a)
  | .addManagers l => .addManagers (l.map f)
  | .removeManager a => .removeManager (f a)
  | c => c

/-- The transaction with other names for all accounts. -/
def renOp : Op → Op
  | .delegate c v => .delegate (f c) v
  | .unDelegate c v ps => .unDelegate (f c) v ps
  | .withdraw c v ps => .withdraw (f c) v ps
  | .upgrade => .upgrade
  | .delegatePending c a => .delegatePending (f c) a
  | .unDelegatePending c a => .unDelegatePending (f c) a
  | .withdrawPending c p => .withdrawPending (f c) (f p)
  | .claimRewards c => .claimRewards (f c)
  | .claimFees c a => .claimFees (f c) a
  | .whitelist c v p ad ts cap n apy => .whitelist (f c) v (f p) (f ad) ts cap n apy
  | .changeAdmin c p a => .changeAdmin (f c) (f p) (f a)
  | .changeParams c p ts cap n apy e => .changeParams (f c) (f p) ts cap n apy e
  | .migrate c v o => .migrate (f c) v (f o)
  | .migratePending c v => .migratePending (f c) v
  | .addRewards c v => .addRewards (f c) v
  | .setMigrationSc c a => .setMigrationSc (f c) (f a)
  | .registerLsToken c v => .registerLsToken (f c) v
  | .registerUnstakeToken c v => .registerUnstakeToken (f c) v
  | .owner c cmd => .owner (f c) (renCmd f cmd)
  | .setScoringConfig c cfg => .setScoringConfig (f c) cfg
  | .viewLsValue l => .viewLsValue l
  | .viewEgldPosition e => .viewEgldPosition e
  | .deliver i o => .deliver i o
  | .issued i o => .issued i o
  | .transferLs s d v => .transferLs (f s) (f d) v
  | .transferNft s d n v => .transferNft (f s) (f d) n v
  | .fund a v => .fund (f a) v
  | .advance e => .advance e
  | .changeOwner c d => .changeOwner (f c) (f d)
  | .burnLs a v => .burnLs (f a) v
  | .burnUnstake a n v => .burnUnstake (f a) n v
  | .starve i o => .starve i o
  | .transferEgld s d v => .transferEgld (f s) (f d) v
  | .giveEgld s v => .giveEgld (f s) v
  | .giveLs s v => .giveLs (f s) v
  | .giveUnstake s n v => .giveUnstake (f s) n v

/-- Different accounts keep different names, and the two addresses that the code writes out keep theirs: the zero address (migrate.rs:20-23)
and the delegation manager of the protocol (constants/mod.rs:15-16). -/
structure Renaming : Prop where
  inj : ∀ a b, f a = f b → a = b
  zero : f 0 = 0
  manager : f DELEGATION_MANAGER = DELEGATION_MANAGER

end LS.Spec
