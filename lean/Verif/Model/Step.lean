import Verif.Model.Callbacks

/-! Transactions, executions and reachable worlds. -/

namespace LS

/-- Everything that can happen: endpoint calls, callbacks, and the moves of the rest of the chain. -/
inductive Op
  -- lib.rs
  | delegate (caller : Addr) (value : Nat)
  | unDelegate (caller : Addr) (value : Nat) (ps : List Payment)
  | withdraw (caller : Addr) (value : Nat) (ps : List Payment)
  | upgrade
  -- manage.rs
  | delegatePending (caller : Addr) (amount : Option Nat)
  | unDelegatePending (caller : Addr) (amount : Option Nat)
  | withdrawPending (caller contract : Addr)
  | claimRewards (caller : Addr)
  | claimFees (caller : Addr) (accepts : Bool)
  -- delegation.rs
  | whitelist (caller : Addr) (value : Nat) (contract admin : Addr) (totalStaked cap : Nat) (nrNodes apy : UInt64)
  | changeAdmin (caller contract admin : Addr)
  | changeParams (caller contract : Addr) (totalStaked cap : Nat) (nrNodes apy : UInt64) (eligible : Bool)
  -- migrate.rs
  | migrate (caller : Addr) (virtualAmount : Nat) (originalCaller : Addr)
  | migratePending (caller : Addr) (value : Nat)
  | addRewards (caller : Addr) (value : Nat)
  | setMigrationSc (caller a : Addr)
  -- config.rs
  | registerLsToken (caller : Addr) (value : Nat)
  | registerUnstakeToken (caller : Addr) (value : Nat)
  | owner (caller : Addr) (cmd : OwnerCmd)
  | setScoringConfig (caller : Addr) (cfg : ScoringConfig)
  -- views.rs (the two views that go through the cache write it back)
  | viewLsValue (ls : Nat)
  | viewEgldPosition (egld : Nat)
  -- environment
  | deliver (i : Nat) (o : Outcome)
  | issued (i : Nat) (o : Option TokenId)
  | transferLs (src dst : Addr) (v : Nat)
  | transferNft (src dst : Addr) (n v : Nat)
  | fund (a : Addr) (v : Nat)
  | advance (epoch : UInt64)
  | changeOwner (caller dst : Addr)
  | burnLs (holder : Addr) (v : Nat)
  | burnUnstake (holder : Addr) (n v : Nat)
  | starve (i : Nat) (o : Outcome)
  | transferEgld (src dst : Addr) (v : Nat)
  | giveEgld (src : Addr) (v : Nat)
  | giveLs (src : Addr) (v : Nat)
  | giveUnstake (src : Addr) (n v : Nat)
  deriving DecidableEq, Repr

/-- VM: a transfer of LS tokens between two users (for transfers to the contract see `giveLs`). -/
def transferLs (w : World) (src dst : Addr) (v : Nat) : Res World := do
  requireUser w src
  requireUser w dst
  let m ← debit w.ls src v
  .ok { w with ls := credit m dst v }

/-- VM: a transfer of unstake tokens between two users. -/
def transferNft (w : World) (src dst : Addr) (n v : Nat) : Res World := do
  requireUser w src
  requireUser w dst
  let m ← debit w.nft (n, src) v
  .ok { w with nft := credit m (n, dst) v }

/-- EGLD reaching a user from outside the modelled part of the chain. -/
def fund (w : World) (a : Addr) (v : Nat) : Res World := do
  requireUser w a
  .ok { w with egld := credit w.egld a v }

/-- Time passes: epochs never decrease. -/
def advance (w : World) (e : UInt64) : Res World := do
  req (w.epoch ≤ e) .badEpoch
  .ok { w with epoch := e }

/-- VM: the built-in function `ChangeOwnerAddress`, by which the owner of the contract makes any account its owner.  The code never
stores the owner: `only_owner` endpoints (config.rs:10-109, migrate.rs:84) and `is_manager` (config.rs:126) ask the chain. -/
def changeOwner (w : World) (caller dst : Addr) : Res World := do
  requireUser w caller
  requireOwner w caller
  .ok { w with owner := dst }

/-- VM: a user burns LS tokens of their own (the protocol's `ESDTLocalBurn`, open to every holder of a token issued without
restricting it, as in config.rs:14-26).  The contract takes no part and its `getLsSupply` does not change. -/
def holderBurnLs (w : World) (a : Addr) (v : Nat) : Res World := do
  requireUser w a
  let m ← debit w.ls a v
  .ok { w with ls := m, burntLs := w.burntLs + v }

/-- VM: a user burns unstake tokens of their own (`ESDTNFTBurn`). -/
def holderBurnNft (w : World) (a : Addr) (n v : Nat) : Res World := do
  requireUser w a
  let m ← debit w.nft (n, a) v
  .ok { w with nft := m, burntUnstake := w.burntUnstake + v }

/-- VM: a transfer of EGLD between two users. -/
def transferEgld (w : World) (src dst : Addr) (v : Nat) : Res World := do
  requireUser w src
  requireUser w dst
  let m ← debit w.egld src v
  .ok { w with egld := credit m dst v }

/-- VM: a smart contract sends EGLD to the contract by a plain transfer, calling no endpoint.  interaction/devnet.snippets.sh:15,24
deploys and upgrades the contract with `--metadata-payable-by-sc`: the chain accepts plain transfers to it from smart contracts and from
nobody else. -/
def giveEgld (w : World) (src : Addr) (v : Nat) : Res World := do
  requireUser w src
  req (src ∈ w.contracts) .notPayable
  let m ← debit w.egld src v
  .ok { w with egld := credit m w.self v }

/-- VM: a smart contract sends LS tokens to the contract by a plain transfer. -/
def giveLs (w : World) (src : Addr) (v : Nat) : Res World := do
  requireUser w src
  req (src ∈ w.contracts) .notPayable
  let m ← debit w.ls src v
  .ok { w with ls := credit m w.self v }

/-- VM: a smart contract sends unstake tokens to the contract by a plain transfer.  No user has them any more: they are counted with the
unstake tokens burnt by their holders. -/
def giveUnstake (w : World) (src : Addr) (n v : Nat) : Res World := do
  requireUser w src
  req (src ∈ w.contracts) .notPayable
  let m ← debit w.nft (n, src) v
  .ok { w with nft := credit m (n, w.self) v, burntUnstake := w.burntUnstake + v }

/-- One transaction. -/
def step (w : World) : Op → Res World
  | .delegate c v => delegate w c v
  | .unDelegate c v ps => unDelegate w c v ps
  | .withdraw c v ps => withdraw w c v ps
  | .upgrade => .ok w
  | .delegatePending c a => delegatePending w c a
  | .unDelegatePending c a => unDelegatePending w c a
  | .withdrawPending c p => withdrawPending w c p
  | .claimRewards c => claimRewards w c
  | .claimFees c a => claimFees w c a
  | .whitelist c v p ad ts cap n apy => whitelist w c v p ad ts cap n apy
  | .changeAdmin c p a => changeAdmin w c p a
  | .changeParams c p ts cap n apy e => changeParams w c p ts cap n apy e
  | .migrate c v o => migrate w c v o
  | .migratePending c v => migratePending w c v
  | .addRewards c v => addRewards w c v
  | .setMigrationSc c a => setMigrationSc w c a
  | .registerLsToken c v => registerLsToken w c v
  | .registerUnstakeToken c v => registerUnstakeToken w c v
  | .owner c cmd => ownerCmd w c cmd
  | .setScoringConfig c cfg => setScoringConfig w c cfg
  | .viewLsValue l => do let (_, w') ← viewLsValue w l; .ok w'
  | .viewEgldPosition e => do let (_, w') ← viewEgldPosition w e; .ok w'
  | .deliver i o => deliver w i o
  | .issued i o => issued w i o
  | .transferLs s d v => transferLs w s d v
  | .transferNft s d n v => transferNft w s d n v
  | .fund a v => fund w a v
  | .advance e => advance w e
  | .changeOwner c d => changeOwner w c d
  | .burnLs a v => holderBurnLs w a v
  | .burnUnstake a n v => holderBurnNft w a n v
  | .starve i o => starve w i o
  | .transferEgld s d v => transferEgld w s d v
  | .giveEgld s v => giveEgld w s v
  | .giveLs s v => giveLs w s v
  | .giveUnstake s n v => giveUnstake w s n v

/-- A failed transaction leaves the world as it was (the VM reverts it). -/
def exec (w : World) (op : Op) : World :=
  match step w op with
  | .ok w' => w'
  | .error _ => w

/-- An execution: a list of attempted transactions. -/
def run (w : World) (ops : List Op) : World := ops.foldl exec w

/-- A freshly deployed contract, for some deployment parameters. -/
def IsInit (w : World) : Prop :=
  ∃ self owner contracts epoch funds acc fees rpe mr ms ma ub,
    initWorld self owner contracts epoch funds acc fees rpe mr ms ma ub = .ok w

/-- Worlds reachable by successful transactions from a fresh deployment. -/
inductive Reachable : World → Prop
  | init {w : World} : IsInit w → Reachable w
  | step {w w' : World} (op : Op) : Reachable w → step w op = .ok w' → Reachable w'

end LS
