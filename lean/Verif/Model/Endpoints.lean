import Verif.Model.Pool

/-! The endpoints: liquid-staking/src/{lib,manage,delegation,migrate,config,views}.rs.  Each takes the world as it is when
the transaction arrives (value not yet moved) and the caller, and returns the world after the endpoint or the error that
reverts it. -/

namespace LS

/-- VM: user transactions are never sent by the contract itself. -/
def requireUser (w : World) (caller : Addr) : Res Unit := req (caller ≠ w.self) .callerIsSelf

/-- `init`, liquid-staking/src/lib.rs:62-93; the deployer becomes the owner.  The initial EGLD balances of other accounts
are whatever they are (`funds`; the contract's own entry is dropped: a fresh address holds nothing). -/
def initWorld (self owner : Addr) (contracts : List Addr) (epoch : UInt64) (funds : Map Addr Nat)
    (accumulator : Addr) (fees : Nat) (roundsPerEpoch minimumRounds : UInt64) (maxSelected maxAddresses : Nat)
    (unbondPeriod : UInt64) : Res World := do
  req (1 ≤ maxSelected) .maxSelectedProviders
  req (1 ≤ maxAddresses) .maxChangedDelegationAddresses
  .ok {
    self := self, owner := owner, contracts := contracts, epoch := epoch,
    st := {
      state := .inactive, lsToken := none, lsPending := false, unstakeToken := none, unstakePending := false,
      r := { lsSupply := 0, reserve := 0, fees := 0, withdrawn := 0, pending := 0, toUnstake := 0, toUnbond := 0 },
      feeRate := fees, accumulator := accumulator, roundsPerEpoch := roundsPerEpoch, minimumRounds := minimumRounds,
      maxDelegationAddresses := maxAddresses, maxSelectedProviders := maxSelected, unbondPeriod := unbondPeriod,
      scoring := none, managers := [], migrationSc := none, delegList := [], undelegList := [], data := [],
      unstakeNonce := [] },
    egld := funds.filter (fun e => e.1 ≠ self), ls := [], nft := [], attrs := [], lastNonce := 0,
    flights := [], dead := [], issues := [], events := [], migratedVirtual := 0, migratedPending := 0,
    burntLs := 0, burntUnstake := 0 }

/-- `delegate`, liquid-staking/src/lib.rs:101-114; conditions of utils/delegate.rs:101-109. -/
def delegate (w : World) (caller : Addr) (value : Nat) : Res World := do
  requireUser w caller
  let w0 ← payEgld w caller value
  let c ← cacheNew w0.st
  requireActive c
  req (0 < value) .badPaymentAmount
  let (p, extra) ← getActionAmount c.r.toUnstake value
  let (w1, c1) ← processDelegation w0 caller c p extra
  .ok (commit w1 c1)

/-- `un_delegate`, liquid-staking/src/lib.rs:119-135; conditions of utils/un_delegation.rs:56-74 (the validity of the token
identifier is implied by `cacheNew`). -/
def unDelegate (w : World) (caller : Addr) (value : Nat) (ps : List Payment) : Res World := do
  requireUser w caller
  let w0 ← payAny w caller value ps
  let c ← cacheNew w0.st
  match ps with
  | [p] => do
    requireActive c
    req (p.token = c.lsTokenId) .badPaymentToken
    req (0 < p.amount) .badPaymentAmount
    let (e, c1) ← poolRemove p.amount c
    let w1 ← burnLs w0 p.amount
    let (inst, und) ← getActionAmount c1.r.pending e
    let (w2, c2) ← processUnDelegation w1 caller c1 inst und
    .ok (commit w2 c2)
  | _ => .error .badEsdtCount

/-- One round of the payment loop of `withdraw`, liquid-staking/src/lib.rs:153-205: world, cache and `to_send`. -/
def withdrawOne (caller : Addr) (unstakeId : TokenId) (w : World) (c : Cache) (toSend : Nat) (p : Payment) :
    Res (World × Cache × Nat) := do
  req (p.token = unstakeId) .badPaymentToken
  req (0 < p.amount) .badPaymentAmount
  let a ← nftAttrs w p.nonce
  req (a.unbondEpoch ≤ w.epoch) .unstakePeriodNotPassed
  if p.amount ≤ c.r.withdrawn then do
    let w1 ← nftBurn w p.nonce p.amount
    let t ← csub c.r.withdrawn p.amount
    .ok (w1, { c with r := { c.r with withdrawn := t } }, toSend + p.amount)
  else if 0 < c.r.withdrawn then do
    let w1 ← nftBurn w p.nonce c.r.withdrawn
    let rest ← csub p.amount c.r.withdrawn
    let w2 ← sendNft w1 caller p.nonce rest
    .ok (w2, { c with r := { c.r with withdrawn := 0 } }, toSend + c.r.withdrawn)
  else .error .insufficientUnbondedAmount

/-- The payment loop of `withdraw`, liquid-staking/src/lib.rs:153-206. -/
def withdrawLoop (caller : Addr) (unstakeId : TokenId) :
    List Payment → World → Cache → Nat → Res (World × Cache × Nat)
  | [], w, c, toSend => .ok (w, c, toSend)
  | p :: ps, w, c, toSend => do
    let (w1, c1, t1) ← withdrawOne caller unstakeId w c toSend p
    withdrawLoop caller unstakeId ps w1 c1 t1

/-- `withdraw`, liquid-staking/src/lib.rs:140-210. -/
def withdraw (w : World) (caller : Addr) (value : Nat) (ps : List Payment) : Res World := do
  requireUser w caller
  let w0 ← payAny w caller value ps
  let c ← cacheNew w0.st
  requireActive c
  match w0.st.unstakeToken with
  | none => .error .invalidTokenId
  | some uid => do
    let (w1, c1, toSend) ← withdrawLoop caller uid ps w0 c 0
    let w2 ← sendEgld w1 caller toSend
    .ok (commit (emit w2 c1 .general caller) c1)

/-- Validation of the optional amount against what is pending: liquid-staking/src/manage.rs:42-70 (delegatePending) and
119-147 (unDelegatePending), which are the same text on different fields. -/
def batchAmount (pending : Nat) (amount : Option Nat) : Res Nat := do
  req (MIN_EGLD ≤ pending) .insufficientPendingEgld
  match amount with
  | some a => do
    req (a ≤ pending) .insufficientPendingEgld
    req (MIN_EGLD ≤ a) .insufficientPendingEgld
    let left ← csub pending a
    req (MIN_EGLD ≤ left ∨ left = 0) .insufficientPendingEgld
    .ok a
  | none => .ok pending

/-- The sending loop of `delegate_pending`, liquid-staking/src/manage.rs:77-98. -/
def delegateLoop : List Selection → World → Res World
  | [], w => .ok w
  | s :: ss, w => do
    let w1 := { w with st := { w.st with delegList := moveToBack w.st.delegList s.address } }
    let w2 ← updateData w1 s.address (fun d => .ok { d with pStake := d.pStake + s.amount })
    let w3 ← registerPromise w2 (.delegate s.address s.amount) s.amount
    delegateLoop ss w3

/-- `delegate_pending`, liquid-staking/src/manage.rs:32-100 (`require_min_rounds_passed` is a no-op, utils/generic.rs:35-38). -/
def delegatePending (w : World) (caller : Addr) (amount : Option Nat) : Res World := do
  requireUser w caller
  let c ← cacheNew w.st
  requireActive c
  requireManager w caller
  let amt ← batchAmount c.r.pending amount
  let (sels, c1) ← getDelegationContract w.st amt true c
  let p ← csub c1.r.pending amt
  let c2 : Cache := { c1 with r := { c1.r with pending := p } }
  let w1 ← delegateLoop sels w
  .ok (commit (emit w1 c2 .general caller) c2)

/-- The sending loop of `un_delegate_pending`, liquid-staking/src/manage.rs:154-174. -/
def undelegateLoop : List Selection → World → Res World
  | [], w => .ok w
  | s :: ss, w => do
    let w1 := { w with st := { w.st with undelegList := moveToBack w.st.undelegList s.address } }
    let w2 ← updateData w1 s.address (fun d => .ok { d with pUnstake := d.pUnstake + s.amount })
    let w3 ← registerPromise w2 (.undelegate s.address s.amount) 0
    undelegateLoop ss w3

/-- `un_delegate_pending`, liquid-staking/src/manage.rs:109-177. -/
def unDelegatePending (w : World) (caller : Addr) (amount : Option Nat) : Res World := do
  requireUser w caller
  let c ← cacheNew w.st
  requireActive c
  requireManager w caller
  let amt ← batchAmount c.r.toUnstake amount
  let (sels, c1) ← getDelegationContract w.st amt false c
  let p ← csub c1.r.toUnstake amt
  let c2 : Cache := { c1 with r := { c1.r with toUnstake := p } }
  let w1 ← undelegateLoop sels w
  .ok (commit (emit w1 c2 .general caller) c2)

/-- `withdraw_pending`, liquid-staking/src/manage.rs:185-206. -/
def withdrawPending (w : World) (caller : Addr) (contract : Addr) : Res World := do
  requireUser w caller
  let c ← cacheNew w.st
  requireManager w caller
  requireActive c
  req (w.st.data.get none contract ≠ none) .notWhitelisted
  let w1 ← registerPromise w (.withdraw contract) 0
  .ok (commit w1 c)

/-- `claim_rewards`, liquid-staking/src/manage.rs:212-240. -/
def claimRewards (w : World) (caller : Addr) : Res World := do
  requireUser w caller
  let c ← cacheNew w.st
  requireManager w caller
  requireActive c
  req (w.st.delegList ≠ []) .noDelegationContracts
  let w1 ← registerPromise w (.claim w.st.delegList) 0
  .ok (commit w1 c)

/-- `claim_fees`, liquid-staking/src/manage.rs:242-259.  The accumulator is called synchronously; `body` is what it does to
the world while it runs (after receiving the EGLD).  The cache created before the call is committed after it. -/
def claimFeesWith (body : World → Res World) (w : World) (caller : Addr) : Res World := do
  requireUser w caller
  let c ← cacheNew w.st
  req (0 < c.r.fees) .insufficientFeesReserve
  req (w.st.accumulator ≠ w.self) .calleeFailed
  let w1 ← sendEgld w w.st.accumulator c.r.fees
  let w2 ← body w1
  .ok (commit w2 { c with r := { c.r with fees := 0 } })

/-- `claim_fees` with an accumulator that accepts (or refuses) the deposit and does not call back into this contract. -/
def claimFees (w : World) (caller : Addr) (accepts : Bool) : Res World :=
  claimFeesWith (fun w1 => if accepts then .ok w1 else .error .calleeFailed) w caller

/-- `whitelist_delegation_contract`, liquid-staking/src/delegation.rs:29-97. -/
def whitelist (w : World) (caller : Addr) (value : Nat) (contract admin : Addr) (totalStaked cap : Nat)
    (nrNodes apy : UInt64) : Res World := do
  requireUser w caller
  let w0 ← payEgld w caller value
  req (w0.st.delegList.length ≤ w0.st.maxDelegationAddresses) .maxDelegationAddresses
  req (w0.st.undelegList.length ≤ w0.st.maxDelegationAddresses) .maxUnDelegationAddresses
  requireManager w0 caller
  req (w0.st.data.get none contract = none) .alreadyWhitelisted
  req (totalStaked ≤ cap ∨ cap = 0) .delegationCap
  req (MIN_EGLD ≤ value) .minEgldToDelegate
  let d : ProviderData := {
    admin := admin, totalStaked := totalStaked, cap := cap, nrNodes := nrNodes, apy := apy,
    staked := 0, unstaked := 0, eligible := true, pStake := 0, pUnstake := 0 }
  let w1 := { w0 with st := { w0.st with data := w0.st.data.set contract (some d) } }
  registerPromise w1 (.whitelist contract value caller) value

/-- `change_delegation_contract_admin`, liquid-staking/src/delegation.rs:100-111. -/
def changeAdmin (w : World) (caller : Addr) (contract admin : Addr) : Res World := do
  requireUser w caller
  req (w.st.data.get none contract ≠ none) .notWhitelisted
  requireManager w caller
  updateData w contract (fun d => .ok { d with admin := admin })

/-- `change_delegation_contract_params`, liquid-staking/src/delegation.rs:114-146 (`get` before the emptiness check, so an
unknown contract gives a decode error). -/
def changeParams (w : World) (caller : Addr) (contract : Addr) (totalStaked cap : Nat) (nrNodes apy : UInt64)
    (eligible : Bool) : Res World := do
  requireUser w caller
  let old ← getData w.st contract
  req (w.st.data.get none contract ≠ none) .notWhitelisted
  req (old.admin = caller ∨ isManager w caller = true) .onlyDelegationAdmin
  req (totalStaked ≤ cap ∨ cap = 0) .delegationCap
  updateData w contract (fun d =>
    .ok { d with totalStaked := totalStaked, cap := cap, nrNodes := nrNodes, apy := apy, eligible := eligible })

/-- The three checks shared by `migrate` and `migrate_pending`, liquid-staking/src/migrate.rs:19-33, 48-62; an unset
address mapper fails to decode. -/
def requireMigration (w : World) (caller : Addr) : Res Unit :=
  match w.st.migrationSc with
  | none => .error .decode
  | some m => do
    req (m ≠ 0) .migrationScNotSet
    req (caller = m) .migrationNotAllowed
    req (caller ∈ w.contracts) .migrationNotAllowed

/-- `migrate`, liquid-staking/src/migrate.rs:17-42.  `migratedVirtual` is a history variable. -/
def migrate (w : World) (caller : Addr) (virtualAmount : Nat) (originalCaller : Addr) : Res World := do
  requireUser w caller
  let c ← cacheNew w.st
  requireMigration w caller
  let (l, c1) ← poolAdd virtualAmount c
  let w1 := mintLs w l
  let w2 := emit w1 c1 (.addLiquidity virtualAmount) originalCaller
  let w3 ← sendLs w2 caller l
  .ok { commit w3 c1 with migratedVirtual := w.migratedVirtual + virtualAmount }

/-- `migrate_pending`, liquid-staking/src/migrate.rs:46-69.  `migratedPending` is a history variable. -/
def migratePending (w : World) (caller : Addr) (value : Nat) : Res World := do
  requireUser w caller
  let w0 ← payEgld w caller value
  let c ← cacheNew w0.st
  requireMigration w0 caller
  let c1 : Cache := { c with r := { c.r with pending := c.r.pending + value } }
  .ok { commit (emit w0 c1 .general caller) c1 with migratedPending := w.migratedPending + value }

/-- `add_rewards`, liquid-staking/src/migrate.rs:73-82. -/
def addRewards (w : World) (caller : Addr) (value : Nat) : Res World := do
  requireUser w caller
  let w0 ← payEgld w caller value
  let c ← cacheNew w0.st
  let c1 : Cache := { c with r := { c.r with reserve := c.r.reserve + value, pending := c.r.pending + value } }
  .ok (commit (emit w0 c1 .general caller) c1)

/-- `add_migration_sc_address` (`setMigrationScAddress`), liquid-staking/src/migrate.rs:84-93. -/
def setMigrationSc (w : World) (caller : Addr) (a : Addr) : Res World := do
  requireUser w caller
  requireOwner w caller
  req (a ∈ w.contracts) .migrationNotAllowed
  .ok { w with st := { w.st with migrationSc := some a } }

/-- `register_ls_token`, liquid-staking/src/config.rs:10-27.  `issue_and_set_all_roles` of the framework's token mapper refuses
unless its slot is empty, marks the slot as pending and calls the ESDT system contract with the whole payment. -/
def registerLsToken (w : World) (caller : Addr) (value : Nat) : Res World := do
  requireUser w caller
  let m ← debit w.egld caller value
  requireOwner w caller
  req (w.st.lsToken = none ∧ w.st.lsPending = false) .tokenAlreadySet
  .ok { w with egld := m, st := { w.st with lsPending := true }, issues := w.issues ++ [⟨.ls, caller, value⟩] }

/-- `register_unstake_token`, liquid-staking/src/config.rs:29-47. -/
def registerUnstakeToken (w : World) (caller : Addr) (value : Nat) : Res World := do
  requireUser w caller
  let m ← debit w.egld caller value
  requireOwner w caller
  req (w.st.unstakeToken = none ∧ w.st.unstakePending = false) .tokenAlreadySet
  .ok { w with egld := m, st := { w.st with unstakePending := true }, issues := w.issues ++ [⟨.unstake, caller, value⟩] }

/-- The owner's setters: liquid-staking/src/config.rs:49-113. -/
inductive OwnerCmd
  | stateActive | stateInactive
  | accumulator (a : Addr)
  | fees (v : Nat)
  | minimumRounds (v : UInt64)
  | maxAddresses (v : Nat)
  | maxSelected (v : Nat)
  | unbondPeriod (v : UInt64)
  | addManagers (l : List Addr)
  | removeManager (a : Addr)
  deriving DecidableEq, Repr

/-- Effect of an owner's setter on storage: liquid-staking/src/config.rs:49-113. -/
def applyOwnerCmd (st : Store) : OwnerCmd → Res Store
  | .stateActive => .ok { st with state := .active }
  | .stateInactive => .ok { st with state := .inactive }
  | .accumulator a => .ok { st with accumulator := a }
  | .fees v => .ok { st with feeRate := v }
  | .minimumRounds v => .ok { st with minimumRounds := v }
  | .maxAddresses v => do
    req (1 ≤ v) .maxSelectedProviders
    .ok { st with maxDelegationAddresses := v }
  | .maxSelected v => do
    req (1 ≤ v) .maxChangedDelegationAddresses
    .ok { st with maxSelectedProviders := v }
  | .unbondPeriod v => .ok { st with unbondPeriod := v }
  | .addManagers l => .ok { st with managers := l.foldl setInsert st.managers }
  | .removeManager a => .ok { st with managers := swapRemove st.managers a }

/-- An owner's setter as a transaction. -/
def ownerCmd (w : World) (caller : Addr) (cmd : OwnerCmd) : Res World := do
  requireUser w caller
  requireOwner w caller
  let st ← applyOwnerCmd w.st cmd
  .ok { w with st := st }

/-- `set_scoring_config`, liquid-staking/src/config.rs:115-123; the weights are added as `u64` (wrapping). -/
def setScoringConfig (w : World) (caller : Addr) (cfg : ScoringConfig) : Res World := do
  requireUser w caller
  requireManager w caller
  req (cfg.stakeWeight + cfg.apyWeight + cfg.nodesWeight = 100) .weightsMustSumTo100
  .ok { w with st := { w.st with scoring := some cfg } }

/-- `get_ls_value_for_position`, liquid-staking/src/views.rs:11-15: result and the world after the cache is dropped. -/
def viewLsValue (w : World) (ls : Nat) : Res (Nat × World) := do
  let c ← cacheNew w.st
  let e ← getEgldAmount ls c
  .ok (e, commit w c)

/-- `get_egld_position_value`, liquid-staking/src/views.rs:17-21. -/
def viewEgldPosition (w : World) (egld : Nat) : Res (Nat × World) := do
  let c ← cacheNew w.st
  let l ← getLsAmount egld c
  .ok (l, commit w c)

/-- `get_exchange_rate`, liquid-staking/src/views.rs:23-39. -/
def viewExchangeRate (w : World) : Res Nat :=
  if w.st.r.lsSupply = 0 then .ok 1000000000000000000
  else cdiv (w.st.r.reserve * 1000000000000000000) w.st.r.lsSupply

/-- `get_delegation_contract_staked_amount`, liquid-staking/src/views.rs:41-48. -/
def viewStaked (w : World) (a : Addr) : Res Nat := do
  let d ← getData w.st a
  .ok d.staked

/-- `get_delegation_contract_unstaked_amount`, liquid-staking/src/views.rs:50-57. -/
def viewUnstaked (w : World) (a : Addr) : Res Nat := do
  let d ← getData w.st a
  .ok d.unstaked

end LS
