import Verif.Model.Base

/-! Data types of the contract.  Models liquid-staking/src/structs.rs, constants/mod.rs, storage/mod.rs,
contexts/base.rs:6-20 and events.rs:7-20. -/

namespace LS

/-- liquid-staking/src/constants/mod.rs:7 -/
def MIN_EGLD : Nat := 1000000000000000000

/-- liquid-staking/src/constants/mod.rs:13 -/
def BPS : Nat := 10000

/-- liquid-staking/src/constants/mod.rs:11 (`DECIMALS = 18`): the scaling factor of an 18-decimals `ManagedDecimal`. -/
def DECIMALS_SCALE : Nat := 10 ^ 18

/-- `DelegationContractData`, liquid-staking/src/structs.rs:6-17.
Field names shortened: `staked` = total_staked_from_ls_contract, `unstaked` = total_unstaked_from_ls_contract,
`pStake` = pending_staking_callback_amount, `pUnstake` = pending_unstaking_callback_amount. -/
structure ProviderData where
  admin : Addr
  totalStaked : Nat
  cap : Nat
  nrNodes : UInt64
  apy : UInt64
  staked : Nat
  unstaked : Nat
  eligible : Bool
  pStake : Nat
  pUnstake : Nat
  deriving DecidableEq, Repr

/-- `get_total_amount_with_pending_callbacks`, liquid-staking/src/structs.rs:20-23. -/
def ProviderData.totalWithPending (d : ProviderData) : Res Nat := csub (d.staked + d.pStake) d.pUnstake

/-- `UnstakeTokenAttributes`, liquid-staking/src/structs.rs:28-31. -/
structure Attrs where
  unstakeEpoch : UInt64
  unbondEpoch : UInt64
  deriving DecidableEq, Repr

/-- `DelegatorSelection`, liquid-staking/src/structs.rs:46-50. -/
structure Selection where
  address : Addr
  amount : Nat
  spaceLeft : Option Nat
  deriving DecidableEq, Repr

/-- `DelegationContractSelectionInfo`, liquid-staking/src/structs.rs:70-78.
`stakedLs` = total_staked_from_ls_contract (which `create_selection_info` fills with the amount net of pending callbacks). -/
structure SelInfo where
  address : Addr
  score : Nat
  totalStaked : Nat
  apy : UInt64
  nrNodes : UInt64
  stakedLs : Nat
  spaceLeft : Option Nat
  deriving DecidableEq, Repr

/-- `State`, liquid-staking/src/structs.rs:82-85. -/
inductive CState
  | inactive | active
  deriving DecidableEq, Repr

/-- `ScoringConfig`, liquid-staking/src/structs.rs:89-107.  `u64` fields are `UInt64`. -/
structure ScoringConfig where
  minNodes : UInt64
  maxNodes : UInt64
  minApy : UInt64
  maxApy : UInt64
  stakeWeight : UInt64
  apyWeight : UInt64
  nodesWeight : UInt64
  maxScorePerCategory : UInt64
  exponentialBase : UInt64
  apyGrowthMultiplier : UInt64
  deriving DecidableEq, Repr

/-- `ScoringConfig::default`, liquid-staking/src/structs.rs:110-123. -/
def ScoringConfig.default : ScoringConfig :=
  { minNodes := 1, maxNodes := 100, minApy := 500, maxApy := 1000, stakeWeight := 40, apyWeight := 50,
    nodesWeight := 10, maxScorePerCategory := 1000, exponentialBase := 3, apyGrowthMultiplier := 4 }

/-- The seven mutable figures held both in storage (liquid-staking/src/storage/mod.rs:55-86) and in the mutable fields of
`StorageCache` (liquid-staking/src/contexts/base.rs:13-19).  Simplification: grouped in one record so that loading and
committing the cache copies one field.
`toUnstake` = pending_egld_for_unstake, `toUnbond` = pending_egld_for_unbond, `withdrawn` = total_withdrawn_egld. -/
structure Reserves where
  lsSupply : Nat
  reserve : Nat
  fees : Nat
  withdrawn : Nat
  pending : Nat
  toUnstake : Nat
  toUnbond : Nat
  deriving DecidableEq, Repr

/-- `StorageCache`, liquid-staking/src/contexts/base.rs:6-20. -/
structure Cache where
  state : CState
  lsTokenId : TokenId
  r : Reserves
  deriving DecidableEq, Repr

/-- Contract storage: liquid-staking/src/storage/mod.rs:7-102 and migrate.rs:95-97.
`SetMapper`s (insertion-ordered) are lists; `delegation_contract_data` is a map to `Option` (`none` = empty entry);
`unstake_token_nonce` maps an epoch to a nonce (`0` = empty entry, as for an encoded `u64`).
A token mapper is one slot that is empty, pending (an issue is not answered yet) or holds a token: `none` and not pending, `none`
and pending, or `some`. -/
structure Store where
  state : CState
  lsToken : Option TokenId
  lsPending : Bool
  unstakeToken : Option TokenId
  unstakePending : Bool
  r : Reserves
  feeRate : Nat
  accumulator : Addr
  roundsPerEpoch : UInt64
  minimumRounds : UInt64
  maxDelegationAddresses : Nat
  maxSelectedProviders : Nat
  unbondPeriod : UInt64
  scoring : Option ScoringConfig
  managers : List Addr
  migrationSc : Option Addr
  delegList : List Addr
  undelegList : List Addr
  data : Map Addr (Option ProviderData)
  unstakeNonce : Map UInt64 Nat
  deriving DecidableEq, Repr

/-- The five indexed "liquidity" events of liquid-staking/src/events.rs:156-192 with their own arguments. -/
inductive EventKind
  | addLiquidity (amount : Nat)
  | removeLiquidity (amount : Nat)
  | withdrawPending (amount : Nat) (contract : Addr)
  | claimRewards (amount : Nat)
  | general
  deriving DecidableEq, Repr

/-- Emitted events.  `change` carries the `ChangeLiquidityEvent` record (events.rs:7-20) without block nonce and
timestamp, which are not modelled. -/
inductive Event
  | change (kind : EventKind) (caller : Addr) (lsToken : TokenId) (snap : Reserves) (epoch : UInt64)
  | protocolRevenue (fees : Nat) (epoch : UInt64)
  deriving DecidableEq, Repr

/-- A promise registered by the contract whose callback has not run yet.
`delegate`: manage.rs:86-97, `undelegate`: manage.rs:163-173, `withdraw`: manage.rs:198-205, `claim`: manage.rs:232-239,
`whitelist`: delegation.rs:82-96 (the last argument is the caller to whom tokens or the refund go). -/
inductive Flight
  | delegate (c : Addr) (amount : Nat)
  | undelegate (c : Addr) (amount : Nat)
  | withdraw (c : Addr)
  | claim (providers : List Addr)
  | whitelist (c : Addr) (amount : Nat) (caller : Addr)
  deriving DecidableEq, Repr

/-- The two tokens of the contract. -/
inductive TokenKind
  | ls | unstake
  deriving DecidableEq, Repr

/-- An issue call to the ESDT system contract that has not been answered yet, with the arguments of its callback closure: the
storage key of the token and the caller who paid; config.rs:19-25, 38-46. -/
structure Issue where
  kind : TokenKind
  caller : Addr
  cost : Nat
  deriving DecidableEq, Repr

/-- What the environment answers to a promise: success with some EGLD attached to the callback and a returned number
(only read by `claim_rewards_callback`), or failure (the VM refunds the EGLD of the failed call). -/
inductive Outcome
  | ok (egld : Nat) (ret : Nat)
  | err
  deriving DecidableEq, Repr

/-- An incoming ESDT transfer. -/
structure Payment where
  token : TokenId
  nonce : Nat
  amount : Nat
  deriving DecidableEq, Repr

/-- Contract plus the part of the chain it can observe or affect.

* `egld`: EGLD of every account (the contract's own at `self`); providers' accounts are credited by nobody, EGLD sent in a
  promise leaves the ledger and EGLD coming back with a callback enters it.
* `ls`: balances of the LS token; `nft`: balances of the unstake token by (nonce, account); `attrs`: attributes per nonce.
* `flights`: promises whose callback is still to come; `dead`: promises whose callback ran and failed;
  `issues`: token issues still to be answered.
* `migratedVirtual`, `migratedPending`: history variables (never read by the model): total reserve credited by `migrate`,
  total EGLD received by `migratePending`.
* `burntLs`, `burntUnstake`: history variables: LS tokens and unstake tokens that users have burned on their own; the second
  also counts unstake tokens sent to the contract by plain transfers (`giveUnstake`). -/
structure World where
  self : Addr
  owner : Addr
  contracts : List Addr
  epoch : UInt64
  st : Store
  egld : Map Addr Nat
  ls : Map Addr Nat
  nft : Map (Nat × Addr) Nat
  attrs : Map Nat (Option Attrs)
  lastNonce : Nat
  flights : List Flight
  dead : List Flight
  issues : List Issue
  events : List Event
  migratedVirtual : Nat
  migratedPending : Nat
  burntLs : Nat
  burntUnstake : Nat
  deriving DecidableEq, Repr

end LS
