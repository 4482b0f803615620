import Verif.Model.Views

/-! The client published with the contract: liquid-staking/src/proxy/proxy_liquid_staking.rs, written by the framework's generator
(liquid-staking/sc-config.toml:7-8).  Each method builds a call in bytes and says as which type the result is to be read.  A method with
`payment(NotPayable)` sends nothing; with the others the payment is left to the user of the client.  Left out: the gas, `upgrade` (98-105),
and the results of `ls_token` and `unstake_token` (see `Model/Views`). -/

namespace LS.Proxy
open Layout Abi Views

/-- The methods with their arguments, proxy_liquid_staking.rs:123-806. -/
inductive Method
  | delegate  -- 123-129
  | unDelegate  -- 134-140
  | withdraw  -- 145-151
  | lsValueForPosition (n : Nat)  -- 153-164
  | egldPositionValue (n : Nat)  -- 166-177
  | exchangeRate  -- 179-186
  | stakedAmount (a : Addr)  -- 188-199
  | unstakedAmount (a : Addr)  -- 201-212
  | registerLsToken (name : Bytes) (ticker : Bytes) (decimals : Nat)  -- 214-230
  | registerUnstakeToken (name : Bytes) (ticker : Bytes) (decimals : Nat)  -- 232-248
  | setStateActive  -- 250-257
  | setStateInactive  -- 259-266
  | setAccumulatorContract (a : Addr)  -- 268-279
  | setFees (n : Nat)  -- 281-292
  | setMinimumRounds (x : UInt64)  -- 294-305
  | setMaxAddresses (n : Nat)  -- 307-318
  | setMaxSelectedProviders (n : Nat)  -- 320-331
  | setUnbondPeriod (x : UInt64)  -- 333-344
  | setManagers (l : List Addr)  -- 346-357
  | removeManager (a : Addr)  -- 359-370
  | setScoringConfig (x : ScoringConfig)  -- 372-383
  | delegatePending (o : Option Nat)  -- 391-402
  | unDelegatePending (o : Option Nat)  -- 411-422
  | withdrawPending (a : Addr)  -- 430-441
  | claimRewards  -- 447-454
  | delegateRewards  -- 459-466
  | delegationAddressesList  -- 468-475
  | unDelegationAddressesList  -- 477-484
  | delegationContractData (a : Addr)  -- 486-497
  | managers  -- 499-506
  | scoringConfig  -- 508-515
  | fees  -- 517-524
  | accumulatorContract  -- 526-533
  | roundsPerEpoch  -- 535-542
  | minimumRounds  -- 544-551
  | state  -- 553-560
  | lsToken  -- 562-569
  | lsTokenSupply  -- 571-578
  | virtualEgldReserve  -- 580-587
  | rewardsReserve  -- 589-596
  | totalWithdrawnEgld  -- 598-605
  | unstakeToken  -- 607-614
  | pendingEgld  -- 616-623
  | pendingEgldForUnstake  -- 625-632
  | pendingEgldForUnbond  -- 634-641
  | unstakeTokenNonce (x : UInt64)  -- 643-654
  | maxDelegationAddresses  -- 656-663
  | maxSelectedProviders  -- 665-672
  | unbondPeriod  -- 674-681
  | migrate (n : Nat) (a : Addr)  -- 683-697
  | migratePending  -- 699-705
  | addRewards  -- 707-713
  | addMigrationScAddress (a : Addr)  -- 715-726
  | migrationScAddress  -- 728-735
  | whitelistDelegationContract (p : Addr) (a : Addr) (t : Nat) (cap : Nat) (n : UInt64) (y : UInt64)  -- 737-762
  | changeDelegationContractAdmin (p : Addr) (a : Addr)  -- 764-778
  | changeDelegationContractParams (p : Addr) (t : Nat) (cap : Nat) (n : UInt64) (y : UInt64) (e : Bool)  -- 780-806
  deriving DecidableEq, Repr

/-- The endpoint asked for (`raw_call`). -/
def Method.endpoint : Method → Bytes
  | .delegate => ascii "delegate".toList
  | .unDelegate => ascii "unDelegate".toList
  | .withdraw => ascii "withdraw".toList
  | .lsValueForPosition _ => ascii "getLsValueForPosition".toList
  | .egldPositionValue _ => ascii "getEgldPositionValue".toList
  | .exchangeRate => ascii "getExchangeRate".toList
  | .stakedAmount _ => ascii "getDelegationContractStakedAmount".toList
  | .unstakedAmount _ => ascii "getDelegationContractUnstakedAmount".toList
  | .registerLsToken _ _ _ => ascii "registerLsToken".toList
  | .registerUnstakeToken _ _ _ => ascii "registerUnstakeToken".toList
  | .setStateActive => ascii "setStateActive".toList
  | .setStateInactive => ascii "setStateInactive".toList
  | .setAccumulatorContract _ => ascii "setAccumulatorContract".toList
  | .setFees _ => ascii "setFees".toList
  | .setMinimumRounds _ => ascii "setMinimumRounds".toList
  | .setMaxAddresses _ => ascii "setMaxAddresses".toList
  | .setMaxSelectedProviders _ => ascii "setMaxSelectedProviders".toList
  | .setUnbondPeriod _ => ascii "setUnbondPeriod".toList
  | .setManagers _ => ascii "addManagers".toList
  | .removeManager _ => ascii "removeManager".toList
  | .setScoringConfig _ => ascii "setScoringConfig".toList
  | .delegatePending _ => ascii "delegatePending".toList
  | .unDelegatePending _ => ascii "unDelegatePending".toList
  | .withdrawPending _ => ascii "withdrawPending".toList
  | .claimRewards => ascii "claimRewards".toList
  | .delegateRewards => ascii "delegateRewards".toList
  | .delegationAddressesList => ascii "getDelegationAddressesList".toList
  | .unDelegationAddressesList => ascii "getUnDelegationAddressesList".toList
  | .delegationContractData _ => ascii "getDelegationContractInfo".toList
  | .managers => ascii "getManagers".toList
  | .scoringConfig => ascii "getScoringConfig".toList
  | .fees => ascii "fees".toList
  | .accumulatorContract => ascii "getAccumulatorContract".toList
  | .roundsPerEpoch => ascii "roundsPerEpoch".toList
  | .minimumRounds => ascii "minimumRounds".toList
  | .state => ascii "getState".toList
  | .lsToken => ascii "getLsTokenId".toList
  | .lsTokenSupply => ascii "getLsSupply".toList
  | .virtualEgldReserve => ascii "getVirtualEgldReserve".toList
  | .rewardsReserve => ascii "getRewardsReserve".toList
  | .totalWithdrawnEgld => ascii "getTotalWithdrawnEgld".toList
  | .unstakeToken => ascii "getUnstakeTokenId".toList
  | .pendingEgld => ascii "getPendingEGLDForDelegate".toList
  | .pendingEgldForUnstake => ascii "getPendingEGLDForUnDelegate".toList
  | .pendingEgldForUnbond => ascii "getPendingEgldForUnbond".toList
  | .unstakeTokenNonce _ => ascii "getUnstakeTokenNonce".toList
  | .maxDelegationAddresses => ascii "maxDelegationAddresses".toList
  | .maxSelectedProviders => ascii "maxSelectedProviders".toList
  | .unbondPeriod => ascii "unbondPeriod".toList
  | .migrate _ _ => ascii "migrate".toList
  | .migratePending => ascii "migratePending".toList
  | .addRewards => ascii "addRewards".toList
  | .addMigrationScAddress _ => ascii "setMigrationScAddress".toList
  | .migrationScAddress => ascii "getMigrationScAddress".toList
  | .whitelistDelegationContract _ _ _ _ _ _ => ascii "whitelistDelegationContract".toList
  | .changeDelegationContractAdmin _ _ => ascii "changeDelegationContractAdmin".toList
  | .changeDelegationContractParams _ _ _ _ _ _ => ascii "changeDelegationContractParams".toList

/-- The arguments (`argument`), each encoded at top level; a missing optional one is left out, a list gives one for each entry. -/
def Method.args : Method → List Bytes
  | .lsValueForPosition n => [encTop n]
  | .egldPositionValue n => [encTop n]
  | .stakedAmount a => [encAddr a]
  | .unstakedAmount a => [encAddr a]
  | .registerLsToken name ticker decimals => [name, ticker, encTop decimals]
  | .registerUnstakeToken name ticker decimals => [name, ticker, encTop decimals]
  | .setAccumulatorContract a => [encAddr a]
  | .setFees n => [encTop n]
  | .setMinimumRounds x => [encTop x.toNat]
  | .setMaxAddresses n => [encTop n]
  | .setMaxSelectedProviders n => [encTop n]
  | .setUnbondPeriod x => [encTop x.toNat]
  | .setManagers l => l.map encAddr
  | .removeManager a => [encAddr a]
  | .setScoringConfig x => [encScoring x]
  | .delegatePending o => o.toList.map encTop
  | .unDelegatePending o => o.toList.map encTop
  | .withdrawPending a => [encAddr a]
  | .delegationContractData a => [encAddr a]
  | .unstakeTokenNonce x => [encTop x.toNat]
  | .migrate n a => [encTop n, encAddr a]
  | .addMigrationScAddress a => [encAddr a]
  | .whitelistDelegationContract p a t cap n y => [encAddr p, encAddr a, encTop t, encTop cap, encTop n.toNat, encTop y.toNat]
  | .changeDelegationContractAdmin p a => [encAddr p, encAddr a]
  | .changeDelegationContractParams p t cap n y e =>
    [encAddr p, encTop t, encTop cap, encTop n.toNat, encTop y.toNat, encTop (if e then 1 else 0)]
  | _ => []

/-- Whether a payment can be added. -/
def Method.payable : Method → Bool
  | .delegate | .unDelegate | .withdraw | .registerLsToken _ _ _ | .registerUnstakeToken _ _ _ | .migratePending
  | .addRewards | .whitelistDelegationContract _ _ _ _ _ _ => true
  | _ => false

/-- The call sent by `c`; `v` and `ps` are the payment chosen by the user of the client. -/
def request (c : Addr) (v : Nat) (ps : List Payment) (k : Bool) (m : Method) : Call :=
  if m.payable then ⟨c, m.endpoint, m.args, v, ps, k⟩ else ⟨c, m.endpoint, m.args, 0, [], k⟩

/-- `init`, proxy_liquid_staking.rs:57-86. -/
def initRequest (owner : Addr) (acc : Addr) (fees : Nat) (rounds min : UInt64) (maxSel maxAddr : Nat) (unbond : UInt64) (k : Bool) :
    Call :=
  ⟨owner, [], [encAddr acc, encTop fees, encTop rounds.toNat, encTop min.toNat, encTop maxSel, encTop maxAddr, encTop unbond.toNat],
    0, [], k⟩

/-- `DelegationContractInfo`, proxy_liquid_staking.rs:844-858: the record of a provider as the client knows it. -/
structure Info where
  admin : Addr
  totalStaked : Nat
  cap : Nat
  nrNodes : UInt64
  apy : UInt64
  staked : Nat
  unstaked : Nat
  eligible : Bool
  deriving DecidableEq, Repr

def decInfo : Dec Info := fun b => do
  let (admin, b) ← decAddr b
  let (totalStaked, b) ← decBig b
  let (cap, b) ← decBig b
  let (nrNodes, b) ← decU64 b
  let (apy, b) ← decU64 b
  let (staked, b) ← decBig b
  let (unstaked, b) ← decBig b
  let (eligible, b) ← decBool b
  some (⟨admin, totalStaked, cap, nrNodes, apy, staked, unstaked, eligible⟩, b)

/-- Results read by the client. -/
inductive Reading
  | nat (n : Nat) | u64 (x : UInt64) | addr (a : Addr) | addrs (l : List Addr) | state (s : CState)
  | scoring (c : ScoringConfig) | info (i : Info)
  deriving DecidableEq, Repr

/-- One result of the type. -/
def one (d : Bytes → Option Reading) : List Bytes → Option Reading
  | [b] => d b
  | _ => none

/-- One address; it must have 32 bytes. -/
def readAddr (b : Bytes) : Option Addr := if b.length = 32 then some (beVal b) else none

/-- The result of a method, by the type the client expects. -/
def Method.read : Method → List Bytes → Option Reading
  | .exchangeRate | .stakedAmount _ | .unstakedAmount _ | .fees | .lsTokenSupply | .virtualEgldReserve | .rewardsReserve
  | .totalWithdrawnEgld | .pendingEgld | .pendingEgldForUnstake | .pendingEgldForUnbond | .maxSelectedProviders =>
    one fun b => some (.nat (beVal b))
  | .roundsPerEpoch | .minimumRounds | .unstakeTokenNonce _ | .unbondPeriod =>
    one fun b => if beVal b < 2 ^ 64 then some (.u64 (beVal b).toUInt64) else none
  | .maxDelegationAddresses => one fun b => if beVal b < 2 ^ 32 then some (.nat (beVal b)) else none
  | .accumulatorContract | .migrationScAddress => one fun b => (readAddr b).map .addr
  | .delegationAddressesList | .unDelegationAddressesList | .managers => fun bs => (allSome (bs.map readAddr)).map .addrs
  | .state => one fun b => (decState b).map .state
  | .scoringConfig => one fun b => (decScoring b).map .scoring
  | .delegationContractData _ => one fun b => (decAll decInfo b).map .info
  | _ => fun _ => none

/-- A view asked through the client. -/
def ask (s : Stored) (c : Addr) (m : Method) : Option Reading :=
  match view s (request c 0 [] true m) with
  | none => none
  | some out => m.read out

end LS.Proxy
