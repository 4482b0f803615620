import Verif.Model.Step
import Verif.Model.Layout

/-! Calls as they reach the contract: the name of a function, arguments in bytes, EGLD and tokens.  The exported functions are those of
liquid-staking/wasm/src/lib.rs:20-87; their payment attributes and argument types are those of the annotated Rust functions.  The checks
made before the body of a function runs (payment, number of arguments, decoding) are the framework's (multiversx-sc 0.54.0), whose text
is not in the repository.

Not callable from outside, as the VM refuses it: `init` and `upgrade` (wasm/src/lib.rs:23-24), the five promise callbacks (80-84) and
`callBack` (88).  A plain view may still fail on a missing entry, which is not said here: it changes nothing either way.  Deliveries of
EGLD under the token name "EGLD-000000" are not modelled. -/

namespace LS.Abi
open Layout

/-- `#[payable]` of an endpoint: none, `#[payable("EGLD")]`, `#[payable("*")]`. -/
inductive Pay
  | none | egld | any
  deriving DecidableEq, Repr

/-- Types of arguments. -/
inductive Ty
  | big      -- BigUint
  | u64
  | usize    -- 32 bits on the contract's target
  | bool
  | addr     -- ManagedAddress
  | buffer   -- ManagedBuffer
  | scoring  -- ScoringConfig
  deriving DecidableEq, Repr

/-- Decoded arguments. -/
inductive Val
  | nat (n : Nat) | u64 (x : UInt64) | bool (b : Bool) | addr (a : Addr) | buffer (b : Bytes) | scoring (c : ScoringConfig)
  deriving DecidableEq, Repr

/-- Decoding of one argument.  A number may have leading zeros but must fit; an address has 32 bytes. -/
def Ty.dec : Ty → Bytes → Option Val
  | .big, b => some (.nat (beVal b))
  | .u64, b => if beVal b < 2 ^ 64 then some (.u64 (beVal b).toUInt64) else none
  | .usize, b => if beVal b < 2 ^ 32 then some (.nat (beVal b)) else none
  | .bool, b => if beVal b = 0 then some (.bool false) else if beVal b = 1 then some (.bool true) else none
  | .addr, b => if b.length = 32 then some (.addr (beVal b)) else none
  | .buffer, b => some (.buffer b)
  | .scoring, b => (decScoring b).map .scoring

/-- What may follow the fixed arguments: nothing, one more (`OptionalValue`), any number (`MultiValueEncoded`). -/
inductive Rest
  | none | opt (t : Ty) | many (t : Ty)
  deriving DecidableEq, Repr

structure Sig where
  pay : Pay
  args : List Ty
  rest : Rest
  deriving DecidableEq, Repr

/-- The exported endpoints, in the order of liquid-staking/wasm/src/lib.rs:25-79. -/
inductive Fn
  | delegate | unDelegate | withdraw | getLsValueForPosition | getEgldPositionValue | getExchangeRate
  | getDelegationContractStakedAmount | getDelegationContractUnstakedAmount | registerLsToken | registerUnstakeToken
  | setStateActive | setStateInactive | setAccumulatorContract | setFees | setMinimumRounds | setMaxAddresses
  | setMaxSelectedProviders | setUnbondPeriod | addManagers | removeManager | setScoringConfig | delegatePending
  | unDelegatePending | withdrawPending | claimRewards | claimFees | getDelegationAddressesList | getUnDelegationAddressesList
  | getDelegationContractInfo | getManagers | getScoringConfig | fees | getAccumulatorContract | roundsPerEpoch | minimumRounds
  | getState | getLsTokenId | getLsSupply | getVirtualEgldReserve | getFeesReserve | getTotalWithdrawnEgld | getUnstakeTokenId
  | getPendingEGLDForDelegate | getPendingEGLDForUnDelegate | getPendingEgldForUnbond | getUnstakeTokenNonce
  | maxDelegationAddresses | maxSelectedProviders | unbondPeriod | migrate | migratePending | addRewards | setMigrationScAddress
  | getMigrationScAddress | whitelistDelegationContract | changeDelegationContractAdmin | changeDelegationContractParams
  deriving DecidableEq, Repr

/-- All of them. -/
def Fn.all : List Fn :=
  [.delegate, .unDelegate, .withdraw, .getLsValueForPosition, .getEgldPositionValue, .getExchangeRate,
   .getDelegationContractStakedAmount, .getDelegationContractUnstakedAmount, .registerLsToken, .registerUnstakeToken,
   .setStateActive, .setStateInactive, .setAccumulatorContract, .setFees, .setMinimumRounds, .setMaxAddresses,
   .setMaxSelectedProviders, .setUnbondPeriod, .addManagers, .removeManager, .setScoringConfig, .delegatePending,
   .unDelegatePending, .withdrawPending, .claimRewards, .claimFees, .getDelegationAddressesList, .getUnDelegationAddressesList,
   .getDelegationContractInfo, .getManagers, .getScoringConfig, .fees, .getAccumulatorContract, .roundsPerEpoch, .minimumRounds,
   .getState, .getLsTokenId, .getLsSupply, .getVirtualEgldReserve, .getFeesReserve, .getTotalWithdrawnEgld, .getUnstakeTokenId,
   .getPendingEGLDForDelegate, .getPendingEGLDForUnDelegate, .getPendingEgldForUnbond, .getUnstakeTokenNonce,
   .maxDelegationAddresses, .maxSelectedProviders, .unbondPeriod, .migrate, .migratePending, .addRewards, .setMigrationScAddress,
   .getMigrationScAddress, .whitelistDelegationContract, .changeDelegationContractAdmin, .changeDelegationContractParams]

/-- The exported name, liquid-staking/wasm/src/lib.rs:25-79. -/
def Fn.name : Fn → Bytes
  | .delegate => ascii "delegate".toList
  | .unDelegate => ascii "unDelegate".toList
  | .withdraw => ascii "withdraw".toList
  | .getLsValueForPosition => ascii "getLsValueForPosition".toList
  | .getEgldPositionValue => ascii "getEgldPositionValue".toList
  | .getExchangeRate => ascii "getExchangeRate".toList
  | .getDelegationContractStakedAmount => ascii "getDelegationContractStakedAmount".toList
  | .getDelegationContractUnstakedAmount => ascii "getDelegationContractUnstakedAmount".toList
  | .registerLsToken => ascii "registerLsToken".toList
  | .registerUnstakeToken => ascii "registerUnstakeToken".toList
  | .setStateActive => ascii "setStateActive".toList
  | .setStateInactive => ascii "setStateInactive".toList
  | .setAccumulatorContract => ascii "setAccumulatorContract".toList
  | .setFees => ascii "setFees".toList
  | .setMinimumRounds => ascii "setMinimumRounds".toList
  | .setMaxAddresses => ascii "setMaxAddresses".toList
  | .setMaxSelectedProviders => ascii "setMaxSelectedProviders".toList
  | .setUnbondPeriod => ascii "setUnbondPeriod".toList
  | .addManagers => ascii "addManagers".toList
  | .removeManager => ascii "removeManager".toList
  | .setScoringConfig => ascii "setScoringConfig".toList
  | .delegatePending => ascii "delegatePending".toList
  | .unDelegatePending => ascii "unDelegatePending".toList
  | .withdrawPending => ascii "withdrawPending".toList
  | .claimRewards => ascii "claimRewards".toList
  | .claimFees => ascii "claimFees".toList
  | .getDelegationAddressesList => ascii "getDelegationAddressesList".toList
  | .getUnDelegationAddressesList => ascii "getUnDelegationAddressesList".toList
  | .getDelegationContractInfo => ascii "getDelegationContractInfo".toList
  | .getManagers => ascii "getManagers".toList
  | .getScoringConfig => ascii "getScoringConfig".toList
  | .fees => ascii "fees".toList
  | .getAccumulatorContract => ascii "getAccumulatorContract".toList
  | .roundsPerEpoch => ascii "roundsPerEpoch".toList
  | .minimumRounds => ascii "minimumRounds".toList
  | .getState => ascii "getState".toList
  | .getLsTokenId => ascii "getLsTokenId".toList
  | .getLsSupply => ascii "getLsSupply".toList
  | .getVirtualEgldReserve => ascii "getVirtualEgldReserve".toList
  | .getFeesReserve => ascii "getFeesReserve".toList
  | .getTotalWithdrawnEgld => ascii "getTotalWithdrawnEgld".toList
  | .getUnstakeTokenId => ascii "getUnstakeTokenId".toList
  | .getPendingEGLDForDelegate => ascii "getPendingEGLDForDelegate".toList
  | .getPendingEGLDForUnDelegate => ascii "getPendingEGLDForUnDelegate".toList
  | .getPendingEgldForUnbond => ascii "getPendingEgldForUnbond".toList
  | .getUnstakeTokenNonce => ascii "getUnstakeTokenNonce".toList
  | .maxDelegationAddresses => ascii "maxDelegationAddresses".toList
  | .maxSelectedProviders => ascii "maxSelectedProviders".toList
  | .unbondPeriod => ascii "unbondPeriod".toList
  | .migrate => ascii "migrate".toList
  | .migratePending => ascii "migratePending".toList
  | .addRewards => ascii "addRewards".toList
  | .setMigrationScAddress => ascii "setMigrationScAddress".toList
  | .getMigrationScAddress => ascii "getMigrationScAddress".toList
  | .whitelistDelegationContract => ascii "whitelistDelegationContract".toList
  | .changeDelegationContractAdmin => ascii "changeDelegationContractAdmin".toList
  | .changeDelegationContractParams => ascii "changeDelegationContractParams".toList

/-- Payment attribute and arguments: lib.rs:101-142, views.rs:11-57, config.rs:10-116, manage.rs:32-243, storage/mod.rs:8-101,
migrate.rs:16-97, delegation.rs:27-122. -/
def Fn.sig : Fn → Sig
  | .delegate => ⟨.egld, [], .none⟩
  | .unDelegate => ⟨.any, [], .none⟩
  | .withdraw => ⟨.any, [], .none⟩
  | .getLsValueForPosition => ⟨.none, [.big], .none⟩
  | .getEgldPositionValue => ⟨.none, [.big], .none⟩
  | .getDelegationContractStakedAmount => ⟨.none, [.addr], .none⟩
  | .getDelegationContractUnstakedAmount => ⟨.none, [.addr], .none⟩
  | .registerLsToken => ⟨.egld, [.buffer, .buffer, .usize], .none⟩
  | .registerUnstakeToken => ⟨.egld, [.buffer, .buffer, .usize], .none⟩
  | .setAccumulatorContract => ⟨.none, [.addr], .none⟩
  | .setFees => ⟨.none, [.big], .none⟩
  | .setMinimumRounds => ⟨.none, [.u64], .none⟩
  | .setMaxAddresses => ⟨.none, [.usize], .none⟩
  | .setMaxSelectedProviders => ⟨.none, [.big], .none⟩
  | .setUnbondPeriod => ⟨.none, [.u64], .none⟩
  | .addManagers => ⟨.none, [], .many .addr⟩
  | .removeManager => ⟨.none, [.addr], .none⟩
  | .setScoringConfig => ⟨.none, [.scoring], .none⟩
  | .delegatePending => ⟨.none, [], .opt .big⟩
  | .unDelegatePending => ⟨.none, [], .opt .big⟩
  | .withdrawPending => ⟨.none, [.addr], .none⟩
  | .getDelegationContractInfo => ⟨.none, [.addr], .none⟩
  | .getUnstakeTokenNonce => ⟨.none, [.u64], .none⟩
  | .migrate => ⟨.none, [.big, .addr], .none⟩
  | .migratePending => ⟨.egld, [], .none⟩
  | .addRewards => ⟨.egld, [], .none⟩
  | .setMigrationScAddress => ⟨.none, [.addr], .none⟩
  | .whitelistDelegationContract => ⟨.egld, [.addr, .addr, .big, .big, .u64, .u64], .none⟩
  | .changeDelegationContractAdmin => ⟨.none, [.addr, .addr], .none⟩
  | .changeDelegationContractParams => ⟨.none, [.addr, .big, .big, .u64, .u64, .bool], .none⟩
  | .setStateActive | .setStateInactive | .claimRewards | .claimFees | .getExchangeRate | .getDelegationAddressesList
  | .getUnDelegationAddressesList | .getManagers | .getScoringConfig | .fees | .getAccumulatorContract | .roundsPerEpoch
  | .minimumRounds | .getState | .getLsTokenId | .getLsSupply | .getVirtualEgldReserve | .getFeesReserve | .getTotalWithdrawnEgld
  | .getUnstakeTokenId | .getPendingEGLDForDelegate | .getPendingEGLDForUnDelegate | .getPendingEgldForUnbond
  | .maxDelegationAddresses | .maxSelectedProviders | .unbondPeriod | .getMigrationScAddress => ⟨.none, [], .none⟩

/-- A call.  `accepts`: whether the accumulator accepts the fees sent to it during the call (only `claimFees` sends any). -/
structure Call where
  caller : Addr
  fn : Bytes
  args : List Bytes
  egld : Nat
  esdt : List Payment
  accepts : Bool
  deriving DecidableEq, Repr

/-- Why the framework refuses a call. -/
inductive Refusal
  | noFunction | notPayable | argCount | badArg
  deriving DecidableEq, Repr

def allSome {α : Type} : List (Option α) → Option (List α)
  | [] => some []
  | none :: _ => none
  | some x :: l => (allSome l).map (x :: ·)

/-- The payment check before the body: without `#[payable]` nothing may be sent, with `#[payable("EGLD")]` no tokens.
Simplification: EGLD sent in the form of a token (`EGLD-000000`) is not modelled. -/
def Sig.payOk (s : Sig) (egld : Nat) (esdt : List Payment) : Bool :=
  match s.pay with
  | .none => egld = 0 && esdt.isEmpty
  | .egld => esdt.isEmpty
  | .any => true

/-- The types of `n` arguments; `none` when there may not be that many. -/
def Sig.types (s : Sig) (n : Nat) : Option (List Ty) :=
  match s.rest with
  | .none => if n = s.args.length then some s.args else none
  | .opt t => if n = s.args.length then some s.args else if n = s.args.length + 1 then some (s.args ++ [t]) else none
  | .many t => if s.args.length ≤ n then some (s.args ++ List.replicate (n - s.args.length) t) else none

/-- The checks before the body. -/
def Sig.check (s : Sig) (c : Call) : Except Refusal (List Val) :=
  if s.payOk c.egld c.esdt then
    match s.types c.args.length with
    | none => .error .argCount
    | some ts =>
      match allSome (List.zipWith Ty.dec ts c.args) with
      | none => .error .badArg
      | some vs => .ok vs
  else .error .notPayable

def addrs : List Val → Option (List Addr)
  | [] => some []
  | .addr a :: l => (addrs l).map (a :: ·)
  | _ => none

/-- What a call of `f` with decoded arguments does: an operation, or nothing but reading (`some none`: the other views of
storage/mod.rs, views.rs and migrate.rs:95).  `none` does not occur for arguments that passed the checks. -/
def Fn.op (f : Fn) (c : Call) (vs : List Val) : Option (Option Op) :=
  match f, vs with
  | .delegate, [] => some (some (.delegate c.caller c.egld))
  | .unDelegate, [] => some (some (.unDelegate c.caller c.egld c.esdt))
  | .withdraw, [] => some (some (.withdraw c.caller c.egld c.esdt))
  | .getLsValueForPosition, [.nat x] => some (some (.viewLsValue x))
  | .getEgldPositionValue, [.nat x] => some (some (.viewEgldPosition x))
  | .registerLsToken, [.buffer _, .buffer _, .nat _] => some (some (.registerLsToken c.caller c.egld))
  | .registerUnstakeToken, [.buffer _, .buffer _, .nat _] => some (some (.registerUnstakeToken c.caller c.egld))
  | .setStateActive, [] => some (some (.owner c.caller .stateActive))
  | .setStateInactive, [] => some (some (.owner c.caller .stateInactive))
  | .setAccumulatorContract, [.addr a] => some (some (.owner c.caller (.accumulator a)))
  | .setFees, [.nat x] => some (some (.owner c.caller (.fees x)))
  | .setMinimumRounds, [.u64 x] => some (some (.owner c.caller (.minimumRounds x)))
  | .setMaxAddresses, [.nat x] => some (some (.owner c.caller (.maxAddresses x)))
  | .setMaxSelectedProviders, [.nat x] => some (some (.owner c.caller (.maxSelected x)))
  | .setUnbondPeriod, [.u64 x] => some (some (.owner c.caller (.unbondPeriod x)))
  | .addManagers, l => (addrs l).map fun l => some (.owner c.caller (.addManagers l))
  | .removeManager, [.addr a] => some (some (.owner c.caller (.removeManager a)))
  | .setScoringConfig, [.scoring x] => some (some (.setScoringConfig c.caller x))
  | .delegatePending, [] => some (some (.delegatePending c.caller none))
  | .delegatePending, [.nat x] => some (some (.delegatePending c.caller (some x)))
  | .unDelegatePending, [] => some (some (.unDelegatePending c.caller none))
  | .unDelegatePending, [.nat x] => some (some (.unDelegatePending c.caller (some x)))
  | .withdrawPending, [.addr a] => some (some (.withdrawPending c.caller a))
  | .claimRewards, [] => some (some (.claimRewards c.caller))
  | .claimFees, [] => some (some (.claimFees c.caller c.accepts))
  | .migrate, [.nat x, .addr a] => some (some (.migrate c.caller x a))
  | .migratePending, [] => some (some (.migratePending c.caller c.egld))
  | .addRewards, [] => some (some (.addRewards c.caller c.egld))
  | .setMigrationScAddress, [.addr a] => some (some (.setMigrationSc c.caller a))
  | .whitelistDelegationContract, [.addr p, .addr a, .nat t, .nat k, .u64 n, .u64 y] =>
    some (some (.whitelist c.caller c.egld p a t k n y))
  | .changeDelegationContractAdmin, [.addr p, .addr a] => some (some (.changeAdmin c.caller p a))
  | .changeDelegationContractParams, [.addr p, .nat t, .nat k, .u64 n, .u64 y, .bool e] =>
    some (some (.changeParams c.caller p t k n y e))
  | .getExchangeRate, [] | .getDelegationAddressesList, [] | .getUnDelegationAddressesList, [] | .getManagers, []
  | .getScoringConfig, [] | .fees, [] | .getAccumulatorContract, [] | .roundsPerEpoch, [] | .minimumRounds, [] | .getState, []
  | .getLsTokenId, [] | .getLsSupply, [] | .getVirtualEgldReserve, [] | .getFeesReserve, [] | .getTotalWithdrawnEgld, []
  | .getUnstakeTokenId, [] | .getPendingEGLDForDelegate, [] | .getPendingEGLDForUnDelegate, [] | .getPendingEgldForUnbond, []
  | .maxDelegationAddresses, [] | .maxSelectedProviders, [] | .unbondPeriod, [] | .getMigrationScAddress, []
  | .getDelegationContractStakedAmount, [.addr _] | .getDelegationContractUnstakedAmount, [.addr _]
  | .getDelegationContractInfo, [.addr _] | .getUnstakeTokenNonce, [.u64 _] => some none
  | _, _ => none

/-- The operation a call stands for. -/
def parse (c : Call) : Except Refusal (Option Op) :=
  match Fn.all.find? fun f => f.name = c.fn with
  | none => .error .noFunction
  | some f =>
    match f.sig.check c with
    | .error r => .error r
    | .ok vs =>
      match f.op c vs with
      | some o => .ok o
      | none => .error .badArg

/-- A call refused by the framework, or failed in the body. -/
inductive Fault
  | refused (r : Refusal) | failed (e : Err)
  deriving DecidableEq, Repr

/-- A call of the contract. -/
def call (w : World) (c : Call) : Except Fault World :=
  match parse c with
  | .error r => .error (.refused r)
  | .ok none => .ok w
  | .ok (some op) =>
    match step w op with
    | .ok w' => .ok w'
    | .error e => .error (.failed e)

/-- Deployment with arguments in bytes: `init`, lib.rs:61-71. -/
def deploySig : Sig := ⟨.none, [.addr, .big, .u64, .u64, .big, .usize, .u64], .none⟩

/-- `init` run by a deployment of `owner`. -/
def deploy (self owner : Addr) (contracts : List Addr) (epoch : UInt64) (funds : Map Addr Nat) (c : Call) : Except Fault World :=
  match deploySig.check c with
  | .error r => .error (.refused r)
  | .ok [.addr acc, .nat fees, .u64 rpe, .u64 mr, .nat ms, .nat ma, .u64 ub] =>
    match initWorld self owner contracts epoch funds acc fees rpe mr ms ma ub with
    | .ok w => .ok w
    | .error e => .error (.failed e)
  | .ok _ => .error (.refused .badArg)

end LS.Abi
