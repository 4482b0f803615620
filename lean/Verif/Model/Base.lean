/-
Base vocabulary of the model: error values, checked arithmetic, finite maps.

Everything under `Verif/Model` models code in /repo (or, where said, the MultiversX framework/VM it runs on).
Citations are `file:lines` relative to /repo.
-/

namespace LS

/-- Addresses.  `0` plays the role of the zero address.  Simplification: a 32-byte address is a natural number. -/
abbrev Addr := Nat

/-- ESDT token identifiers (ticker-random strings), as opaque numbers. -/
abbrev TokenId := Nat

/-- Every way a transaction can fail.  First block: the messages of liquid-staking/src/errors/mod.rs:1-51 that are used;
second block: panics of the multiversx-sc framework and the VM. -/
inductive Err
  | notActive | lsTokenNotIssued | unstakePeriodNotPassed | badPaymentToken | badPaymentAmount
  | insufficientPendingEgld | insufficientUnstakePendingEgld | insufficientUnbondedAmount
  | insufficientLiquidity | insufficientLiqBurned | notEnoughLp | badDelegationAddress
  | noDelegationContracts | alreadyWhitelisted | notWhitelisted | delegationCap | onlyDelegationAdmin
  | maxDelegationAddresses | maxUnDelegationAddresses | maxSelectedProviders | maxChangedDelegationAddresses
  | minEgldToDelegate | migrationScNotSet | migrationNotAllowed | notPayable | notManager | scoringConfigNotSet
  | weightsMustSumTo100 | insufficientFeesReserve
  -- framework / VM
  | negativeSub        -- BigUint subtraction below zero
  | divByZero          -- BigUint division by zero
  | unwrapNone         -- `Option::unwrap` on `None`
  | decode             -- top-decoding an empty storage entry / missing token attributes
  | onlyOwner          -- `#[only_owner]`
  | invalidTokenId     -- token mapper without a token
  | insufficientFunds  -- the VM refuses a transfer or burn for lack of balance
  | badEsdtCount       -- `single_esdt` with a number of transfers other than one
  | badValue           -- VM: EGLD value together with ESDT transfers
  | nftNotOwned        -- adding quantity to a nonce of which the account holds nothing
  | callerIsSelf       -- VM: a user transaction is never sent by the contract itself
  | tokenAlreadySet    -- issuing a token twice
  | calleeFailed       -- a synchronous callee failed
  | noSuchFlight       -- not a transaction: delivering a callback that does not exist
  | badEpoch           -- not a transaction: moving time backwards
  deriving DecidableEq, Repr

/-- Result of running contract code: a value, or the error that reverts the transaction. -/
abbrev Res := Except Err

/-- multiversx-sc `require!`. -/
def req (c : Prop) [Decidable c] (e : Err) : Res Unit := if c then .ok () else .error e

/-- multiversx-sc `BigUint` subtraction: signals "cannot subtract because result would be negative". -/
def csub (a b : Nat) : Res Nat := if b ≤ a then .ok (a - b) else .error .negativeSub

/-- multiversx-sc `BigUint` division: signals "division by 0". -/
def cdiv (a b : Nat) : Res Nat := if b = 0 then .error .divByZero else .ok (a / b)

/-- `Option::unwrap`. -/
def unwrap {α : Type} : Option α → Res α
  | some x => .ok x
  | none => .error .unwrapNone

/-- `BigUint::to_u64`. -/
def toU64 (n : Nat) : Option Nat := if n < 2 ^ 64 then some n else none

/-- `as usize` on the contract's target: wasm32, so `usize` is 32 bits (liquid-staking/wasm/Cargo.toml). -/
def asUsize (n : Nat) : Nat := n % 2 ^ 32

/-- `as u32`. -/
def asU32 (n : Nat) : Nat := n % 2 ^ 32

/-! Finite maps as association lists: `set` replaces the first entry of a key or appends one, `get` reads the first entry.
They stand for storage mappers keyed by an argument and for the balance ledgers of the chain. -/

abbrev Map (K V : Type) := List (K × V)

def Map.get {K V : Type} [DecidableEq K] (d : V) : Map K V → K → V
  | [], _ => d
  | (k', v) :: m, k => if k' = k then v else Map.get d m k

def Map.set {K V : Type} [DecidableEq K] : Map K V → K → V → Map K V
  | [], k, v => [(k, v)]
  | (k', v') :: m, k, v => if k' = k then (k', v) :: m else (k', v') :: Map.set m k v

end LS
