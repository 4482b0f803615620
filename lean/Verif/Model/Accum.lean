import Verif.Model.Wire

/-! The call by which `claim_fees` hands the fees to the accumulator, in bytes, and what the contracts of the repository answer to it.

The model of the endpoints (`LS.claimFees`) takes the answer as given; here it is the answer of whatever is found at the address. -/

namespace LS.Accum
open Layout Abi Wire

/-- What is found at an address: an account without code, a contract of the repository, or another contract, given by the calls it
accepts.  Simplification: such a contract does not call back into this one while it answers (`claimFeesWith` is about that). -/
inductive Resident
  | account
  | staking (v : World)
  | provider (m : Mock)
  | manager (ms : Mocks)
  | other (takes : Call → Bool)

/-- The call of liquid-staking/src/manage.rs:251-256, with the name put in by liquid-staking/src/proxy/proxy_accumulator.rs:122-128: no
arguments, the fees as EGLD. -/
def feeCall (w : World) : Call := ⟨w.self, ascii "deposit".toList, [], w.st.r.fees, [], true⟩

/-- Whether the call is accepted.  A synchronous call of an account without code fails in the VM.  The interfaces are those of
liquid-staking/wasm/src/lib.rs:25-79 (`Abi.call`), delegation-mock/wasm/src/lib.rs:20-26 and delegation-manager-mock/wasm/src/lib.rs:20-22
(`mockCall`, `managerCall`). -/
def Resident.accepts (now : UInt64) : Resident → Call → Bool
  | .account, _ => false
  | .staking v, c => (Abi.call v c).isOk
  | .provider m, c => (mockCall now m c.fn c.args c.egld).isSome
  | .manager ms, c => (managerCall now ms c.fn c.args c.egld).isSome
  | .other f, c => f c

/-- `claim_fees`, liquid-staking/src/manage.rs:242-259, with the call answered by what is found at the accumulator's address; at the
contract's own address that is the contract, in the middle of the call. -/
def claimFeesAt (site : Addr → Resident) (w : World) (caller : Addr) : Res World := do
  requireUser w caller
  let c ← cacheNew w.st
  req (0 < c.r.fees) .insufficientFeesReserve
  let w1 ← sendEgld w w.st.accumulator c.r.fees
  let r := if w.st.accumulator = w.self then .staking w1 else site w.st.accumulator
  req (r.accepts w.epoch (feeCall w) = true) .calleeFailed
  .ok (commit w1 { c with r := { c.r with fees := 0 } })

end LS.Accum
