import Verif.Model.Step

/-! The contract as its own provider: a manager may whitelist any address, also the contract's own
(liquid-staking/src/delegation.rs:29-96 does not look at it).  The calls meant for a provider then run endpoints of the contract
with the contract as caller.  The rest of the model leaves this out; here it is added. -/

namespace LS

/-- `delegate` once the payment has arrived, liquid-staking/src/lib.rs:103-114. -/
def depositBody (w0 : World) (caller : Addr) (value : Nat) : Res World := do
  let c ← cacheNew w0.st
  requireActive c
  req (0 < value) .badPaymentAmount
  let (p, extra) ← getActionAmount c.r.toUnstake value
  let (w1, c1) ← processDelegation w0 caller c p extra
  .ok (commit w1 c1)

/-- `delegate` of a user is the payment followed by `depositBody`. -/
theorem delegate_eq (w : World) (caller : Addr) (value : Nat) : delegate w caller value = (do
    requireUser w caller
    let w0 ← payEgld w caller value
    depositBody w0 caller value) := rfl

/-- `withdraw` called without payments, liquid-staking/src/lib.rs:142-210: the loop has nothing to do, no EGLD is sent. -/
def emptyWithdraw (w0 : World) (caller : Addr) : Res World := do
  let c ← cacheNew w0.st
  requireActive c
  match w0.st.unstakeToken with
  | none => .error .invalidTokenId
  | some uid => do
    let (w1, c1, toSend) ← withdrawLoop caller uid [] w0 c 0
    let w2 ← sendEgld w1 caller toSend
    .ok (commit (emit w2 c1 .general caller) c1)

/-- `withdraw` of a user without payments is `emptyWithdraw` after a payment of nothing. -/
theorem withdraw_eq (w : World) (caller : Addr) : withdraw w caller 0 [] = (do
    requireUser w caller
    let w0 ← payAny w caller 0 []
    emptyWithdraw w0 caller) := rfl

/-- VM: the answer to promise `i`, with gas for its callback or without. -/
def answered (w : World) (i : Nat) (o : Outcome) (gas : Bool) : Res World := if gas then deliver w i o else starve w i o

/-- Promise `i` is a call of the contract to itself.  It runs at once (same shard), then its callback:
* `delegate` with EGLD (manage.rs:84-98, delegation.rs:81-96; proxy/proxy_delegation.rs:77 has the name of the contract's own
  endpoint, lib.rs:102): the EGLD is back and `delegate` runs with the contract as caller.  Trusted: the VM lets the contract send
  the LS tokens to itself; if it does not, this is the case of a call that fails.
* `unDelegate` with an amount (manage.rs:160-173): the contract's own endpoint takes no argument (lib.rs:118-119), the call fails.
* `withdraw` (manage.rs:196-205): the contract's own endpoint, without payments.
`claimMultiple` goes to the delegation manager, never to a provider (manage.rs:214-239). -/
def selfServe (w : World) (i : Nat) (gas : Bool) : Res World :=
  match w.flights[i]? with
  | some (.delegate p a) | some (.whitelist p a _) =>
    if p = w.self then
      match depositBody { w with egld := credit w.egld w.self a } w.self a with
      | .ok w1 => answered w1 i (.ok 0 0) gas
      | .error _ => answered w i .err gas
    else .error .noSuchFlight
  | some (.undelegate p _) => if p = w.self then answered w i .err gas else .error .noSuchFlight
  | some (.withdraw p) =>
    if p = w.self then
      match emptyWithdraw w w.self with
      | .ok w1 => answered w1 i (.ok 0 0) gas
      | .error _ => answered w i .err gas
    else .error .noSuchFlight
  | _ => .error .noSuchFlight

end LS
