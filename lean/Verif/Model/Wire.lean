import Verif.Model.Abi
import Verif.Model.Mock

/-! What travels between the contract and the staking contracts, in bytes: the promises with their callback closures, the interfaces of
the two mocks, their answers, and the callbacks that read them.

The framework's part (multiversx-sc 0.54.0, text not in the repository): arguments are top-encoded; a callback's closure keeps the name of
the callback and its arguments, top-encoded, and gives them back to the callback unchanged; `#[call_result]` reads the status and the
returned data, and refuses data that is missing or left over; without it the answer's data is not looked at (`withdraw_tokens_callback`). -/

namespace LS.Wire
open Layout Abi

/-- A promise as registered: receiver, function, arguments, EGLD, gas, the callback with the arguments of its closure and its gas. -/
structure Msg where
  dest : Addr
  fn : Bytes
  args : List Bytes
  egld : Nat
  gas : UInt64
  cb : Bytes
  closure : List Bytes
  cbGas : UInt64
  deriving DecidableEq, Repr

/-- constants/mod.rs:3-6. -/
def GAS_CALL : UInt64 := 12000000
def GAS_CLAIM : UInt64 := 2500000
def GAS_CALLBACK : UInt64 := 6000000
def GAS_WHITELIST : UInt64 := 20000000

/-- The promises of manage.rs:85-97 (`delegate`), 162-173 (`unDelegate`), 198-205 (`withdraw`), 224-240 (`claimMulti`) and
delegation.rs:83-96 (`delegate`), with the names and arguments put in by proxy/proxy_delegation.rs:73-101 and
proxy/proxy_delegation_manager.rs:65-76. -/
def encode : Flight → Msg
  | .delegate p a =>
    ⟨p, ascii "delegate".toList, [], a, GAS_CALL, ascii "add_liquidity_callback".toList, [encAddr p, encTop a], GAS_CALLBACK⟩
  | .undelegate p a =>
    ⟨p, ascii "unDelegate".toList, [encTop a], 0, GAS_CALL, ascii "remove_liquidity_callback".toList, [encAddr p, encTop a],
      GAS_CALLBACK⟩
  | .withdraw p =>
    ⟨p, ascii "withdraw".toList, [], 0, GAS_CALL, ascii "withdraw_tokens_callback".toList, [encAddr p], GAS_CALLBACK⟩
  | .claim ps =>
    ⟨DELEGATION_MANAGER, ascii "claimMulti".toList, ps.map encAddr, 0, GAS_CLAIM * ps.length.toUInt64,
      ascii "claim_rewards_callback".toList, [], GAS_CALLBACK⟩
  | .whitelist p a u =>
    ⟨p, ascii "delegate".toList, [], a, GAS_CALL, ascii "whitelist_delegation_contract_callback".toList,
      [encAddr p, encTop a, encAddr u], GAS_WHITELIST⟩

/-- An answer: the returned data and the EGLD that comes with it, or a failure. -/
inductive Reply
  | done (data : List Bytes) (egld : Nat)
  | fail
  deriving DecidableEq, Repr

/-- The checks a called contract makes before the body of a function with signature `s`. -/
def accepts (s : Sig) (args : List Bytes) (egld : Nat) : Option (List Val) :=
  (s.check ⟨0, [], args, egld, [], false⟩).toOption

/-- A call of a delegation-mock by the contract or by the manager: delegation-mock/wasm/src/lib.rs:20-26 and the annotations of
delegation-mock/src/delegation.rs:13-72.  The mock afterwards, the EGLD it sends to the caller, the returned data.  `depositEGLD` is for
its owner only, who is neither. -/
def mockCall (now : UInt64) (m : Mock) (fn : Bytes) (args : List Bytes) (egld : Nat) : Option (Mock × Nat × List Bytes) :=
  if fn = ascii "delegate".toList then
    match accepts ⟨.egld, [], .none⟩ args egld with
    | some [] => some (m.delegate egld, 0, [])
    | _ => none
  else if fn = ascii "unDelegate".toList then
    match accepts ⟨.none, [.big], .none⟩ args egld with
    | some [.nat a] =>
      match m.unDelegate now a with
      | .ok m' => some (m', 0, [])
      | .error _ => none
    | _ => none
  else if fn = ascii "withdraw".toList then
    match accepts ⟨.none, [], .none⟩ args egld with
    | some [] =>
      match m.withdraw now with
      | .ok (m', v) => some (m', v, [])
      | .error _ => none
    | _ => none
  else if fn = ascii "claimRewards".toList then
    match accepts ⟨.none, [], .none⟩ args egld with
    | some [] =>
      match m.claimRewards now with
      | .ok (m', v) => some (m', v, [encTop v])
      | .error _ => none
    | _ => none
  else none

/-- The loop of the delegation manager's mock, delegation-manager-mock/src/delegation_manager.rs:13-23: a synchronous call of
`claimRewards` for every address (delegation-manager-mock/src/proxy_delegation.rs, the same proxy), and the sum of what was sent back. -/
def claimLoop (now : UInt64) : List Addr → Mocks → Option (Mocks × Nat)
  | [], ms => some (ms, 0)
  | p :: ps, ms =>
    match ms.get none p with
    | none => none
    | some m =>
      match mockCall now m (ascii "claimRewards".toList) [] 0 with
      | none => none
      | some (m', v, _) =>
        match claimLoop now ps (ms.set p (some m')) with
        | none => none
        | some (ms', t) => some (ms', v + t)

/-- A call of the manager's mock, delegation-manager-mock/wasm/src/lib.rs:20-22, src/delegation_manager.rs:10-27. -/
def managerCall (now : UInt64) (ms : Mocks) (fn : Bytes) (args : List Bytes) (egld : Nat) : Option (Mocks × Nat × List Bytes) :=
  if fn = ascii "claimMulti".toList then
    match (accepts ⟨.none, [], .many .addr⟩ args egld).bind addrs with
    | some l =>
      match claimLoop now l ms with
      | some (ms', t) => some (ms', t, [encTop t])
      | none => none
    | none => none
  else none

/-- A promise served by the contract at its address: the manager's mock, a delegation-mock, or none. -/
def serve (now : UInt64) (ms : Mocks) (m : Msg) : Reply × Mocks :=
  if m.dest = DELEGATION_MANAGER then
    match managerCall now ms m.fn m.args m.egld with
    | some (ms', v, data) => (.done data v, ms')
    | none => (.fail, ms)
  else
    match ms.get none m.dest with
    | none => (.fail, ms)
    | some k =>
      match mockCall now k m.fn m.args m.egld with
      | some (k', v, data) => (.done data v, ms.set m.dest (some k'))
      | none => (.fail, ms)

/-- `#[call_result] result: ManagedAsyncCallResult<()>`. -/
def readUnit : Reply → Res Bool
  | .done [] _ => .ok true
  | .done _ _ => .error .calleeFailed
  | .fail => .ok false

/-- `#[call_result] result: ManagedAsyncCallResult<BigUint>`. -/
def readBig : Reply → Res (Option Nat)
  | .done [b] _ => .ok (some (beVal b))
  | .done _ _ => .error .calleeFailed
  | .fail => .ok none

/-- The callback named `cb` with closure arguments in bytes; `value` is the EGLD that came with the answer.  Names:
liquid-staking/wasm/src/lib.rs:80-84; arguments: callback.rs:16-20, 45-49, 73, 90, 111-116. -/
def callback (w : World) (cb : Bytes) (closure : List Bytes) (r : Reply) (value : Nat) : Res World :=
  if cb = ascii "remove_liquidity_callback".toList then
    match accepts ⟨.none, [.addr, .big], .none⟩ closure 0 with
    | some [.addr p, .nat a] => do removeLiquidityCb w p a (← readUnit r)
    | _ => .error .calleeFailed
  else if cb = ascii "add_liquidity_callback".toList then
    match accepts ⟨.none, [.addr, .big], .none⟩ closure 0 with
    | some [.addr p, .nat a] => do addLiquidityCb w p a (← readUnit r)
    | _ => .error .calleeFailed
  else if cb = ascii "withdraw_tokens_callback".toList then
    match accepts ⟨.none, [.addr], .none⟩ closure 0 with
    | some [.addr p] => withdrawTokensCb w p value
    | _ => .error .calleeFailed
  else if cb = ascii "claim_rewards_callback".toList then
    match accepts ⟨.none, [], .none⟩ closure 0 with
    | some [] => do claimRewardsCb w (← readBig r)
    | _ => .error .calleeFailed
  else if cb = ascii "whitelist_delegation_contract_callback".toList then
    match accepts ⟨.none, [.addr, .big, .addr], .none⟩ closure 0 with
    | some [.addr p, .nat a, .addr u] => do whitelistCb w p a u (← readUnit r)
    | _ => .error .calleeFailed
  else .error .calleeFailed

/-- VM: the EGLD that arrives with an answer; that of a failed call comes back. -/
def value (m : Msg) : Reply → Nat
  | .done _ v => v
  | .fail => m.egld

/-- VM: the answer `r` to promise number `i`, which is `m`, arrives; `gas`: whether its callback has enough.  `flights` and `dead` are the
model's record of the promises; the callback does not see them. -/
def deliver (w : World) (i : Nat) (m : Msg) (r : Reply) (gas : Bool) : Res World :=
  match w.flights[i]? with
  | none => .error .noSuchFlight
  | some f =>
    let w0 := { w with flights := w.flights.eraseIdx i, egld := credit w.egld w.self (value m r) }
    match if gas then callback w0 m.cb m.closure r (value m r) else .error .calleeFailed with
    | .ok w' => .ok w'
    | .error _ => .ok { w0 with dead := w0.dead ++ [f] }

/-- The network with everything between the contracts in bytes. -/
structure Wires where
  w : World
  msgs : List (Msg × Option Reply)
  mocks : Mocks

/-- What can happen: a call of the contract in bytes, something else on the chain, and the steps of `NetOp`. -/
inductive WireOp
  | call (c : Call)
  | chain (op : Op)
  | deploy (p : Addr)
  | deposit (p : Addr) (v : Nat)
  | serve (i : Nat)
  | answer (i : Nat) (gas : Bool)

/-- The promises registered by a transaction join those under way. -/
def joined (n : Wires) (w' : World) : Wires :=
  { n with w := w', msgs := n.msgs ++ (w'.flights.drop n.w.flights.length).map (encode ·, none) }

/-- One step.  No mock is deployed at the manager's address, and callers have addresses of 32 bytes. -/
def wireStep (n : Wires) : WireOp → Except Fault Wires
  | .call c =>
    if c.caller < 2 ^ 256 then
      match Abi.call n.w c with
      | .ok w' => .ok (joined n w')
      | .error e => .error e
    else .error (.failed .calleeFailed)
  | .chain op =>
    match parseable op with
    | false =>
      match step n.w op with
      | .ok w' => .ok (joined n w')
      | .error e => .error (.failed e)
    | true => .error (.failed .noSuchFlight)
  | .deploy p =>
    if p = DELEGATION_MANAGER then .error (.failed .alreadyWhitelisted)
    else
      match n.mocks.get none p with
      | none => .ok { n with mocks := n.mocks.set p (some Mock.new) }
      | some _ => .error (.failed .alreadyWhitelisted)
  | .deposit p v =>
    match n.mocks.get none p with
    | none => .error (.failed .calleeFailed)
    | some m => .ok { n with mocks := n.mocks.set p (some (m.depositEgld v)) }
  | .serve i =>
    match n.msgs[i]? with
    | some (m, none) =>
      let (r, ms) := Wire.serve n.w.epoch n.mocks m
      .ok { n with msgs := n.msgs.set i (m, some r), mocks := ms }
    | _ => .error (.failed .noSuchFlight)
  | .answer i gas =>
    match n.msgs[i]? with
    | some (m, some r) =>
      match deliver n.w i m r gas with
      | .ok w' => .ok { n with w := w', msgs := n.msgs.eraseIdx i }
      | .error e => .error (.failed e)
    | _ => .error (.failed .noSuchFlight)
where
  /-- Calls of endpoints arrive as `call`, answers as `answer`: the rest is `chain`. -/
  parseable : Op → Bool
    | .upgrade | .issued .. | .transferLs .. | .transferNft .. | .fund .. | .advance .. | .changeOwner .. | .burnLs ..
    | .burnUnstake .. | .transferEgld .. | .giveEgld .. | .giveLs .. | .giveUnstake .. => false
    | _ => true

/-- The networks reached from a deployment in bytes. -/
inductive WireReach : Wires → Prop
  | init {self owner : Addr} {contracts : List Addr} {epoch : UInt64} {funds : Map Addr Nat} {c : Call} {w : World} :
    Abi.deploy self owner contracts epoch funds c = .ok w → WireReach ⟨w, [], []⟩
  | step {n n' : Wires} (op : WireOp) : WireReach n → wireStep n op = .ok n' → WireReach n'

end LS.Wire
