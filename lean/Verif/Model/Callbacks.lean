import Verif.Model.Endpoints

/-! The promise callbacks: liquid-staking/src/callback.rs. -/

namespace LS

/-- `remove_liquidity_callback`, liquid-staking/src/callback.rs:16-42.  `get_caller` in a callback is the provider. -/
def removeLiquidityCb (w : World) (p : Addr) (amount : Nat) (success : Bool) : Res World := do
  let c ← cacheNew w.st
  if success then do
    let c1 : Cache := { c with r := { c.r with toUnbond := c.r.toUnbond + amount } }
    let w1 ← updateData w p (fun d => do
      let s ← csub d.staked amount
      let u ← csub d.pUnstake amount
      .ok { d with staked := s, unstaked := d.unstaked + amount, pUnstake := u })
    .ok (commit (emit w1 c1 .general p) c1)
  else do
    let c1 : Cache := { c with r := { c.r with toUnstake := c.r.toUnstake + amount } }
    let w1 ← updateData w p (fun d => do
      let u ← csub d.pUnstake amount
      .ok { d with pUnstake := u })
    .ok (commit (emit w1 c1 .general p) c1)

/-- `add_liquidity_callback`, liquid-staking/src/callback.rs:45-70. -/
def addLiquidityCb (w : World) (p : Addr) (amount : Nat) (success : Bool) : Res World := do
  let c ← cacheNew w.st
  if success then do
    let w1 ← updateData w p (fun d => do
      let s ← csub d.pStake amount
      .ok { d with staked := d.staked + amount, pStake := s })
    .ok (commit w1 c)
  else do
    let c1 : Cache := { c with r := { c.r with pending := c.r.pending + amount } }
    let w1 ← updateData w p (fun d => do
      let s ← csub d.pStake amount
      .ok { d with eligible := false, pStake := s })
    .ok (commit (emit w1 c1 .general p) c1)

/-- `withdraw_tokens_callback`, liquid-staking/src/callback.rs:73-87; `value` is the EGLD attached to the callback. -/
def withdrawTokensCb (w : World) (p : Addr) (value : Nat) : Res World :=
  if 0 < value then do
    let c ← cacheNew w.st
    let u ← csub c.r.toUnbond value
    let c1 : Cache := { c with r := { c.r with withdrawn := c.r.withdrawn + value, toUnbond := u } }
    let w1 ← updateData w p (fun d => do
      let x ← csub d.unstaked value
      .ok { d with unstaked := x })
    .ok (commit (emit w1 c1 (.withdrawPending value p) p) c1)
  else .ok w

/-- Address of the delegation manager system contract, liquid-staking/src/constants/mod.rs:15-16; only its use as the
caller recorded in the event of `claim_rewards_callback` is visible. -/
def DELEGATION_MANAGER : Addr := 0x000000000000000000010000000000000000000000000000000000000004ffff

/-- `claim_rewards_callback`, liquid-staking/src/callback.rs:90-108; `none` is the error result. -/
def claimRewardsCb (w : World) (result : Option Nat) : Res World :=
  match result with
  | some total =>
    if 0 < total then do
      let c ← cacheNew w.st
      let fees ← calculateShare total w.st.feeRate
      let post ← csub total fees
      let c1 : Cache := { c with r := { c.r with
        fees := c.r.fees + fees, pending := c.r.pending + post, reserve := c.r.reserve + post } }
      let w1 := { w with events := w.events ++ [.protocolRevenue fees w.epoch] }
      .ok (commit (emit w1 c1 (.claimRewards total) DELEGATION_MANAGER) c1)
    else .ok w
  | none => .ok w

/-- `whitelist_delegation_contract_callback`, liquid-staking/src/callback.rs:111-140. -/
def whitelistCb (w : World) (p : Addr) (amount : Nat) (caller : Addr) (success : Bool) : Res World := do
  let c ← cacheNew w.st
  if success then do
    let w1 ← updateData w p (fun d => .ok { d with staked := d.staked + amount })
    let w2 := { w1 with st := { w1.st with delegList := setInsert w1.st.delegList p } }
    let w3 := { w2 with st := { w2.st with undelegList := setInsert w2.st.undelegList p } }
    let (l, c1) ← poolAdd amount c
    let w4 := mintLs w3 l
    let w5 := emit w4 c1 (.addLiquidity amount) caller
    let w6 ← sendLs w5 caller l
    .ok (commit w6 c1)
  else do
    let w1 := { w with st := { w.st with data := w.st.data.set p none } }
    let w2 ← sendEgld w1 caller amount
    .ok (commit w2 c)

/-- EGLD that arrives with a callback: whatever the callee attached on success; on failure the VM returns the EGLD that was
sent with the failed call. -/
def attached : Flight → Outcome → Nat
  | _, .ok egld _ => egld
  | .delegate _ amount, .err => amount
  | .whitelist _ amount _, .err => amount
  | _, .err => 0

/-- Which callback a promise was registered with: manage.rs:91-96, 168-172, 203, 237; delegation.rs:88-94. -/
def runCallback (w : World) (f : Flight) (o : Outcome) : Res World :=
  match f, o with
  | .delegate p a, .ok _ _ => addLiquidityCb w p a true
  | .delegate p a, .err => addLiquidityCb w p a false
  | .undelegate p a, .ok _ _ => removeLiquidityCb w p a true
  | .undelegate p a, .err => removeLiquidityCb w p a false
  | .withdraw p, .ok v _ => withdrawTokensCb w p v
  | .withdraw p, .err => withdrawTokensCb w p 0
  | .claim _, .ok _ ret => claimRewardsCb w (some ret)
  | .claim _, .err => claimRewardsCb w none
  | .whitelist p a u, .ok _ _ => whitelistCb w p a u true
  | .whitelist p a u, .err => whitelistCb w p a u false

/-- The world in which a callback starts: its promise consumed, the attached EGLD received. -/
def arrive (w : World) (i : Nat) (f : Flight) (o : Outcome) : World :=
  { w with flights := w.flights.eraseIdx i, egld := credit w.egld w.self (attached f o) }

/-- VM: delivering the answer to promise number `i`.  A callback that fails reverts its own changes; the promise is consumed
and the EGLD stays. -/
def deliver (w : World) (i : Nat) (o : Outcome) : Res World :=
  match w.flights[i]? with
  | none => .error .noSuchFlight
  | some f =>
    match runCallback (arrive w i f o) f o with
    | .ok w' => .ok w'
    | .error _ => .ok { arrive w i f o with dead := (arrive w i f o).dead ++ [f] }

/-- VM: the answer to promise number `i` arrives, and its callback runs out of gas.  Callbacks get a fixed amount of gas
(`MIN_GAS_FOR_CALLBACK`, `MIN_GAS_FOR_WHITELIST_CALLBACK`, constants/mod.rs:5-6, used in manage.rs:96, 172, 204, 238 and
delegation.rs:95).  As with any callback that fails, its changes are reverted, the promise is consumed and the EGLD stays. -/
def starve (w : World) (i : Nat) (o : Outcome) : Res World :=
  match w.flights[i]? with
  | none => .error .noSuchFlight
  | some f => .ok { arrive w i f o with dead := (arrive w i f o).dead ++ [f] }

/-- The token slot written by the framework's issue callback: a token, or cleared. -/
def setToken (st : Store) (k : TokenKind) (t : Option TokenId) : Store :=
  match k with
  | .ls => { st with lsToken := t, lsPending := false }
  | .unstake => { st with unstakeToken := t, unstakePending := false }

/-- The identifier of one of the two tokens. -/
def tokenOf (st : Store) : TokenKind → Option TokenId
  | .ls => st.lsToken
  | .unstake => st.unstakeToken

/-- The other token. -/
def TokenKind.other : TokenKind → TokenKind
  | .ls => .unstake
  | .unstake => .ls

/-- `default_issue_and_set_roles_cb` of the framework module `DefaultIssueCallbacksModule` (included in lib.rs:46): on success
the slot holds the new token; on failure the returned payment goes to the caller who had paid it and the slot is cleared. -/
def issueCb (w : World) (x : Issue) : Option TokenId → Res World
  | some id => .ok { w with st := setToken w.st x.kind (some id) }
  | none => do
    let w1 ← sendEgld w x.caller x.cost
    .ok { w1 with st := setToken w1.st x.kind none }

/-- The ESDT system contract answers issue number `i`: with the identifier of a token, which is new, or by refusing, and then the
VM returns the payment. -/
def issued (w : World) (i : Nat) (o : Option TokenId) : Res World :=
  match w.issues[i]? with
  | none => .error .noSuchFlight
  | some x => do
    req (o = none ∨ tokenOf w.st x.kind.other ≠ o) .tokenAlreadySet
    issueCb { w with issues := w.issues.eraseIdx i,
                     egld := if o = none then credit w.egld w.self x.cost else w.egld } x o

end LS
