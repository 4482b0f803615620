import Verif.Model.Layout

/-! Events in bytes, liquid-staking/src/events.rs.  An event is a list of topics: its name, then the indexed arguments, each encoded at
top level; there is no data (all arguments are `#[indexed]`).  The block's number and time, which the model leaves out otherwise, and
the identifier of the LS token in bytes are given along. -/

namespace LS.Logs
open Layout

/-- A byte string within a structure (`TokenIdentifier`): four bytes of length, then the bytes. -/
def encBytes (b : Bytes) : Bytes := beFixed 4 b.length ++ b

/-- `ChangeLiquidityEvent`, events.rs:5-20: the fields in the order of their declaration. -/
def encChange (caller : Addr) (token : Bytes) (r : Reserves) (block epoch stamp : UInt64) : Bytes :=
  encAddr caller ++ (encBytes token ++ (encBig r.lsSupply ++ (encBig r.reserve ++ (encBig r.fees ++ (encBig r.withdrawn ++
    (encBig r.pending ++ (encBig r.toUnstake ++ (encBig r.toUnbond ++ (encU64 block ++ (encU64 epoch ++ encU64 stamp))))))))))

/-- The topics of an event, events.rs:156-192; `id` names the tokens. -/
def topics (id : TokenId → Bytes) (block stamp : UInt64) : Event → List Bytes
  /- events.rs:156-161 -/
  | .change (.addLiquidity v) caller t r epoch =>
    [ascii "add_liquidity".toList, encTop v, encChange caller (id t) r block epoch stamp]
  /- events.rs:163-168 -/
  | .change (.removeLiquidity v) caller t r epoch =>
    [ascii "remove_liquidity".toList, encTop v, encChange caller (id t) r block epoch stamp]
  /- events.rs:170-176 -/
  | .change (.withdrawPending v p) caller t r epoch =>
    [ascii "withdraw_pending".toList, encTop v, encChange caller (id t) r block epoch stamp, encAddr p]
  /- events.rs:178-183 -/
  | .change (.claimRewards v) caller t r epoch =>
    [ascii "claim_rewards".toList, encTop v, encChange caller (id t) r block epoch stamp]
  /- events.rs:185-186 -/
  | .protocolRevenue v epoch => [ascii "protocol_revenue".toList, encTop v, encTop epoch.toNat]
  /- events.rs:188-192 -/
  | .change .general caller t r epoch => [ascii "general_liquidity_event".toList, encChange caller (id t) r block epoch stamp]

/-- The log of a history: every event with the number and the time of its block. -/
def log (id : TokenId → Bytes) (l : List (Event × UInt64 × UInt64)) : List (List Bytes) :=
  l.map fun x => topics id x.2.1 x.2.2 x.1

end LS.Logs
