import Verif.Spec.Observe

/-! What a transaction announces, when a callback fails, and what a redemption writes on the position it creates. -/

namespace LS.Spec

/-! ### Events -/

/-- The system contract that manages delegations, named as the caller in the event of a reward claim
(liquid-staking/src/constants/mod.rs:15-16). -/
def delegationManager : Addr := 0x000000000000000000010000000000000000000000000000000000000004ffff

/-- The liquidity event of a transaction that ends in `w'`: it carries all figures of the pool. -/
def announce (w' : World) (k : EventKind) (c : Addr) : List Event :=
  match w'.st.lsToken with
  | some t => [.change k c t w'.st.r w'.epoch]
  | none => []

/-- The events of the answer to a call, when the callback takes effect. -/
def callbackEvents (w w' : World) : Flight → Outcome → List Event
  | .delegate _ _, .ok _ _ => []
  | .delegate p _, .err => announce w' .general p
  | .undelegate p _, _ => announce w' .general p
  | .withdraw p, .ok v _ => if v = 0 then [] else announce w' (.withdrawPending v p) p
  | .withdraw _, .err => []
  | .claim _, .ok _ r =>
    if r = 0 then []
    else .protocolRevenue (feesReserve w' - feesReserve w) w'.epoch :: announce w' (.claimRewards r) delegationManager
  | .claim _, .err => []
  | .whitelist _ a u, .ok _ _ => announce w' (.addLiquidity a) u
  | .whitelist _ _ _, .err => []

/-- The events of a transaction, in order. -/
def announced (w : World) (op : Op) (w' : World) : List Event :=
  match op with
  | .delegate c v => announce w' (.addLiquidity v) c
  | .unDelegate c _ _ => announce w' (.removeLiquidity (reserve w - reserve w')) c
  | .withdraw c _ _ => announce w' .general c
  | .delegatePending c _ => announce w' .general c
  | .unDelegatePending c _ => announce w' .general c
  | .migrate _ v original => announce w' (.addLiquidity v) original
  | .migratePending c _ => announce w' .general c
  | .addRewards c _ => announce w' .general c
  | .deliver i o =>
    match w.flights[i]? with
    | some f => if w'.dead = w.dead then callbackEvents w w' f o else []
    | none => []
  | _ => []

/-- The figures in the last liquidity event of a log. -/
def lastFigures : List Event → Option Reserves
  | [] => none
  | e :: l =>
    match lastFigures l with
    | some r => some r
    | none =>
      match e with
      | .change _ _ _ r _ => some r
      | .protocolRevenue _ _ => none

/-- The protocol revenue announced in a log. -/
def revenue : List Event → Nat
  | [] => 0
  | .protocolRevenue f _ :: l => f + revenue l
  | .change .. :: l => revenue l

/-- No figures at all: the pool before its first liquidity event. -/
def emptyPool : Reserves := ⟨0, 0, 0, 0, 0, 0, 0⟩

/-! ### Callbacks -/

/-- When the callback of a call fails, so that its effects are lost: the provider gives back more than it was given, a fee rate above
100 % takes more than the rewards, the pool would mint no token for the first delegation of a provider, or there is no LS token yet. -/
def CallbackFails (w : World) : Flight → Outcome → Prop
  | .undelegate p a, .ok _ _ => figure (·.staked) w p < a
  | .withdraw p, .ok v _ => figure (·.unstaked) w p < v ∨ unbonding w < v
  | .claim _, .ok _ r => r < r * w.st.feeRate / 10000
  | .whitelist _ a _, .ok _ _ => w.st.lsToken = none ∨ lsFor (supply w) (reserve w) a = 0
  | .whitelist _ _ _, .err => w.st.lsToken = none
  | _, _ => False

/-! ### Positions -/

/-- How a redemption deferred `u` of `c`'s EGLD: the maturity is the epoch plus the unbond period. -/
inductive Redeemed (w w' : World) (c : Addr) (u : Nat) : Prop
  /-- The nonce `n` registered for the maturity gets more quantity; the contract's own units stay. -/
  | joins {n : Nat} (reg : w.st.unstakeNonce.get 0 (w.epoch + w.st.unbondPeriod) = n) (pos : n ≠ 0)
      (own : unstakeOf w' n c = unstakeOf w n c + u) (kept : unstakeOf w' n w.self = unstakeOf w n w.self)
      (last : w'.lastNonce = w.lastNonce)
  /-- No nonce is registered: the next nonce is opened for the maturity, one unit of it stays with the contract, and the previous
  nonce is retired when it was opened at an earlier epoch: the contract burns its units and forgets the maturity. -/
  | opens (reg : w.st.unstakeNonce.get 0 (w.epoch + w.st.unbondPeriod) = 0) (last : w'.lastNonce = w.lastNonce + 1)
      (own : unstakeOf w' (w.lastNonce + 1) c = u) (kept : unstakeOf w' (w.lastNonce + 1) w.self = 1)
      (attrs : w'.attrs.get none (w.lastNonce + 1) = some ⟨w.epoch, w.epoch + w.st.unbondPeriod⟩)
      (now : w'.st.unstakeNonce.get 0 (w.epoch + w.st.unbondPeriod) = w.lastNonce + 1)
      (old : ∀ a, w.attrs.get none w.lastNonce = some a →
        if a.unstakeEpoch < w.epoch then unstakeOf w' w.lastNonce w.self = 0 ∧ w'.st.unstakeNonce.get 0 a.unbondEpoch = 0
        else unstakeOf w' w.lastNonce w.self = unstakeOf w w.lastNonce w.self ∧ w'.st.unstakeNonce.get 0 a.unbondEpoch = w.lastNonce)

end LS.Spec
