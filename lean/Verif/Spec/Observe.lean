import Verif.Model.Step
import Mathlib.Algebra.BigOperators.Group.Finset.Basic

/-! What the property theorems talk about: balances and views an outside observer can read, sums, and histories.
Nothing here refers to how the contract computes anything. -/

namespace LS.Spec

/-! ### Balances -/

/-- EGLD of an account. -/
def egldOf (w : World) (a : Addr) : Nat := w.egld.get 0 a
/-- LS tokens of an account. -/
def lsOf (w : World) (a : Addr) : Nat := w.ls.get 0 a
/-- Unstake tokens with nonce `n` of an account. -/
def unstakeOf (w : World) (n : Nat) (a : Addr) : Nat := w.nft.get 0 (n, a)
/-- The maturity (unbond epoch) written on the unstake tokens with nonce `n`. -/
def maturityOf (w : World) (n : Nat) : Option UInt64 := (w.attrs.get none n).map (·.unbondEpoch)

/-! ### Views of the contract (liquid-staking/src/storage/mod.rs:44-102) -/

/-- `getLsSupply` -/
def supply (w : World) : Nat := w.st.r.lsSupply
/-- `getVirtualEgldReserve` -/
def reserve (w : World) : Nat := w.st.r.reserve
/-- `getFeesReserve` -/
def feesReserve (w : World) : Nat := w.st.r.fees
/-- `getTotalWithdrawnEgld`: EGLD back from providers, waiting for `withdraw`. -/
def withdrawable (w : World) : Nat := w.st.r.withdrawn
/-- `getPendingEgld`: EGLD waiting for `delegatePending`. -/
def pendingEgld (w : World) : Nat := w.st.r.pending
/-- `getPendingEgldForUnstake`: EGLD waiting for `unDelegatePending`. -/
def toUndelegate (w : World) : Nat := w.st.r.toUnstake
/-- `getPendingEgldForUnbond`: EGLD unbonding at providers. -/
def unbonding (w : World) : Nat := w.st.r.toUnbond
/-- `getDelegationContractInfo`: the record of a provider, `none` when there is none. -/
def provider (w : World) (c : Addr) : Option ProviderData := w.st.data.get none c
/-- A figure of a provider's record; zero when there is no record. -/
def figure (f : ProviderData → Nat) (w : World) (c : Addr) : Nat :=
  match provider w c with
  | some d => f d
  | none => 0

/-! ### Sums -/

/-- `f` is zero outside some finite set and its values add up to `s`. -/
def IsSum {α : Type} (f : α → Nat) (s : Nat) : Prop :=
  ∃ S : Finset α, (∀ a, a ∉ S → f a = 0) ∧ ∑ a ∈ S, f a = s

/-! ### Histories -/

/-- A history of successful transactions from one world to another, each satisfying `P` (world before, transaction, world
after).  Failed transactions leave the world as it was, so they need not appear. -/
inductive Trace (P : World → Op → World → Prop) (w : World) : World → Prop
  | nil : Trace P w w
  | snoc {w1 w2 : World} (op : Op) : Trace P w w1 → step w1 op = .ok w2 → P w1 op w2 → Trace P w w2

/-- Any history. -/
def Later : World → World → Prop := Trace (fun _ _ _ => True)

/-- The delegation manager is honest in this transaction: the reward total it reports is covered by the EGLD it sends. -/
def HonestManager (w : World) (op : Op) (_ : World) : Prop :=
  match op with
  | .deliver i (.ok egld ret) => ∀ ps, w.flights[i]? = some (.claim ps) → ret ≤ egld
  | _ => True

/-- The callback that runs in this transaction, if any, has the gas it needs. -/
def Fueled (_ : World) (op : Op) (_ : World) : Prop := ∀ i o, op ≠ .starve i o

/-- Reachable from a deployment by a history in which every transaction satisfies `P`. -/
def ReachableBy (P : World → Op → World → Prop) (w : World) : Prop := ∃ w0, IsInit w0 ∧ Trace P w0 w

/-! ### Issues -/

/-- The call that starts an issue. -/
def startOf (x : Issue) : Op :=
  match x.kind with
  | .ls => .registerLsToken x.caller x.cost
  | .unstake => .registerUnstakeToken x.caller x.cost

/-- An issue was started by the account that owned the contract at that time. -/
def AskedByOwner (w : World) (x : Issue) : Prop :=
  ∃ w0 w1, Reachable w0 ∧ x.caller = w0.owner ∧ step w0 (startOf x) = .ok w1 ∧ Later w1 w

/-! ### Calls in flight -/

/-- EGLD of delegations to provider `c` among some promises. -/
def delegationsTo (c : Addr) : List Flight → Nat
  | [] => 0
  | .delegate c' a :: fs => (if c' = c then a else 0) + delegationsTo c fs
  | _ :: fs => delegationsTo c fs

/-- EGLD of un-delegations from provider `c` among some promises. -/
def undelegationsFrom (c : Addr) : List Flight → Nat
  | [] => 0
  | .undelegate c' a :: fs => (if c' = c then a else 0) + undelegationsFrom c fs
  | _ :: fs => undelegationsFrom c fs

/-- Promises whose callback has not taken effect: still to come, or ran and failed. -/
def unsettled (w : World) : List Flight := w.flights ++ w.dead

/-- EGLD of all delegations among some promises. -/
def allDelegations : List Flight → Nat
  | [] => 0
  | .delegate _ a :: fs => a + allDelegations fs
  | _ :: fs => allDelegations fs

/-- EGLD of all un-delegations among some promises. -/
def allUndelegations : List Flight → Nat
  | [] => 0
  | .undelegate _ a :: fs => a + allUndelegations fs
  | _ :: fs => allUndelegations fs

/-! ### Payments -/

/-- What a list of payments pays with nonce `n`. -/
def paidWith (n : Nat) : List Payment → Nat
  | [] => 0
  | p :: ps => (if p.nonce = n then p.amount else 0) + paidWith n ps

/-- What a list of payments pays in total. -/
def totalPaid : List Payment → Nat
  | [] => 0
  | p :: ps => p.amount + totalPaid ps

/-- Unstake tokens of users: everything held by any account but the contract itself. -/
def userTokens (w : World) (p : Nat × Addr) : Nat := if p.2 = w.self then 0 else unstakeOf w p.1 p.2

/-! ### Amounts -/

/-- One EGLD. -/
def oneEgld : Nat := 1000000000000000000

/-- Not dust: nothing, or at least one EGLD. -/
def Whole (x : Nat) : Prop := x = 0 ∨ oneEgld ≤ x

/-- LS tokens due for `a` EGLD at supply `S` and reserve `R`. -/
def lsFor (S R a : Nat) : Nat := if R = 0 then a else a * S / R

/-- EGLD due for `l` LS tokens at supply `S` and reserve `R`. -/
def egldFor (S R l : Nat) : Nat := l * R / S

/-- How a payment is matched against the opposite queue: `i` at once, `u` deferred.  The instant part fits in the queue,
leaves neither side with dust, and is the largest that does (nothing when no part does). -/
structure IsSplit (queue payment i u : Nat) : Prop where
  sum : i + u = payment
  fits : i ≤ queue
  clean : 0 < i → Whole (queue - i) ∧ Whole u
  largest : ∀ j, j ≤ queue → j ≤ payment → Whole (queue - j) → Whole (payment - j) → j ≤ i

/-! ### Batches -/

/-- Delegations to some providers, as promises. -/
def delegations (b : List (Addr × Nat)) : List Flight := b.map fun x => .delegate x.1 x.2
/-- Un-delegations from some providers, as promises. -/
def undelegations (b : List (Addr × Nat)) : List Flight := b.map fun x => .undelegate x.1 x.2
/-- EGLD in a batch. -/
def batchTotal : List (Addr × Nat) → Nat
  | [] => 0
  | x :: b => x.2 + batchTotal b
/-- EGLD in a batch for provider `p`. -/
def batchFor (p : Addr) : List (Addr × Nat) → Nat
  | [] => 0
  | x :: b => (if x.1 = p then x.2 else 0) + batchFor p b
/-- The stake of a provider net of the calls in flight. -/
def netStake (w : World) (p : Addr) : Nat := figure (·.staked) w p + figure (·.pStake) w p - figure (·.pUnstake) w p
/-- The amount a batch is asked for: the whole queue unless stated. -/
def batchAsked (queue : Nat) (o : Option Nat) : Nat := o.getD queue
/-- An amount a batch may be asked for: at least one EGLD, in the queue, and leaving no dust there. -/
def ValidBatch (queue : Nat) (o : Option Nat) : Prop :=
  oneEgld ≤ batchAsked queue o ∧ batchAsked queue o ≤ queue ∧ Whole (queue - batchAsked queue o)

/-- Account `a` went from one world to the other with `i` more EGLD and `u` more unstake tokens of one nonce `n`. -/
def PaidOut (w w' : World) (a : Addr) (i u n : Nat) : Prop :=
  egldOf w' a = egldOf w a + i ∧ unstakeOf w' n a = unstakeOf w n a + u ∧ ∀ m, m ≠ n → unstakeOf w' m a = unstakeOf w m a

/-! ### Events -/

/-- A liquidity event tells the state of the contract in `w`: token, all seven reserve figures and epoch. -/
def Reports (w : World) : Event → Prop
  | .change _ _ t r ep => w.st.lsToken = some t ∧ r = w.st.r ∧ ep = w.epoch
  | .protocolRevenue _ ep => ep = w.epoch

/-- A liquidity event. -/
def IsLiquidity : Event → Prop
  | .change .. => True
  | .protocolRevenue .. => False

end LS.Spec
