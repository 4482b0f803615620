import Verif.Spec.Gains

/-! What transactions mean to those who own something: seven kinds of deeds, and nothing else. -/

namespace LS.Spec

/-- What a group of accounts has, and the two figures that decide the price of an LS token. -/
@[ext] structure Purse where
  /-- LS tokens the rate counts -/
  supply : Nat
  /-- EGLD that belongs to them -/
  reserve : Nat
  /-- LS tokens of the group -/
  ls : Int
  /-- EGLD of the group, and EGLD promised to it: its unstake tokens -/
  cash : Int

/-- What can happen to a purse. -/
inductive Deed
  /-- an account gives EGLD, or unstake tokens, away -/
  | give (a : Addr) (x : Nat)
  /-- an account gets EGLD, or unstake tokens -/
  | get (a : Addr) (x : Nat)
  /-- an account gives LS tokens away -/
  | giveLs (a : Addr) (x : Nat)
  /-- an account gets LS tokens -/
  | getLs (a : Addr) (x : Nat)
  /-- LS tokens are made for an account, for EGLD added to the reserve -/
  | join (a : Addr) (x : Nat)
  /-- an account hands in LS tokens, for EGLD of the reserve, paid at once or promised -/
  | redeem (a : Addr) (l : Nat)
  /-- EGLD is added to the reserve, for all LS tokens -/
  | reward (x : Nat)
  deriving DecidableEq, Repr

/-- What counts for the group. -/
def ofGroup (C : Finset Addr) (a : Addr) (x : Nat) : Nat := if a ∈ C then x else 0

/-- What a deed does to the purse of a group. -/
def Purse.after (C : Finset Addr) (p : Purse) : Deed → Purse
  | .give a x => { p with cash := p.cash - ofGroup C a x }
  | .get a x => { p with cash := p.cash + ofGroup C a x }
  | .giveLs a x => { p with ls := p.ls - ofGroup C a x }
  | .getLs a x => { p with ls := p.ls + ofGroup C a x }
  | .join a x => { p with
      supply := p.supply + lsFor p.supply p.reserve x, reserve := p.reserve + x, ls := p.ls + ofGroup C a (lsFor p.supply p.reserve x) }
  | .redeem a l => { p with
      supply := p.supply - l, reserve := p.reserve - egldFor p.supply p.reserve l, ls := p.ls - ofGroup C a l,
      cash := p.cash + ofGroup C a (egldFor p.supply p.reserve l) }
  | .reward x => { p with reserve := p.reserve + x }

/-- What deeds do, one after the other. -/
def Purse.afterAll (C : Finset Addr) (p : Purse) (ds : List Deed) : Purse := ds.foldl (Purse.after C) p

/-- The purse of a group in a world, `u` being the sum of its unstake tokens. -/
def purse (C : Finset Addr) (w : World) (u : Nat) : Purse :=
  ⟨supply w, reserve w, ((∑ a ∈ C, lsOf w a : Nat) : Int), ((∑ a ∈ C, egldOf w a : Nat) : Int) + u⟩

/-- The LS tokens paid with `unDelegate`. -/
def handedIn : List Payment → Nat
  | [x] => x.amount
  | _ => 0

/-- The deeds of a successful transaction: what its sender, or the chain, decided.  All that managers and providers do about the stake is
no deed: `delegatePending`, `unDelegatePending`, `withdrawPending`, `claimRewards`, changes of providers, the answers to delegations,
un-delegations and withdrawals; nor are settings, clock ticks and views.  A withdrawal turns unstake tokens into EGLD and is no deed
either, but for EGLD attached to it. -/
def deeds (w w' : World) : Op → List Deed
  | .delegate c v => [.give c v, .join c v]
  | .unDelegate c _ ps => [.redeem c (handedIn ps)]
  | .withdraw c v _ | .migratePending c v | .registerLsToken c v | .registerUnstakeToken c v | .whitelist c v _ _ _ _ _ _
  | .giveEgld c v | .burnUnstake c _ v | .giveUnstake c _ v => [.give c v]
  | .migrate c v _ => [.join c v]
  | .addRewards c v => [.give c v, .reward v]
  | .claimFees _ _ => [.get w.st.accumulator (feesReserve w)]
  | .issued i none =>
    match w.issues[i]? with
    | some x => [.get x.caller x.cost]
    | none => []
  | .deliver i (.ok _ r) =>
    match w.flights[i]? with
    | some (.whitelist _ a u) => if w'.dead = w.dead then [.join u a] else []
    | some (.claim _) => [.reward (r - r * w.st.feeRate / 10000)]
    | _ => []
  | .deliver i .err =>
    match w.flights[i]? with
    | some (.whitelist _ a u) => if w'.dead = w.dead then [.get u a] else []
    | _ => []
  | .transferEgld s d v | .transferNft s d _ v => [.give s v, .get d v]
  | .transferLs s d v => [.giveLs s v, .getLs d v]
  | .burnLs a v | .giveLs a v => [.giveLs a v]
  | .fund a v => [.get a v]
  | _ => []

/-- A history of successful transactions, with its deeds. -/
inductive Done (w : World) : World → List Deed → Prop
  | nil : Done w w []
  | snoc {w1 w2 : World} {ds : List Deed} (op : Op) : Done w w1 ds → step w1 op = .ok w2 → Done w w2 (ds ++ deeds w1 w2 op)

/-- The deeds of a list of transactions, those that fail having none. -/
def deedsOf (w : World) : List Op → List Deed
  | [] => []
  | op :: ops =>
    match step w op with
    | .ok w' => deeds w w' op ++ deedsOf w' ops
    | .error _ => deedsOf w ops

/-- Whom a deed is about, if it is about someone. -/
def Deed.who : Deed → Option Addr
  | .give a _ | .get a _ | .giveLs a _ | .getLs a _ | .join a _ | .redeem a _ => some a
  | .reward _ => none

end LS.Spec
