import Verif.Model.Mock
import Verif.Spec.System

/-! EGLD moving between accounts, promises and providers, and the network of contract and mocks. -/

namespace LS.Spec

/-- EGLD sent with a promise. -/
def carried : Flight → Nat
  | .delegate _ a | .whitelist _ a _ => a
  | _ => 0

/-- EGLD paid for issues that have not been answered. -/
def costs : List Issue → Nat
  | [] => 0
  | x :: l => x.cost + costs l

/-- EGLD sent with some promises. -/
def allCarried : List Flight → Nat
  | [] => 0
  | f :: l => carried f + allCarried l

/-- EGLD entering the accounts, the promises and the issues from outside in a transaction. -/
def entering (w : World) : Op → Nat
  | .fund _ v => v
  | .deliver i (.ok g _) | .starve i (.ok g _) => if (w.flights[i]?).isSome then g else 0
  | _ => 0

/-- EGLD leaving them. -/
def leaving (w : World) : Op → Nat
  | .deliver i (.ok _ _) | .starve i (.ok _ _) => match w.flights[i]? with
    | some f => carried f
    | none => 0
  | .issued i (some _) => match w.issues[i]? with
    | some x => x.cost
    | none => 0
  | _ => 0

/-- EGLD entering the network from outside. -/
def netIn : NetOp → Nat
  | .call (.fund _ v) => v
  | .deposit _ v => v
  | _ => 0

/-- EGLD leaving it: the cost of a token that was issued. -/
def netOut (n : Net) : NetOp → Nat
  | .call (.issued i (some _)) => match n.w.issues[i]? with
    | some x => x.cost
    | none => 0
  | _ => 0

/-- The balance of the mock at `p`. -/
def mockBalance (n : Net) (p : Addr) : Nat :=
  match n.mocks.get none p with
  | some m => m.egld
  | none => 0

/-- What the mock at `p` holds for the contract. -/
def mockBooks (n : Net) (p : Addr) : Books :=
  match n.mocks.get none p with
  | some m => ⟨m.deposit, m.undAmount⟩
  | none => ⟨0, 0⟩

/-- The rewards due at a mock: ten percent a year of the deposit for the epochs since the last claim, rounded down (before and after
multiplying with the epochs). -/
def rewardDue (m : Mock) (now : UInt64) : Nat := m.deposit * 10 / 100 * (now.toNat - m.lastClaim.toNat) / 365

/-- The rewards due at `p`. -/
def rewardAt (n : Net) (p : Addr) : Nat :=
  match n.mocks.get none p with
  | some m => rewardDue m n.w.epoch
  | none => 0

/-- The rewards due at some providers. -/
def allDue (n : Net) : List Addr → Nat
  | [] => 0
  | p :: ps => rewardAt n p + allDue n ps

/-- A history of the network, every step satisfying `P`. -/
inductive NetTrace (P : Net → NetOp → Prop) (n : Net) : Net → Prop
  | nil : NetTrace P n n
  | snoc {n1 n2 : Net} (op : NetOp) : NetTrace P n n1 → P n1 op → netStep n1 op = .ok n2 → NetTrace P n n2

/-- Waiting until epoch `e` and collecting: time passes to `e`, `m` calls `withdrawPending`, requests are served in order and answers
arrive in order. -/
def Winding (m : Addr) (e : UInt64) (n : Net) (op : NetOp) : Prop :=
  NetInOrder n op ∧ match op with
    | .call c => c = .advance e ∨ ∃ p, c = .withdrawPending m p
    | .deploy _ | .deposit _ _ => False
    | _ => True

end LS.Spec
