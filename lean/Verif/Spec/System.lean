import Verif.Model.Providers
import Verif.Spec.Observe

/-! What the theorems about the contract together with its providers talk about. -/

namespace LS.Spec

/-- EGLD on its way, belonging to a promise: a delegation (or the first delegation of a new provider) that has not been served
or was refused, and the EGLD coming with an answer. -/
def onTheWay : Flight × Option Outcome → Nat
  | (.delegate _ a, none) | (.delegate _ a, some .err) => a
  | (.whitelist _ a _, none) | (.whitelist _ a _, some .err) => a
  | (_, some (.ok g _)) => g
  | _ => 0

/-- All EGLD on its way. -/
def allOnTheWay : List (Flight × Option Outcome) → Nat
  | [] => 0
  | e :: l => onTheWay e + allOnTheWay l

/-- What a provider holds for the contract, staked or unbonding. -/
def held (s : Sys) (p : Addr) : Nat := (booksOf s p).stake + (booksOf s p).unbonding

/-- The delegation manager reports no more rewards than it sends.  Nothing is asked of the order of requests and answers, of what the
providers accept or refuse, or of the gas callbacks have. -/
def TrueClaims (s : Sys) (op : SysOp) : Prop :=
  ∀ i g r ps, op = .serve i (.ok g r) → s.msgs[i]? = some (.claim ps, none) → r ≤ g

/-- Providers answer in order, and the delegation manager reports no more rewards than it sends. -/
def HonestSys (s : Sys) (op : SysOp) : Prop := InOrder s op ∧ TrueClaims s op

/-- A history of the system, every step satisfying `P`. -/
inductive SysTrace (P : Sys → SysOp → Prop) (s : Sys) : Sys → Prop
  | nil : SysTrace P s s
  | snoc {s1 s2 : Sys} (op : SysOp) : SysTrace P s s1 → P s1 op → sysStep s1 op = .ok s2 → SysTrace P s s2

/-- Collecting what the providers owe: `m` calls `withdrawPending`, providers serve requests in order, answers arrive. -/
def Collecting (m : Addr) (s : Sys) (op : SysOp) : Prop :=
  HonestSys s op ∧ ∀ c, op = .call c → ∃ p, c = .withdrawPending m p

end LS.Spec
