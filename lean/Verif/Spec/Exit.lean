import Verif.Spec.Network
import Verif.Spec.Losing

/-! A holder of LS tokens leaving, in the network of contract and mocks. -/

namespace LS.Spec

/-- Waiting until epoch `e` and asking back: time passes to `e`, `m` calls `unDelegatePending` for the whole queue and `withdrawPending`,
requests are served in order and answers arrive in order. -/
def AskingBack (m : Addr) (e : UInt64) (n : Net) (op : NetOp) : Prop :=
  NetInOrder n op ∧ match op with
    | .call c => c = .advance e ∨ c = .unDelegatePending m none ∨ ∃ p, c = .withdrawPending m p
    | .deploy _ | .deposit _ _ => False
    | _ => True

/-- The same, with `u` redeeming `l` LS tokens and withdrawing. -/
def Leaving (u m : Addr) (l : Nat) (e : UInt64) (n : Net) (op : NetOp) : Prop :=
  AskingBack m e n op ∨ (∃ t, op = .call (.unDelegate u 0 [⟨t, 0, l⟩])) ∨ ∃ ps, op = .call (.withdraw u 0 ps)

/-- The first provider in the order of un-delegations that has stake could give `a` and keep one EGLD. -/
def FirstCanGive (w : World) (a : Nat) : Prop := ∃ p, (withStake w).head? = some p ∧ a + oneEgld ≤ netStake w p

/-- The mocks have the EGLD delegated to them and unbonding there. -/
def Funded (n : Net) : Prop := ∀ p, (mockBooks n p).stake + (mockBooks n p).unbonding ≤ mockBalance n p

/-- A manager who is not the contract. -/
def MayManage (w : World) (m : Addr) : Prop := m ≠ w.self ∧ (m ∈ w.st.managers ∨ m = w.owner)

/-- Batches can be computed: a scoring configuration without empty ranges, and limits that are 32-bit numbers. -/
def CanBatch (w : World) : Prop :=
  (∃ cfg, w.st.scoring = some cfg ∧ cfg.minNodes ≠ cfg.maxNodes ∧ cfg.minApy ≠ cfg.maxApy) ∧
    w.st.maxSelectedProviders < 2 ^ 32 ∧ w.st.undelegList.length < 2 ^ 32

end LS.Spec
