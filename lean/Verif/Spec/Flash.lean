import Verif.Spec.Rewards

/-! Rewards taken by those who come just for them: what a group of accounts can gain from rewards that arrive while it holds LS tokens. -/

namespace LS.Spec

/-- As `Closed`, except that rewards may arrive, as donations from anybody or as answers to claims. -/
def OnlyRewards (C : Finset Addr) (w : World) : Op → Prop
  | .addRewards _ _ => True
  | .deliver i o => (∃ ps, w.flights[i]? = some (.claim ps)) ∨ Closed C w (.deliver i o)
  | op => Closed C w op

/-- A history in which nothing comes to the group `C` but its share in rewards, with the sum `g` of these shares: of every reward, the
fraction of all LS tokens the group holds when the reward arrives. -/
inductive Shared (C : Finset Addr) (w : World) : World → ℚ → Prop
  | nil : Shared C w w 0
  | snoc {w1 w2 : World} {g : ℚ} (op : Op) : Shared C w w1 g → step w1 op = .ok w2 → OnlyRewards C w1 op →
      Shared C w w2 (g + (creditedBy w1 op : ℚ) * ((∑ a ∈ C, lsOf w1 a : Nat) : ℚ) / (supply w1 : ℚ))

end LS.Spec
