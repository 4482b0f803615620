import Verif.Spec.Gains

/-! Dealings of a group of accounts with the pool while others deposit and redeem. -/

namespace LS.Spec

/-- At least `n` units of LS token are not in the hands of the group. -/
def OthersHold (C : Finset Addr) (n : Nat) (w : World) : Prop := n + ∑ a ∈ C, lsOf w a ≤ supply w

/-- Rewards from outside the group: a donation by somebody else, or the answer to a claim. -/
def RewardFrom (C : Finset Addr) (w : World) (op : Op) : Prop :=
  (∃ c v, op = .addRewards c v ∧ c ∉ C) ∨ ∃ i o ps, op = .deliver i o ∧ w.flights[i]? = some (.claim ps)

/-- Histories in which the group does what it likes (donations that raise the rate included), and others deposit (`k` times, by `delegate` or
by a whitelisting that was answered) and redeem (`j` times), while at every moment others hold at least `n` units of LS token.  Rewards may
arrive: `g` is the group's share in them, `q` their sum per LS token.  Owner, managers and providers may do everything that hands nothing to a
member. -/
inductive Dealings (C : Finset Addr) (n : Nat) (w : World) : World → Nat → Nat → ℚ → ℚ → Prop
  | nil : OthersHold C n w → Dealings C n w w 0 0 0 0
  | own {w1 w2 : World} {k j : Nat} {g q : ℚ} (op : Op) : Dealings C n w w1 k j g q → step w1 op = .ok w2 → Closed C w1 op →
      OthersHold C n w2 → Dealings C n w w2 k j g q
  | deposit {w1 w2 : World} {k j : Nat} {g q : ℚ} (c : Addr) (a : Nat) : Dealings C n w w1 k j g q → step w1 (.delegate c a) = .ok w2 →
      c ∉ C → OthersHold C n w2 → Dealings C n w w2 (k + 1) j g q
  | joins {w1 w2 : World} {k j : Nat} {g q : ℚ} (i : Nat) (o : Outcome) (p : Addr) (x : Nat) (u : Addr) : Dealings C n w w1 k j g q →
      step w1 (.deliver i o) = .ok w2 → w1.flights[i]? = some (.whitelist p x u) → u ∉ C → OthersHold C n w2 →
      Dealings C n w w2 (k + 1) j g q
  | redeem {w1 w2 : World} {k j : Nat} {g q : ℚ} (c : Addr) (v : Nat) (ps : List Payment) : Dealings C n w w1 k j g q →
      step w1 (.unDelegate c v ps) = .ok w2 → c ∉ C → OthersHold C n w2 → Dealings C n w w2 k (j + 1) g q
  | reward {w1 w2 : World} {k j : Nat} {g q : ℚ} (op : Op) : Dealings C n w w1 k j g q → step w1 op = .ok w2 → RewardFrom C w1 op →
      OthersHold C n w2 → Dealings C n w w2 k j (g + shareOf C w1 op) (q + (creditedBy w1 op : ℚ) / (supply w1 : ℚ))

end LS.Spec
