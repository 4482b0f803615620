import Verif.Spec.Scoring

/-! Who gives up stake when EGLD is asked back from the providers, and how much of it is fair, stated from the configuration and
the stored records alone. -/

namespace LS.Spec

/-- The providers that hold stake of ours, in rotation order. -/
def withStake (w : World) : List Addr := w.st.undelegList.filter fun p => decide (0 < netStake w p)

/-- What one provider should give on average: the mean of sharing `amount` between as many as it may address and between as many
as are allowed at all. -/
def average (w : World) (amount : Nat) : Nat :=
  (amount / howMany w amount w.st.undelegList.length + amount / w.st.maxSelectedProviders) / 2

/-- What `p` is expected to give: the average, or, holding less than that, its stake, less one EGLD if that leaves more than one. -/
def expected (w : World) (amount : Nat) (p : Addr) : Nat :=
  if average w amount ≤ netStake w p then average w amount
  else if 2 * oneEgld < netStake w p then netStake w p - oneEgld
  else netStake w p

/-- What all of `l` are expected to give. -/
def expectedOf (w : World) (amount : Nat) (l : List Addr) : Nat := (l.map (expected w amount)).sum

/-- `l` are the providers that share in giving `amount`: as few as possible from the front of the rotation that are as many as
may be addressed and expected to give all of it, but never more than allowed. -/
structure IsGivers (w : World) (amount : Nat) (l : List Addr) : Prop where
  front : l <+: withStake w
  few : l.length ≤ w.st.maxSelectedProviders
  enough : l = withStake w ∨ l.length = w.st.maxSelectedProviders ∨
    (howMany w amount w.st.undelegList.length ≤ l.length ∧ amount ≤ expectedOf w amount l)
  needed : ∀ k, k <+: l → k ≠ l →
    k.length < howMany w amount w.st.undelegList.length ∨ expectedOf w amount k < amount

/-- The score of `p` for losing stake, among `l`. -/
def lossScore (w : World) (cfg : ScoringConfig) (l : List Addr) (p : Addr) : Nat :=
  match provider w p with
  | some d => undelegationScore cfg d.nrNodes.toNat d.apy.toNat (netStake w p) (stakeOf w l)
  | none => 0

/-- All of these scores together. -/
def lossScores (w : World) (cfg : ScoringConfig) (l : List Addr) : Nat := (l.map (lossScore w cfg l)).sum

/-- The part of `amount` proportional to the score of `p` for losing stake. -/
def lossShare (w : World) (cfg : ScoringConfig) (l : List Addr) (amount : Nat) (p : Addr) : Nat :=
  lossScore w cfg l p * amount / lossScores w cfg l

end LS.Spec
