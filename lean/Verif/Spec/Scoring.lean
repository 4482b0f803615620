import Verif.Spec.Observe

/-! What a provider's score and its fair share of a delegation batch are, stated from the configuration and the stored records
alone. -/

namespace LS.Spec

/-- Where `v` lies in the range from `lo` to `hi`, in basis points rounded down; 0 below the range and 10000 above. -/
def position (v lo hi : Nat) : Nat :=
  if v < lo then 0 else if hi < v then 10000 else (v - lo) * 10000 / (hi - lo)

/-- Points for a value `x`: its `e`-th power (the exponent is read as 32 bits) times the maximum, in basis points. -/
def points (x e top : Nat) : Nat := x ^ (e % 2 ^ 32) * top / 10000

/-- The score for receiving stake: few nodes, high APY, little of the `total` stake so far. -/
def delegationScore (cfg : ScoringConfig) (nodes apy stake total : Nat) : Nat :=
  cfg.nodesWeight.toNat * points (10000 - position nodes cfg.minNodes.toNat cfg.maxNodes.toNat) cfg.exponentialBase.toNat
      cfg.maxScorePerCategory.toNat +
  cfg.apyWeight.toNat * points (position apy cfg.minApy.toNat cfg.maxApy.toNat) cfg.apyGrowthMultiplier.toNat
      cfg.maxScorePerCategory.toNat +
  cfg.stakeWeight.toNat * points (if total = 0 then cfg.maxScorePerCategory.toNat else 10000 - position stake 0 total)
      cfg.exponentialBase.toNat cfg.maxScorePerCategory.toNat

/-- The score for losing stake: many nodes, low APY, much of the `total` stake. -/
def undelegationScore (cfg : ScoringConfig) (nodes apy stake total : Nat) : Nat :=
  cfg.nodesWeight.toNat * points (position nodes cfg.minNodes.toNat cfg.maxNodes.toNat) cfg.exponentialBase.toNat
      cfg.maxScorePerCategory.toNat +
  cfg.apyWeight.toNat * points (10000 - position apy cfg.minApy.toNat cfg.maxApy.toNat) cfg.apyGrowthMultiplier.toNat
      cfg.maxScorePerCategory.toNat +
  cfg.stakeWeight.toNat * points (if total = 0 then cfg.maxScorePerCategory.toNat else position stake 0 total)
      cfg.exponentialBase.toNat cfg.maxScorePerCategory.toNat

/-- Provider `p` is open for delegations: eligible, and uncapped or with room for one EGLD above its net stake. -/
def openTo (w : World) (p : Addr) : Bool :=
  match provider w p with
  | some d => d.eligible && (d.cap == 0 || decide (netStake w p + oneEgld ≤ d.cap))
  | none => false

/-- How many providers a batch of `amount` may address: one per EGLD, at most the configured number and the length of the list. -/
def howMany (w : World) (amount len : Nat) : Nat := min (min (amount / oneEgld) w.st.maxSelectedProviders) len

/-- The providers a delegation of `amount` is shared between: the first open ones in rotation order. -/
def candidates (w : World) (amount : Nat) : List Addr :=
  (w.st.delegList.filter (openTo w)).take (howMany w amount w.st.delegList.length)

/-- The stake of some providers together. -/
def stakeOf (w : World) (l : List Addr) : Nat := (l.map (netStake w)).sum

/-- The score of `p` among the providers `l`. -/
def scoreAmong (w : World) (cfg : ScoringConfig) (l : List Addr) (p : Addr) : Nat :=
  match provider w p with
  | some d => delegationScore cfg d.nrNodes.toNat d.apy.toNat (netStake w p) (stakeOf w l)
  | none => 0

/-- All scores of `l` together. -/
def scoresOf (w : World) (cfg : ScoringConfig) (l : List Addr) : Nat := (l.map (scoreAmong w cfg l)).sum

/-- The part of `amount` proportional to the score of `p` among `l`. -/
def fairShare (w : World) (cfg : ScoringConfig) (l : List Addr) (amount : Nat) (p : Addr) : Nat :=
  scoreAmong w cfg l p * amount / scoresOf w cfg l

/-- What provider `p` still takes, as far as its declared total tells: `none` when uncapped. -/
def room (w : World) (p : Addr) : Option Nat :=
  match provider w p with
  | some d => if d.cap = 0 then none else some (d.cap - d.totalStaked)
  | none => some 0

/-- `x`, cut down to the room of `p`. -/
def withinRoom (w : World) (p : Addr) (x : Nat) : Nat :=
  match room w p with
  | none => x
  | some r => min x r

end LS.Spec
