import Verif.Model.Types

/-! Models liquid-staking/src/score.rs, function by function. -/

namespace LS

/-- First half of `norm_linear_clamp`, liquid-staking/src/score.rs:136-142. -/
def normClamp (value min max : Nat) : Res Nat :=
  if value < min then .ok 0
  else if max < value then .ok BPS
  else do
    let a ← csub value min
    let b ← csub max min
    cdiv (a * BPS) b

/-- `norm_linear_clamp`, liquid-staking/src/score.rs:129-149. -/
def normLinearClamp (value min max : Nat) (down : Bool) : Res Nat := do
  let normalized ← normClamp value min max
  if down then csub BPS normalized else .ok normalized

/-- `calculate_node_score`, liquid-staking/src/score.rs:30-48. -/
def nodeScore (nrNodes : UInt64) (isDelegate : Bool) (cfg : ScoringConfig) : Res Nat := do
  let base ← normLinearClamp nrNodes.toNat cfg.minNodes.toNat cfg.maxNodes.toNat isDelegate
  let scaled := base ^ asU32 cfg.exponentialBase.toNat
  .ok (scaled * cfg.maxScorePerCategory.toNat / BPS)

/-- `calculate_apy_score`, liquid-staking/src/score.rs:50-63 (note the negated direction at line 56). -/
def apyScore (apy : UInt64) (isDelegate : Bool) (cfg : ScoringConfig) : Res Nat := do
  let base ← normLinearClamp apy.toNat cfg.minApy.toNat cfg.maxApy.toNat (!isDelegate)
  let scaled := base ^ asU32 cfg.apyGrowthMultiplier.toNat
  .ok (scaled * cfg.maxScorePerCategory.toNat / BPS)

/-- `calculate_stake_score`, liquid-staking/src/score.rs:65-91. -/
def stakeScore (staked totalStake : Nat) (isDelegate : Bool) (cfg : ScoringConfig) : Res Nat :=
  if 0 < totalStake then do
    let base ← normLinearClamp staked 0 totalStake isDelegate
    let scaled := base ^ asU32 cfg.exponentialBase.toNat
    .ok (scaled * cfg.maxScorePerCategory.toNat / BPS)
  else
    let scaled := cfg.maxScorePerCategory.toNat ^ asU32 cfg.exponentialBase.toNat
    .ok (scaled * cfg.maxScorePerCategory.toNat / BPS)

/-- `combine_scores`, liquid-staking/src/score.rs:93-107. -/
def combineScores (node apy stake : Nat) (cfg : ScoringConfig) : Nat :=
  node * cfg.nodesWeight.toNat + apy * cfg.apyWeight.toNat + stake * cfg.stakeWeight.toNat

/-- `calculate_and_update_score`, liquid-staking/src/score.rs:9-28 (returns the updated info; the score is its `score`). -/
def updateScore (info : SelInfo) (isDelegate : Bool) (totalStake : Nat) (cfg : ScoringConfig) : Res SelInfo := do
  let n ← nodeScore info.nrNodes isDelegate cfg
  let a ← apyScore info.apy isDelegate cfg
  let s ← stakeScore info.stakedLs totalStake isDelegate cfg
  .ok { info with score := combineScores n a s cfg }

/-- `update_selected_addresses_scores`, liquid-staking/src/score.rs:109-127: scored list and total score. -/
def updateScores (isDelegate : Bool) (totalStake : Nat) (cfg : ScoringConfig) : List SelInfo → Res (List SelInfo × Nat)
  | [] => .ok ([], 0)
  | i :: is => do
    let i' ← updateScore i isDelegate totalStake cfg
    let (is', tot) ← updateScores isDelegate totalStake cfg is
    .ok (i' :: is', i'.score + tot)

end LS
