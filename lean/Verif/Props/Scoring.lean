import Verif.Props.Access
import Verif.Spec.Scoring

/-! Scoring: C33. -/

namespace LS
open Spec Demo

/-- `n` is the position of `v` in the range from `lo` to `hi` in basis points, rounded down; 0 below the range, 10000 above. -/
structure Position (v lo hi n : Nat) : Prop where
  below : v < lo → n = 0
  above : lo ≤ v → hi < v → n = 10000
  inside : lo ≤ v → v ≤ hi → n * (hi - lo) ≤ (v - lo) * 10000 ∧ (v - lo) * 10000 < (n + 1) * (hi - lo)

private theorem bps : BPS = 10000 := rfl

private theorem normClamp_ok {v lo hi n : Nat} : normClamp v lo hi = .ok n ↔
    (v < lo ∧ n = 0) ∨ (lo ≤ v ∧ hi < v ∧ n = BPS) ∨ (lo ≤ v ∧ v ≤ hi ∧ lo < hi ∧ n = (v - lo) * BPS / (hi - lo)) := by
  unfold normClamp
  by_cases h1 : v < lo
  · rw [if_pos h1]
    constructor
    · intro h; cases h; exact .inl ⟨h1, rfl⟩
    · rintro (⟨_, rfl⟩ | h | h)
      · rfl
      · omega
      · omega
  rw [if_neg h1]
  by_cases h2 : hi < v
  · rw [if_pos h2]
    constructor
    · intro h; cases h; exact .inr (.inl ⟨by omega, h2, rfl⟩)
    · rintro (h | ⟨_, _, rfl⟩ | h)
      · omega
      · rfl
      · omega
  rw [if_neg h2]
  have c1 : csub v lo = .ok (v - lo) := by unfold csub; rw [if_pos (by omega)]
  have c2 : csub hi lo = .ok (hi - lo) := by unfold csub; rw [if_pos (by omega)]
  rw [c1, c2]
  show cdiv ((v - lo) * BPS) (hi - lo) = .ok n ↔ _
  unfold cdiv
  by_cases h3 : hi - lo = 0
  · rw [if_pos h3]
    constructor
    · intro h; cases h
    · rintro (h | h | h) <;> omega
  · rw [if_neg h3]
    constructor
    · intro h; cases h; exact .inr (.inr ⟨by omega, by omega, by omega, rfl⟩)
    · rintro (h | h | ⟨_, _, _, rfl⟩)
      · omega
      · omega
      · rfl

private theorem normClamp_le {v lo hi n : Nat} (h : normClamp v lo hi = .ok n) : n ≤ BPS := by
  rcases normClamp_ok.1 h with ⟨_, rfl⟩ | ⟨_, _, rfl⟩ | ⟨h1, h2, h3, rfl⟩
  · exact Nat.zero_le _
  · exact Nat.le_refl _
  · have : (v - lo) * BPS ≤ (hi - lo) * BPS := Nat.mul_le_mul_right _ (by omega)
    rw [Nat.mul_comm (hi - lo)] at this
    exact Nat.div_le_of_le_mul (by rwa [Nat.mul_comm BPS] at this)

private theorem normClamp_mono {v v' lo hi n n' : Nat} (h : normClamp v lo hi = .ok n) (h' : normClamp v' lo hi = .ok n')
    (hv : v ≤ v') : n ≤ n' := by
  have hn := normClamp_le h
  rcases normClamp_ok.1 h with ⟨_, rfl⟩ | ⟨a1, a2, rfl⟩ | ⟨a1, a2, a3, rfl⟩
  · exact Nat.zero_le _
  · rcases normClamp_ok.1 h' with ⟨b, _⟩ | ⟨_, _, rfl⟩ | ⟨b1, b2, _⟩
    · omega
    · exact Nat.le_refl _
    · omega
  · rcases normClamp_ok.1 h' with ⟨b, _⟩ | ⟨_, _, rfl⟩ | ⟨b1, b2, b3, rfl⟩
    · omega
    · exact hn
    · exact Nat.div_le_div_right (Nat.mul_le_mul_right _ (by omega))

private theorem normClamp_total {v lo hi : Nat} : (∃ n, normClamp v lo hi = .ok n) ↔ ¬ (v = lo ∧ v = hi) := by
  constructor
  · rintro ⟨n, h⟩ ⟨rfl, rfl⟩
    rcases normClamp_ok.1 h with h | h | h <;> omega
  · intro h
    by_cases h1 : v < lo
    · exact ⟨_, normClamp_ok.2 (.inl ⟨h1, rfl⟩)⟩
    by_cases h2 : hi < v
    · exact ⟨_, normClamp_ok.2 (.inr (.inl ⟨by omega, h2, rfl⟩))⟩
    · exact ⟨_, normClamp_ok.2 (.inr (.inr ⟨by omega, by omega, by omega, rfl⟩))⟩

private theorem norm_ok {v lo hi n : Nat} {down : Bool} : normLinearClamp v lo hi down = .ok n ↔
    ∃ k, normClamp v lo hi = .ok k ∧ n = if down then BPS - k else k := by
  unfold normLinearClamp
  constructor
  · intro h
    obtain ⟨k, hk, h⟩ := bind_ok.1 h
    refine ⟨k, hk, ?_⟩
    cases down with
    | true =>
      have hle := normClamp_le hk
      have : csub BPS k = .ok n := h
      unfold csub at this
      rw [if_pos hle] at this
      cases this; rfl
    | false => cases h; rfl
  · rintro ⟨k, hk, rfl⟩
    refine bind_ok.2 ⟨k, hk, ?_⟩
    cases down with
    | true =>
      show csub BPS k = _
      unfold csub
      rw [if_pos (normClamp_le hk)]; rfl
    | false => rfl

/-- **C33**, normalisation: between 0 and 10000, the position in the range, or its complement when counted downwards. -/
theorem C33_normalised {v lo hi n : Nat} {down : Bool} (h : normLinearClamp v lo hi down = .ok n) :
    n ≤ 10000 ∧ (down = false → Position v lo hi n) ∧ (down = true → Position v lo hi (10000 - n)) := by
  obtain ⟨k, hk, rfl⟩ := norm_ok.1 h
  have hle := normClamp_le hk
  have hp : Position v lo hi k := by
    rcases normClamp_ok.1 hk with ⟨h1, rfl⟩ | ⟨h1, h2, rfl⟩ | ⟨h1, h2, h3, rfl⟩
    · exact ⟨fun _ => rfl, fun h => by omega, fun h => by omega⟩
    · exact ⟨fun h => by omega, fun _ _ => rfl, fun _ h => by omega⟩
    · refine ⟨fun h => by omega, fun _ h => by omega, fun _ _ => ⟨Nat.div_mul_le_self _ _, ?_⟩⟩
      rw [Nat.mul_comm (_ + 1)]
      exact Nat.lt_mul_div_succ _ (by omega)
  rw [bps] at hle
  cases down with
  | true =>
    refine ⟨Nat.sub_le _ _, fun h => by simp at h, fun _ => ?_⟩
    have : 10000 - (if true = true then BPS - k else k) = k := by
      rw [if_pos rfl, bps]; omega
    rw [this]; exact hp
  | false => exact ⟨hle, fun _ => hp, fun h => by simp at h⟩

/-- **C33**, normalisation fails exactly when a zero-width range is hit. -/
theorem C33_normalisation_fails {v lo hi : Nat} {down : Bool} :
    (∃ n, normLinearClamp v lo hi down = .ok n) ↔ ¬ (v = lo ∧ v = hi) := by
  rw [← normClamp_total]
  constructor
  · rintro ⟨n, h⟩; obtain ⟨k, hk, _⟩ := norm_ok.1 h; exact ⟨k, hk⟩
  · rintro ⟨k, hk⟩; exact ⟨_, norm_ok.2 ⟨k, hk, rfl⟩⟩

private theorem norm_up {v v' lo hi n n' : Nat} (h : normLinearClamp v lo hi false = .ok n)
    (h' : normLinearClamp v' lo hi false = .ok n') (hv : v ≤ v') : n ≤ n' := by
  obtain ⟨k, hk, rfl⟩ := norm_ok.1 h
  obtain ⟨k', hk', rfl⟩ := norm_ok.1 h'
  exact normClamp_mono hk hk' hv

private theorem norm_down {v v' lo hi n n' : Nat} (h : normLinearClamp v lo hi true = .ok n)
    (h' : normLinearClamp v' lo hi true = .ok n') (hv : v' ≤ v) : n ≤ n' := by
  obtain ⟨k, hk, rfl⟩ := norm_ok.1 h
  obtain ⟨k', hk', rfl⟩ := norm_ok.1 h'
  have := normClamp_mono hk' hk hv
  show BPS - k ≤ BPS - k'
  omega

private theorem scale_mono {a b k m : Nat} (h : a ≤ b) : a ^ k * m / BPS ≤ b ^ k * m / BPS :=
  Nat.div_le_div_right (Nat.mul_le_mul_right _ (Nat.pow_le_pow_left h _))

private theorem nodeScore_ok {n : UInt64} {b : Bool} {cfg : ScoringConfig} {s : Nat} : nodeScore n b cfg = .ok s ↔
    ∃ k, normLinearClamp n.toNat cfg.minNodes.toNat cfg.maxNodes.toNat b = .ok k ∧
      s = k ^ asU32 cfg.exponentialBase.toNat * cfg.maxScorePerCategory.toNat / BPS := by
  unfold nodeScore
  rw [bind_ok]
  constructor
  · rintro ⟨k, hk, h⟩; cases h; exact ⟨k, hk, rfl⟩
  · rintro ⟨k, hk, rfl⟩; exact ⟨k, hk, rfl⟩

private theorem apyScore_ok {n : UInt64} {b : Bool} {cfg : ScoringConfig} {s : Nat} : apyScore n b cfg = .ok s ↔
    ∃ k, normLinearClamp n.toNat cfg.minApy.toNat cfg.maxApy.toNat (!b) = .ok k ∧
      s = k ^ asU32 cfg.apyGrowthMultiplier.toNat * cfg.maxScorePerCategory.toNat / BPS := by
  unfold apyScore
  rw [bind_ok]
  constructor
  · rintro ⟨k, hk, h⟩; cases h; exact ⟨k, hk, rfl⟩
  · rintro ⟨k, hk, rfl⟩; exact ⟨k, hk, rfl⟩

private theorem stakeScore_ok {x t : Nat} {b : Bool} {cfg : ScoringConfig} {s : Nat} : stakeScore x t b cfg = .ok s ↔
    (0 < t ∧ ∃ k, normLinearClamp x 0 t b = .ok k ∧
      s = k ^ asU32 cfg.exponentialBase.toNat * cfg.maxScorePerCategory.toNat / BPS) ∨
    (t = 0 ∧ s = cfg.maxScorePerCategory.toNat ^ asU32 cfg.exponentialBase.toNat * cfg.maxScorePerCategory.toNat / BPS) := by
  unfold stakeScore
  by_cases ht : 0 < t
  · rw [if_pos ht, bind_ok]
    constructor
    · rintro ⟨k, hk, h⟩; cases h; exact .inl ⟨ht, k, hk, rfl⟩
    · rintro (⟨_, k, hk, rfl⟩ | ⟨h, _⟩)
      · exact ⟨k, hk, rfl⟩
      · omega
  · rw [if_neg ht]
    constructor
    · intro h; cases h; exact .inr ⟨by omega, rfl⟩
    · rintro (⟨h, _⟩ | ⟨_, rfl⟩)
      · omega
      · rfl

private theorem updateScore_ok {i j : SelInfo} {b : Bool} {t : Nat} {cfg : ScoringConfig} : updateScore i b t cfg = .ok j ↔
    ∃ n a s, nodeScore i.nrNodes b cfg = .ok n ∧ apyScore i.apy b cfg = .ok a ∧ stakeScore i.stakedLs t b cfg = .ok s ∧
      j = { i with score := combineScores n a s cfg } := by
  unfold updateScore
  simp only [bind_ok, Except.ok.injEq]
  constructor
  · rintro ⟨n, hn, a, ha, s, hs, rfl⟩; exact ⟨n, a, s, hn, ha, hs, rfl⟩
  · rintro ⟨n, a, s, hn, ha, hs, rfl⟩; exact ⟨n, hn, a, ha, s, hs, rfl⟩

private theorem combine_mono {n n' a a' s s' : Nat} {cfg : ScoringConfig} (h1 : n ≤ n') (h2 : a ≤ a') (h3 : s ≤ s') :
    combineScores n a s cfg ≤ combineScores n' a' s' cfg :=
  Nat.add_le_add (Nat.add_le_add (Nat.mul_le_mul_right _ h1) (Nat.mul_le_mul_right _ h2)) (Nat.mul_le_mul_right _ h3)

/-- **C33**, delegation: more APY, fewer nodes and less stake from this contract never score lower. -/
theorem C33_delegation_order {i i' j j' : SelInfo} {t : Nat} {cfg : ScoringConfig}
    (h : updateScore i true t cfg = .ok j) (h' : updateScore i' true t cfg = .ok j')
    (hn : i'.nrNodes.toNat ≤ i.nrNodes.toNat) (ha : i.apy.toNat ≤ i'.apy.toNat) (hs : i'.stakedLs ≤ i.stakedLs) :
    j.score ≤ j'.score := by
  obtain ⟨n, a, s, h1, h2, h3, rfl⟩ := updateScore_ok.1 h
  obtain ⟨n', a', s', h1', h2', h3', rfl⟩ := updateScore_ok.1 h'
  obtain ⟨k1, e1, rfl⟩ := nodeScore_ok.1 h1
  obtain ⟨k1', e1', rfl⟩ := nodeScore_ok.1 h1'
  obtain ⟨k2, e2, rfl⟩ := apyScore_ok.1 h2
  obtain ⟨k2', e2', rfl⟩ := apyScore_ok.1 h2'
  refine combine_mono (scale_mono (norm_down e1 e1' hn)) (scale_mono (norm_up e2 e2' ha)) ?_
  rcases stakeScore_ok.1 h3 with ⟨p, k3, e3, rfl⟩ | ⟨p, rfl⟩ <;>
    rcases stakeScore_ok.1 h3' with ⟨p', k3', e3', rfl⟩ | ⟨p', rfl⟩
  · exact scale_mono (norm_down e3 e3' hs)
  · omega
  · omega
  · exact Nat.le_refl _

/-- **C33**, un-delegation: the reverse order. -/
theorem C33_undelegation_order {i i' j j' : SelInfo} {t : Nat} {cfg : ScoringConfig}
    (h : updateScore i false t cfg = .ok j) (h' : updateScore i' false t cfg = .ok j')
    (hn : i.nrNodes.toNat ≤ i'.nrNodes.toNat) (ha : i'.apy.toNat ≤ i.apy.toNat) (hs : i.stakedLs ≤ i'.stakedLs) :
    j.score ≤ j'.score := by
  obtain ⟨n, a, s, h1, h2, h3, rfl⟩ := updateScore_ok.1 h
  obtain ⟨n', a', s', h1', h2', h3', rfl⟩ := updateScore_ok.1 h'
  obtain ⟨k1, e1, rfl⟩ := nodeScore_ok.1 h1
  obtain ⟨k1', e1', rfl⟩ := nodeScore_ok.1 h1'
  obtain ⟨k2, e2, rfl⟩ := apyScore_ok.1 h2
  obtain ⟨k2', e2', rfl⟩ := apyScore_ok.1 h2'
  refine combine_mono (scale_mono (norm_up e1 e1' hn)) (scale_mono (norm_down e2 e2' ha)) ?_
  rcases stakeScore_ok.1 h3 with ⟨p, k3, e3, rfl⟩ | ⟨p, rfl⟩ <;>
    rcases stakeScore_ok.1 h3' with ⟨p', k3', e3', rfl⟩ | ⟨p', rfl⟩
  · exact scale_mono (norm_up e3 e3' hs)
  · omega
  · omega
  · exact Nat.le_refl _

/-- **C33**, scoring a provider fails exactly when its node count or its APY hits a zero-width range. -/
theorem C33_scoring_fails {i : SelInfo} {b : Bool} {t : Nat} {cfg : ScoringConfig} :
    (∃ j, updateScore i b t cfg = .ok j) ↔
      ¬ (i.nrNodes = cfg.minNodes ∧ i.nrNodes = cfg.maxNodes) ∧ ¬ (i.apy = cfg.minApy ∧ i.apy = cfg.maxApy) := by
  have hu : ∀ a b : UInt64, a.toNat = b.toNat ↔ a = b := fun a b => UInt64.toNat_inj
  constructor
  · rintro ⟨j, h⟩
    obtain ⟨n, a, s, h1, h2, h3, rfl⟩ := updateScore_ok.1 h
    obtain ⟨k1, e1, rfl⟩ := nodeScore_ok.1 h1
    obtain ⟨k2, e2, rfl⟩ := apyScore_ok.1 h2
    have g1 := C33_normalisation_fails.1 ⟨_, e1⟩
    have g2 := C33_normalisation_fails.1 ⟨_, e2⟩
    rw [hu, hu] at g1 g2
    exact ⟨g1, g2⟩
  · rintro ⟨g1, g2⟩
    rw [← hu, ← hu] at g1 g2
    obtain ⟨k1, e1⟩ := C33_normalisation_fails (down := b).2 g1
    obtain ⟨k2, e2⟩ := C33_normalisation_fails (down := !b).2 g2
    have hs : ∃ s, stakeScore i.stakedLs t b cfg = .ok s := by
      by_cases ht : 0 < t
      · obtain ⟨k3, e3⟩ := C33_normalisation_fails (v := i.stakedLs) (lo := 0) (hi := t) (down := b).2 (by omega)
        exact ⟨_, stakeScore_ok.2 (.inl ⟨ht, k3, e3, rfl⟩)⟩
      · exact ⟨_, stakeScore_ok.2 (.inr ⟨by omega, rfl⟩)⟩
    obtain ⟨s, hs⟩ := hs
    exact ⟨_, updateScore_ok.2 ⟨_, _, s, nodeScore_ok.2 ⟨k1, e1, rfl⟩, apyScore_ok.2 ⟨k2, e2, rfl⟩, hs, rfl⟩⟩

/-- **C33**, only the score is written. -/
theorem C33_only_score {i j : SelInfo} {b : Bool} {t : Nat} {cfg : ScoringConfig} (h : updateScore i b t cfg = .ok j) :
    j = { i with score := j.score } := by
  obtain ⟨n, a, s, _, _, _, rfl⟩ := updateScore_ok.1 h; rfl

private theorem norm_position {v lo hi n : Nat} {down : Bool} (h : normLinearClamp v lo hi down = .ok n) :
    n = if down then 10000 - position v lo hi else position v lo hi := by
  obtain ⟨k, hk, rfl⟩ := norm_ok.1 h
  have : k = position v lo hi := by
    unfold position
    rcases normClamp_ok.1 hk with ⟨h1, rfl⟩ | ⟨h1, h2, rfl⟩ | ⟨h1, h2, h3, rfl⟩
    · rw [if_pos h1]
    · rw [if_neg (by omega), if_pos h2, bps]
    · rw [if_neg (by omega), if_neg (by omega), bps]
  rw [this, bps]

/-- **C33**, exact score for delegation: the weighted sum of the three categories. -/
theorem C33_delegation_score {i j : SelInfo} {t : Nat} {cfg : ScoringConfig} (h : updateScore i true t cfg = .ok j) :
    j.score = delegationScore cfg i.nrNodes.toNat i.apy.toNat i.stakedLs t := by
  obtain ⟨n, a, s, h1, h2, h3, rfl⟩ := updateScore_ok.1 h
  obtain ⟨k1, e1, rfl⟩ := nodeScore_ok.1 h1
  obtain ⟨k2, e2, rfl⟩ := apyScore_ok.1 h2
  have e1 := norm_position e1
  have e2 := norm_position e2
  have hs : s = points (if t = 0 then cfg.maxScorePerCategory.toNat else 10000 - position i.stakedLs 0 t)
      cfg.exponentialBase.toNat cfg.maxScorePerCategory.toNat := by
    rcases stakeScore_ok.1 h3 with ⟨p, k3, e3, rfl⟩ | ⟨p, rfl⟩
    · have e3 := norm_position e3
      rw [if_neg (by omega), e3]; rfl
    · rw [if_pos p]; rfl
  rw [hs, e1, e2]
  unfold delegationScore
  rw [Nat.mul_comm cfg.nodesWeight.toNat, Nat.mul_comm cfg.apyWeight.toNat, Nat.mul_comm cfg.stakeWeight.toNat]
  rfl

/-- **C33**, exact score for un-delegation. -/
theorem C33_undelegation_score {i j : SelInfo} {t : Nat} {cfg : ScoringConfig} (h : updateScore i false t cfg = .ok j) :
    j.score = undelegationScore cfg i.nrNodes.toNat i.apy.toNat i.stakedLs t := by
  obtain ⟨n, a, s, h1, h2, h3, rfl⟩ := updateScore_ok.1 h
  obtain ⟨k1, e1, rfl⟩ := nodeScore_ok.1 h1
  obtain ⟨k2, e2, rfl⟩ := apyScore_ok.1 h2
  have e1 := norm_position e1
  have e2 := norm_position e2
  have hs : s = points (if t = 0 then cfg.maxScorePerCategory.toNat else position i.stakedLs 0 t)
      cfg.exponentialBase.toNat cfg.maxScorePerCategory.toNat := by
    rcases stakeScore_ok.1 h3 with ⟨p, k3, e3, rfl⟩ | ⟨p, rfl⟩
    · have e3 := norm_position e3
      rw [if_neg (by omega), e3]; rfl
    · rw [if_pos p]; rfl
  rw [hs, e1, e2]
  unfold undelegationScore
  rw [Nat.mul_comm cfg.nodesWeight.toNat, Nat.mul_comm cfg.apyWeight.toNat, Nat.mul_comm cfg.stakeWeight.toNat]
  rfl

/-- **C33**, the total score is the sum of the scores, provider by provider in order. -/
theorem C33_scores {b : Bool} {t tot : Nat} {cfg : ScoringConfig} : ∀ {l l' : List SelInfo},
    updateScores b t cfg l = .ok (l', tot) →
    List.Forall₂ (fun i j => updateScore i b t cfg = .ok j) l l' ∧ tot = (l'.map SelInfo.score).sum := by
  intro l
  induction l generalizing tot with
  | nil =>
    intro l' h
    simp only [updateScores, Except.ok.injEq, Prod.mk.injEq] at h
    obtain ⟨rfl, rfl⟩ := h
    exact ⟨.nil, rfl⟩
  | cons i is ih =>
    intro l' h
    simp only [updateScores, bind_ok, Prod.exists, Except.ok.injEq, Prod.mk.injEq] at h
    obtain ⟨i', hi, is', t', his, rfl, rfl⟩ := h
    obtain ⟨h1, rfl⟩ := ih his
    exact ⟨.cons hi h1, by simp⟩

/-- Two providers with the default configuration: the better one for delegation is the worse one for un-delegation. -/
def weak : SelInfo := { address := 21, score := 0, totalStaked := 0, apy := 700, nrNodes := 40, stakedLs := E 60, spaceLeft := none }
def strong : SelInfo := { address := 22, score := 0, totalStaked := 0, apy := 900, nrNodes := 10, stakedLs := E 40, spaceLeft := none }

example : (∃ j, updateScore weak true (E 100) .default = .ok j) ∧ (∃ j, updateScore strong true (E 100) .default = .ok j) ∧
    (∃ j, updateScore weak false (E 100) .default = .ok j) ∧ (∃ j, updateScore strong false (E 100) .default = .ok j) :=
  ⟨C33_scoring_fails.2 (by decide), C33_scoring_fails.2 (by decide), C33_scoring_fails.2 (by decide),
    C33_scoring_fails.2 (by decide)⟩

example : (updateScore weak true (E 100) .default).map (·.score) ≠ (updateScore strong true (E 100) .default).map (·.score) := by
  decide +kernel

/-- The scores of the two, both ways. -/
example : delegationScore .default 40 700 (E 60) (E 100) = 1280478655204980 ∧
    delegationScore .default 10 900 (E 40) (E 100) = 20481615337340570 ∧
    undelegationScore .default 40 700 (E 60) (E 100) = 6480925116425010 ∧
    undelegationScore .default 10 900 (E 40) (E 100) = 80256751089420 := by
  decide +kernel

/-- A zero-width range is accepted by `setScoringConfig`, and blocks delegation as soon as a provider hits it. -/
theorem C33_zero_width_blocks : ∃ w w' : World, Reachable w ∧ works w (.delegatePending 1 none) = true ∧
    step w (.setScoringConfig 1 { ScoringConfig.default with minApy := 800, maxApy := 800 }) = .ok w' ∧
    works w' (.delegatePending 1 none) = false :=
  ⟨deposited, exec deposited (.setScoringConfig 1 { ScoringConfig.default with minApy := 800, maxApy := 800 }),
    deposited_reachable, by decide +kernel, step_exec (by decide +kernel), by decide +kernel⟩

end LS
