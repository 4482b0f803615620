import Verif.Props.Shares
import Verif.Props.Losses
import Verif.Props.Access

/-! What a provider can gain by what it declares about itself: C92. -/

namespace LS
open Spec Demo

/-- The best score a provider with this stake can have, whatever number of nodes and rate of return it declares. -/
def Spec.bestScore (cfg : ScoringConfig) (stake total : Nat) : Nat :=
  cfg.nodesWeight.toNat * points 10000 cfg.exponentialBase.toNat cfg.maxScorePerCategory.toNat +
  cfg.apyWeight.toNat * points 10000 cfg.apyGrowthMultiplier.toNat cfg.maxScorePerCategory.toNat +
  cfg.stakeWeight.toNat * points (if total = 0 then cfg.maxScorePerCategory.toNat else 10000 - position stake 0 total)
      cfg.exponentialBase.toNat cfg.maxScorePerCategory.toNat

/-- The scores of `l` other than `p`, together. -/
def Spec.rivals (w : World) (cfg : ScoringConfig) (l : List Addr) (p : Addr) : Nat :=
  ((l.filter (fun q => q ≠ p)).map (scoreAmong w cfg l)).sum

/-- **C92 is false of the code**: of 150 EGLD provider 21 gets 36; its admin, who is not a manager, declares one node and a rate
of return of 10 % and it gets 106 of the same 150 EGLD. -/
theorem C92_false : ∃ w w1 : World, Reachable w ∧ isManager w 41 = false ∧
    step w (.changeParams 41 21 (E 1000) (E 1500) 1 1000 true) = .ok w1 ∧
    pendingEgld w = E 150 ∧ (exec w (.delegatePending 1 none)).flights =
      delegations [(21, 36057326567026308461), (22, 113942673432973691539)] ∧
    (exec w1 (.delegatePending 1 none)).flights = delegations [(21, 106412542848351334209), (22, 43587457151648665791)] :=
  ⟨deposited, exec deposited (.changeParams 41 21 (E 1000) (E 1500) 1 1000 true), deposited_reachable, by decide +kernel,
    step_exec (by decide +kernel), by decide +kernel, by decide +kernel, by decide +kernel⟩

private theorem declared_figure {w w' : World} {f : ProviderData → Nat} {q : Addr} {d d' : ProviderData} (h : provider w q = some d)
    (h' : provider w' q = some d') (hf : f d' = f d) : figure f w' q = figure f w q := by
  unfold figure
  rw [h, h']
  exact hf

private theorem netStake_kept {w w' : World} {c p : Addr} {ts cap : Nat} {n apy : UInt64} {e : Bool}
    (h : step w (.changeParams c p ts cap n apy e) = .ok w') (q : Addr) : netStake w' q = netStake w q := by
  obtain ⟨⟨d, h1, h2⟩, _, h3, _⟩ := C43_changeParams h
  by_cases hq : q = p
  · subst hq
    unfold netStake
    rw [declared_figure h1 h2 rfl, declared_figure h1 h2 rfl, declared_figure h1 h2 rfl]
  · unfold netStake figure
    rw [h3 q hq]

/-- **C92**, the others.  The full claim is that a provider cannot enlarge its share by what it declares; see `C92_false`.
Declarations of `p` leave the stake of everybody as it is, and of every other provider its place in the rotation, whether it is
open, its room, and its scores among any providers for receiving and for losing stake. -/
theorem C92_others_partial {w w' : World} {c p : Addr} {ts cap : Nat} {n apy : UInt64} {e : Bool}
    (h : step w (.changeParams c p ts cap n apy e) = .ok w') :
    w'.st.delegList = w.st.delegList ∧ w'.st.undelegList = w.st.undelegList ∧ (∀ q, netStake w' q = netStake w q) ∧
    ∀ q, q ≠ p → openTo w' q = openTo w q ∧ room w' q = room w q ∧
      ∀ cfg l, scoreAmong w' cfg l q = scoreAmong w cfg l q ∧ lossScore w' cfg l q = lossScore w cfg l q := by
  obtain ⟨_, _, h3, h4⟩ := C43_changeParams h
  have hs := netStake_kept h
  have ht : ∀ l, stakeOf w' l = stakeOf w l := by
    intro l
    unfold stakeOf
    rw [funext hs]
  refine ⟨by rw [h4], by rw [h4], hs, fun q hq => ⟨?_, ?_, fun cfg l => ⟨?_, ?_⟩⟩⟩
  · unfold openTo; rw [h3 q hq, hs]
  · unfold room; rw [h3 q hq]
  · unfold scoreAmong; rw [h3 q hq, hs, ht]
  · unfold lossScore; rw [h3 q hq, hs, ht]

/-- Provider 22 and a batch of 150 EGLD: the score of provider 22 stays as it was while provider 21 changes its declarations. -/
example : works deposited (.changeParams 41 21 (E 1000) (E 1500) 1 1000 true) = true ∧
    scoreAmong deposited .default [21, 22] 22 = scoreAmong (exec deposited (.changeParams 41 21 (E 1000) (E 1500) 1 1000 true)) .default [21, 22] 22 ∧
    scoreAmong deposited .default [21, 22] 21 < scoreAmong (exec deposited (.changeParams 41 21 (E 1000) (E 1500) 1 1000 true)) .default [21, 22] 21 := by
  decide +kernel

private theorem position_le (v lo hi : Nat) : position v lo hi ≤ 10000 := by
  unfold position
  split
  · omega
  split
  · omega
  · rename_i h1 h2
    rcases Nat.eq_zero_or_pos (hi - lo) with h0 | h0
    · rw [h0, Nat.div_zero]; omega
    · refine Nat.div_le_of_le_mul ?_
      exact Nat.mul_le_mul_right _ (by omega)

private theorem points_mono {a b : Nat} (h : a ≤ b) (e top : Nat) : points a e top ≤ points b e top :=
  Nat.div_le_div_right (Nat.mul_le_mul_right _ (Nat.pow_le_pow_left h _))

private theorem share_mono {s b o A : Nat} (h : s ≤ b) : s * A / (s + o) ≤ b * A / (b + o) := by
  rcases Nat.eq_zero_or_pos s with h0 | h0
  · subst h0; simp
  rw [Nat.le_div_iff_mul_le (by omega)]
  generalize hq : s * A / (s + o) = q
  have h1 : q * (s + o) ≤ s * A := hq ▸ Nat.div_mul_le_self _ _
  refine (Nat.mul_le_mul_left_iff h0).1 ?_
  calc s * (q * (b + o)) = b * (q * s) + q * o * s := by rw [Nat.mul_add, Nat.mul_add]; ac_rfl
    _ ≤ b * (q * s) + q * o * b := Nat.add_le_add_left (Nat.mul_le_mul_left _ h) _
    _ = b * (q * (s + o)) := by rw [Nat.mul_add, Nat.mul_add]; ac_rfl
    _ ≤ b * (s * A) := Nat.mul_le_mul_left _ h1
    _ = s * (b * A) := by ac_rfl

private theorem scores_split {p : Addr} {f : Addr → Nat} :
    ∀ {l : List Addr}, l.Nodup → p ∈ l → (l.map f).sum = f p + ((l.filter (fun q => q ≠ p)).map f).sum := by
  intro l
  induction l with
  | nil => intro _ h; cases h
  | cons q l ih =>
    intro hn hp
    obtain ⟨h1, h2⟩ := List.nodup_cons.1 hn
    by_cases hq : q = p
    · subst hq
      have : l.filter (fun x => x ≠ q) = l := by
        rw [List.filter_eq_self]
        intro x hx
        simp only [ne_eq, decide_not, Bool.not_eq_eq_eq_not, Bool.not_true, decide_eq_false_iff_not]
        rintro rfl
        exact h1 hx
      rw [List.filter_cons_of_neg (by simp), this, List.map_cons, List.sum_cons]
    · rw [List.filter_cons_of_pos (by simpa using hq), List.map_cons, List.map_cons, List.sum_cons, List.sum_cons,
        ih h2 (by simpa [Ne.symm hq] using hp)]
      omega

/-- **C92**, the limit.  The full claim is that a provider cannot enlarge its share by what it declares; see `C92_false`.
Whatever `p` declares, its share of a batch among the candidates `l` stays within that of a provider with the best score its
stake allows, against the scores of its rivals, which it cannot change. -/
theorem C92_limit_partial {w : World} {cfg : ScoringConfig} {l : List Addr} {p : Addr} {A : Nat} (hl : l.Nodup) (hp : p ∈ l) :
    fairShare w cfg l A p ≤
      bestScore cfg (netStake w p) (stakeOf w l) * A / (bestScore cfg (netStake w p) (stakeOf w l) + rivals w cfg l p) := by
  have h1 : scoreAmong w cfg l p ≤ bestScore cfg (netStake w p) (stakeOf w l) := by
    unfold scoreAmong
    split
    · unfold delegationScore bestScore
      refine Nat.add_le_add_right (Nat.add_le_add ?_ ?_) _
      · exact Nat.mul_le_mul_left _ (points_mono (Nat.sub_le _ _) _ _)
      · exact Nat.mul_le_mul_left _ (points_mono (position_le _ _ _) _ _)
    · exact Nat.zero_le _
  unfold fairShare scoresOf
  rw [scores_split hl hp]
  exact share_mono h1

/-- **C92**, the limit is reached: in every state the admin of a provider can declare figures that give it the best score its
stake allows, its rivals' scores staying as they were. -/
theorem C92_reached {w : World} {cfg : ScoringConfig} {l : List Addr} {p c : Addr} {d : ProviderData}
    (hd : provider w p = some d) (hc : d.admin = c) (hs : c ≠ w.self) (h1 : cfg.minNodes < cfg.maxNodes)
    (h2 : cfg.minApy < cfg.maxApy) (hl : l.Nodup) (hp : p ∈ l) (A : Nat) :
    ∃ w', step w (.changeParams c p 0 0 cfg.minNodes cfg.maxApy true) = .ok w' ∧ openTo w' p = true ∧
      rivals w' cfg l p = rivals w cfg l p ∧
      fairShare w' cfg l A p =
        bestScore cfg (netStake w p) (stakeOf w l) * A / (bestScore cfg (netStake w p) (stakeOf w l) + rivals w cfg l p) := by
  have hex : ∃ w', step w (.changeParams c p 0 0 cfg.minNodes cfg.maxApy true) = .ok w' :=
    ⟨_, changeParams_ok.2 ⟨hs, .inr rfl, d, hd, .inl hc, rfl⟩⟩
  obtain ⟨w', hw⟩ := hex
  obtain ⟨⟨d', g1, g2⟩, _, _, _⟩ := C43_changeParams hw
  obtain ⟨_, _, g5, g6⟩ := C92_others_partial hw
  have ht : stakeOf w' l = stakeOf w l := by
    unfold stakeOf
    rw [funext g5]
  have hr : rivals w' cfg l p = rivals w cfg l p := by
    unfold rivals
    congr 1
    refine List.map_congr_left fun q hq => ?_
    exact ((g6 q (by simpa using (List.mem_filter.1 hq).2)).2.2 cfg l).1
  have hsc : scoreAmong w' cfg l p = bestScore cfg (netStake w p) (stakeOf w l) := by
    unfold scoreAmong
    rw [g2, g5, ht]
    have n1 : position cfg.minNodes.toNat cfg.minNodes.toNat cfg.maxNodes.toNat = 0 := by
      have : cfg.minNodes.toNat < cfg.maxNodes.toNat := h1
      unfold position
      rw [if_neg (by omega), if_neg (by omega), Nat.sub_self, Nat.zero_mul, Nat.zero_div]
    have n2 : position cfg.maxApy.toNat cfg.minApy.toNat cfg.maxApy.toNat = 10000 := by
      have : cfg.minApy.toNat < cfg.maxApy.toNat := h2
      unfold position
      rw [if_neg (by omega), if_neg (by omega), Nat.mul_div_cancel_left _ (by omega)]
    simp only [delegationScore, bestScore, n1, n2]
  refine ⟨w', hw, ?_, hr, ?_⟩
  · unfold openTo
    rw [g2]
    rfl
  · unfold fairShare scoresOf
    rw [scores_split hl hp, hsc]
    have : ((l.filter (fun q => q ≠ p)).map (scoreAmong w' cfg l)).sum = rivals w cfg l p := hr
    rw [this]

/-- Provider 21 and its admin 41: the limit is 106 of 150 EGLD, which `C92_false` shows it to get,
with the rest of the rounding. -/
example : ∃ d, provider deposited 21 = some d ∧ d.admin = 41 ∧ 41 ≠ deposited.self ∧ candidates deposited (E 150) = [21, 22] ∧
    ScoringConfig.default.minNodes < ScoringConfig.default.maxNodes ∧ ScoringConfig.default.minApy < ScoringConfig.default.maxApy ∧
    bestScore .default (netStake deposited 21) (stakeOf deposited [21, 22]) * E 150 /
      (bestScore .default (netStake deposited 21) (stakeOf deposited [21, 22]) + rivals deposited .default [21, 22] 21) =
      106412542848351334208 :=
  ⟨{ admin := 41, totalStaked := E 1000, cap := E 1500, nrNodes := 10, apy := 800, eligible := true, staked := E 1, pStake := 0,
     pUnstake := 0, unstaked := 0 }, by decide +kernel, by decide, by decide +kernel, by decide +kernel, by decide, by decide, by decide +kernel⟩

/-- **C92**, the limit, in what is sent.  The full claim is that a provider cannot enlarge what it receives by what it declares;
see `C92_false`.  In every batch, a provider receives no more than that limit unless all addressed before it are filled up. -/
theorem C92_batch_partial {w w' : World} {c : Addr} {o : Option Nat} {b : List (Addr × Nat)} {cfg : ScoringConfig} (hr : Reachable w)
    (h : step w (.delegatePending c o) = .ok w') (hb : w'.flights = w.flights ++ delegations b)
    (hn : w.st.delegList.length < 2 ^ 32) (hcfg : w.st.scoring = some cfg) {A : Nat} (hA : A = batchAsked (pendingEgld w) o)
    {l : List Addr} (hl : l = candidates w A) (hT : 0 < scoresOf w cfg l) {b1 b2 : List (Addr × Nat)} {p : Addr} {a : Nat}
    (hp : b = b1 ++ (p, a) :: b2) :
    a ≤ bestScore cfg (netStake w p) (stakeOf w l) * A / (bestScore cfg (netStake w p) (stakeOf w l) + rivals w cfg l p) ∨
    ∀ q x, (q, x) ∈ b1 → room w q = some x := by
  obtain ⟨h1, _, h3⟩ := C45_fair_shares hr h hb hn hcfg hA hl hT
  by_cases hlt : withinRoom w p (fairShare w cfg l A p) < a
  · exact .inr (h3 b1 p a b2 hp hlt)
  have hnd : w.st.delegList.Nodup :=
    (show RegOk w.st.lsToken w.st.unstakeToken w.st.delegList w.st.undelegList w.st.data w.flights w.dead from
      reachable_regInv hr).nd1
  have hln : l.Nodup := hl ▸ (hnd.filter _).sublist (List.take_sublist _ _)
  have hpl : p ∈ l := by
    have : p ∈ b.map Prod.fst := by rw [hp]; simp
    rw [h1] at this
    exact (List.mem_filter.1 this).1
  have hw : withinRoom w p (fairShare w cfg l A p) ≤ fairShare w cfg l A p := by
    unfold withinRoom
    split <;> omega
  exact .inl (Nat.le_trans (Nat.le_trans (Nat.not_lt.1 hlt) hw) (C92_limit_partial hln hpl))

/-- Provider 22, addressed after provider 21, which has room for more: it receives 113.94 of the 150 EGLD, within its limit. -/
example : Reachable deposited ∧ works deposited (.delegatePending 1 none) = true ∧ deposited.st.scoring = some .default ∧
    (exec deposited (.delegatePending 1 none)).flights = deposited.flights ++
      delegations [(21, 36057326567026308461), (22, 113942673432973691539)] ∧
    candidates deposited (batchAsked (pendingEgld deposited) none) = [21, 22] ∧ 0 < scoresOf deposited .default [21, 22] ∧
    room deposited 21 ≠ some 36057326567026308461 :=
  ⟨deposited_reachable, by decide +kernel, by decide +kernel, by decide +kernel, by decide +kernel, by decide +kernel,
    by decide +kernel⟩

end LS
