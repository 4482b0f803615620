import Verif.Proofs.Records
import Verif.Proofs.Sums

/-! How one transaction changes the provider lists and which events it emits. -/

namespace LS
open Spec

/-- What one successful transaction does to the delegation list: it stays the same set, or one provider joins because its
first delegation succeeded. -/
inductive LStep (w : World) (op : Op) (dl : List Addr) : Prop
  | same (h : ∀ q, q ∈ dl ↔ q ∈ w.st.delegList) : LStep w op dl
  | joined (i g r : Nat) (p : Addr) (x : Nat) (u : Addr) (hop : op = .deliver i (.ok g r))
      (hf : w.flights[i]? = some (.whitelist p x u)) (ht : w.st.lsToken ≠ none) (hl : dl = setInsert w.st.delegList p) :
      LStep w op dl

theorem LStep.refl {w : World} {op : Op} : LStep w op w.st.delegList := .same fun _ => Iff.rfl

theorem lstep_deliver {w w' : World} {i : Nat} {o : Outcome} (hs : deliver w i o = .ok w') :
    LStep w (.deliver i o) w'.st.delegList := by
  obtain ⟨f, hf, hcb⟩ := deliver_ok hs
  rcases hcb with hcb | ⟨_, rfl⟩
  swap
  · exact .refl
  cases f with
  | delegate q a =>
    cases o with
    | ok g r => obtain ⟨_, d, hd, ha, rfl⟩ := addLiquidityCb_true_ok.1 hcb; exact .refl
    | err => obtain ⟨t, d, _, hd, ha, rfl⟩ := addLiquidityCb_false_ok.1 hcb; exact .refl
  | undelegate q a =>
    cases o with
    | ok g r => obtain ⟨t, d, _, hd, h1, ha, rfl⟩ := removeLiquidityCb_true_ok.1 hcb; exact .refl
    | err => obtain ⟨t, d, _, hd, ha, rfl⟩ := removeLiquidityCb_false_ok.1 hcb; exact .refl
  | withdraw q =>
    have h' : ∃ v, withdrawTokensCb (arrive w i (.withdraw q) o) q v = .ok w' := by
      cases o with
      | ok g r => exact ⟨g, hcb⟩
      | err => exact ⟨0, hcb⟩
    obtain ⟨v, h'⟩ := h'
    rcases withdrawTokensCb_ok.1 h' with ⟨_, rfl⟩ | ⟨_, t, d, _, _, _, _, rfl⟩ <;> exact .refl
  | claim ps =>
    cases o with
    | ok g r => rcases claimRewardsCb_ok.1 hcb with ⟨_, rfl⟩ | ⟨_, t, fee, _, _, _, rfl⟩ <;> exact .refl
    | err =>
      have : arrive w i (.claim ps) .err = w' := by simpa [runCallback, claimRewardsCb] using hcb
      subst this; exact .refl
  | whitelist q a u =>
    cases o with
    | ok g r =>
      obtain ⟨t, d, l, ht, hd, _, rfl⟩ := whitelistCb_true_ok.1 hcb
      have ht' : w.st.lsToken = some t := ht
      exact .joined i g r q a u rfl hf (by rw [ht']; simp) rfl
    | err => obtain ⟨_, m, _, rfl⟩ := whitelistCb_false_ok.1 hcb; exact .refl

theorem lstep {w w' : World} {op : Op} (hr : RegInv w) (hs : step w op = .ok w') : LStep w op w'.st.delegList := by
  have hr0 : RegOk w.st.lsToken w.st.unstakeToken w.st.delegList w.st.undelegList w.st.data w.flights w.dead := hr
  cases op with
  | delegate c v => obtain ⟨_, _, _, m, t, p, e, l, _, _, _, _, _, _, rfl⟩ := delegate_ok.1 hs; exact .refl
  | unDelegate c v ps => obtain ⟨r, E, L, N, F, A, n, ev, rfl⟩ := unDelegate_frame hs; exact .refl
  | withdraw c v ps =>
    obtain ⟨_, _, _, uid, t, m0, m, E, N, _, ht, _, _, _, _, _, _, _, _, _, rfl⟩ := withdraw_ok hr0.tok hs
    exact .refl
  | upgrade => simp only [step, Except.ok.injEq] at hs; subst hs; exact .refl
  | delegatePending c o =>
    obtain ⟨_, _, hm, t, amt, sels, left, E, D, _, _, _, hsub, htar, _, _, hD, _, _, rfl⟩ := delegatePending_ok hs
    exact .same fun q => mem_foldMove fun s hs => hsub.subset (List.mem_map.2 ⟨s, hs, rfl⟩)
  | unDelegatePending c o =>
    obtain ⟨_, _, hm, t, amt, sels, left, E, D, _, _, _, hsub, htar, _, hD, _, _, rfl⟩ := unDelegatePending_ok hs
    exact .refl
  | withdrawPending c q => obtain ⟨_, _, _, _, _, E, _, rfl⟩ := withdrawPending_ok hs; exact .refl
  | claimRewards c => obtain ⟨_, _, _, _, _, E, _, rfl⟩ := claimRewards_ok hs; exact .refl
  | claimFees c a => obtain ⟨_, _, _, _, ht, m, _, rfl⟩ := claimFees_ok hs; exact .refl
  | whitelist c v q ad ts cap n apy =>
    obtain ⟨_, hm, _, _, hn, hcap, hv, _, E, _, _, _, rfl⟩ := whitelist_ok hs
    exact .refl
  | changeAdmin c q a => obtain ⟨_, hm, d, hd, rfl⟩ := changeAdmin_ok.1 hs; exact .refl
  | changeParams c q ts cap n apy e => obtain ⟨_, hcap, d, hd, hm, rfl⟩ := changeParams_ok.1 hs; exact .refl
  | migrate c v o => obtain ⟨_, _, _, _, t, l, ht, _, rfl⟩ := migrate_ok.1 hs; exact .refl
  | migratePending c v => obtain ⟨_, _, _, _, t, m, ht, _, rfl⟩ := migratePending_ok.1 hs; exact .refl
  | addRewards c v => obtain ⟨_, t, m, ht, _, rfl⟩ := addRewards_ok.1 hs; exact .refl
  | setMigrationSc c a => obtain ⟨_, rfl, _, rfl⟩ := setMigrationSc_ok.1 hs; exact .refl
  | registerLsToken c v => obtain ⟨_, rfl, hn, _, m, _, rfl⟩ := registerLsToken_ok.1 hs; exact .refl
  | registerUnstakeToken c v => obtain ⟨_, rfl, hn, _, m, _, rfl⟩ := registerUnstakeToken_ok.1 hs; exact .refl
  | issued i o => obtain ⟨⟨k, u, v⟩, E, _, _, _, rfl⟩ := issued_ok.1 hs; cases k <;> exact .refl
  | owner c cmd =>
    obtain ⟨_, rfl, st, h1, rfl⟩ := ownerCmd_ok.1 hs
    obtain ⟨s, fr, acc, mr, ma, ms, ub, mg, rfl⟩ := applyOwnerCmd_ok h1
    exact .refl
  | setScoringConfig c cfg => obtain ⟨_, hm, _, rfl⟩ := setScoringConfig_ok.1 hs; exact .refl
  | viewLsValue l =>
    simp only [step, bind_ok, Prod.exists, Except.ok.injEq] at hs
    obtain ⟨e, w1, h1, rfl⟩ := hs
    obtain ⟨_, _, rfl⟩ := viewLsValue_ok.1 h1
    exact .refl
  | viewEgldPosition l =>
    simp only [step, bind_ok, Prod.exists, Except.ok.injEq] at hs
    obtain ⟨e, w1, h1, rfl⟩ := hs
    obtain ⟨_, _, rfl⟩ := viewEgldPosition_ok.1 h1
    exact .refl
  | deliver i o => exact lstep_deliver hs
  | transferLs s d v => obtain ⟨_, _, m, _, rfl⟩ := transferLs_ok.1 hs; exact .refl
  | transferNft s d n v => obtain ⟨_, _, m, _, rfl⟩ := transferNft_ok.1 hs; exact .refl
  | fund a v => obtain ⟨_, rfl⟩ := fund_ok.1 hs; exact .refl
  | advance e => obtain ⟨h1, rfl⟩ := advance_ok.1 hs; exact .refl
  | changeOwner c d => obtain ⟨_, _, rfl⟩ := changeOwner_ok.1 hs; exact .refl
  | transferEgld s d v => obtain ⟨_, _, m, hm, rfl⟩ := transferEgld_ok.1 hs; exact .refl
  | giveEgld s v => obtain ⟨_, _, m, hm, rfl⟩ := giveEgld_ok.1 hs; exact .refl
  | giveLs s v => obtain ⟨_, _, m, hm, rfl⟩ := giveLs_ok.1 hs; exact .refl
  | giveUnstake s n v => obtain ⟨_, _, m, hm, rfl⟩ := giveUnstake_ok.1 hs; exact .refl
  | burnLs a v => obtain ⟨_, m, hm, rfl⟩ := holderBurnLs_ok.1 hs; exact .refl
  | burnUnstake a n v => obtain ⟨_, m, hm, rfl⟩ := holderBurnNft_ok.1 hs; exact .refl
  | starve i o => obtain ⟨f, hf, rfl⟩ := starve_ok hs; exact .refl

/-- Without an LS token there are no whitelisted providers. -/
theorem reachable_noList {w : World} (h : Reachable w) : w.st.lsToken = none → w.st.delegList = [] := by
  induction h with
  | init h =>
    obtain ⟨self, owner, contracts, epoch, funds, acc, fees, rpe, mr, ms, ma, ub, _, _, rfl⟩ := isInit_eq h
    intro; rfl
  | @step w w' op hr hs ih =>
    intro ht
    have hreg := reachable_regInv hr
    have ht0 : w.st.lsToken = none := by
      rcases (frame_step op hreg (reachable_issInv hr) hs).lsT with h | ⟨_, _, _, _, _, _, h, _⟩
      · rw [← h]; exact ht
      · exact h
    cases lstep hreg hs with
    | same h =>
      rw [ih ht0] at h
      exact List.eq_nil_iff_forall_not_mem.2 fun q hq => by simpa using (h q).1 hq
    | joined i g r p x u hop hf ht1 hl => exact absurd ht0 ht1

theorem lsToken_of_provider {w : World} (h : Reachable w) {p : Addr} (hp : p ∈ w.st.delegList) : ∃ t, w.st.lsToken = some t := by
  refine Option.ne_none_iff_exists'.1 fun hn => ?_
  rw [reachable_noList h hn] at hp
  simp at hp

/-! ### Events -/

/-- The events of one successful transaction. -/
def EStep (w : World) (op : Op) (w' : World) : Prop :=
  ∃ evs, w'.events = w.events ++ evs ∧ (∀ e ∈ evs, Reports w' e) ∧
    (w'.st.r = w.st.r ∨ (∃ c a, op = .claimFees c a) ∨ ∃ e ∈ evs, IsLiquidity e)

theorem EStep.none {w w' : World} {op : Op} (h1 : w'.events = w.events) (h2 : w'.st.r = w.st.r) : EStep w op w' :=
  ⟨[], by simp [h1], by simp, .inl h2⟩

theorem EStep.emit {w w0 : World} {op : Op} {c : Cache} {k : EventKind} {a : Addr} (h1 : w0.events = w.events)
    (h2 : w0.st.lsToken = some c.lsTokenId) : EStep w op (commit (emit w0 c k a) c) := by
  refine ⟨[.change k a c.lsTokenId c.r w0.epoch], ?_, ?_, .inr (.inr ⟨_, List.mem_singleton_self _, trivial⟩)⟩
  · show w0.events ++ _ = _
    rw [h1]
  · intro e he
    rw [List.mem_singleton] at he
    subst he
    exact ⟨h2, rfl, rfl⟩

theorem estep_deliver {w w' : World} {i : Nat} {o : Outcome} (hs : deliver w i o = .ok w') : EStep w (.deliver i o) w' := by
  obtain ⟨f, hf, hcb⟩ := deliver_ok hs
  rcases hcb with hcb | ⟨_, rfl⟩
  swap
  · exact .none rfl rfl
  cases f with
  | delegate q a =>
    cases o with
    | ok g r => obtain ⟨_, d, hd, ha, rfl⟩ := addLiquidityCb_true_ok.1 hcb; exact .none rfl rfl
    | err => obtain ⟨t, d, ht, hd, ha, rfl⟩ := addLiquidityCb_false_ok.1 hcb; exact .emit rfl ht
  | undelegate q a =>
    cases o with
    | ok g r => obtain ⟨t, d, ht, hd, h1, ha, rfl⟩ := removeLiquidityCb_true_ok.1 hcb; exact .emit rfl ht
    | err => obtain ⟨t, d, ht, hd, ha, rfl⟩ := removeLiquidityCb_false_ok.1 hcb; exact .emit rfl ht
  | withdraw q =>
    have h' : ∃ v, withdrawTokensCb (arrive w i (.withdraw q) o) q v = .ok w' := by
      cases o with
      | ok g r => exact ⟨g, hcb⟩
      | err => exact ⟨0, hcb⟩
    obtain ⟨v, h'⟩ := h'
    rcases withdrawTokensCb_ok.1 h' with ⟨_, rfl⟩ | ⟨_, t, d, ht, _, _, _, rfl⟩
    · exact .none rfl rfl
    · exact .emit rfl ht
  | claim ps =>
    cases o with
    | ok g r =>
      rcases claimRewardsCb_ok.1 hcb with ⟨_, rfl⟩ | ⟨_, t, fee, ht, _, _, rfl⟩
      · exact .none rfl rfl
      · refine ⟨[_, _], (List.append_assoc _ [_] [_] :), ?_, .inr (.inr ⟨_, List.mem_cons_of_mem _ (List.mem_singleton_self _), trivial⟩)⟩
        intro e he
        simp only [List.mem_cons, List.not_mem_nil, or_false] at he
        rcases he with rfl | rfl
        · exact rfl
        · exact ⟨ht, rfl, rfl⟩
    | err =>
      have : arrive w i (.claim ps) .err = w' := by simpa [runCallback, claimRewardsCb] using hcb
      subst this; exact .none rfl rfl
  | whitelist q a u =>
    cases o with
    | ok g r => obtain ⟨t, d, l, ht, hd, _, rfl⟩ := whitelistCb_true_ok.1 hcb; exact .emit rfl ht
    | err => obtain ⟨_, m, _, rfl⟩ := whitelistCb_false_ok.1 hcb; exact .none rfl rfl

theorem estep {w w' : World} {op : Op} (hr : RegInv w) (hs : step w op = .ok w') : EStep w op w' := by
  have hr0 : RegOk w.st.lsToken w.st.unstakeToken w.st.delegList w.st.undelegList w.st.data w.flights w.dead := hr
  cases op with
  | delegate c v => obtain ⟨_, _, _, m, t, p, e, l, _, ht, _, _, _, _, rfl⟩ := delegate_ok.1 hs; exact .emit rfl ht
  | unDelegate c v ps =>
    obtain ⟨_, _, _, amount, t, m0, m1, m2, e, i, u, w1, w2, _, ht, _, _, _, _, _, _, _, _, _, hi, hu, rfl⟩ := unDelegate_ok hs
    have hw1 : w1.events = w.events ∧ w1.st = w.st := by
      rcases hi with ⟨_, rfl⟩ | ⟨_, m, _, rfl⟩ <;> exact ⟨rfl, rfl⟩
    have hw2 : w2.events = w.events ∧ w2.st.lsToken = w.st.lsToken := by
      rcases hu with ⟨_, rfl⟩ | ⟨_, _, _, w3, n, m, hM, _, rfl⟩
      · exact ⟨hw1.1, by rw [hw1.2]⟩
      · cases hM <;> exact ⟨hw1.1, by show w1.st.lsToken = _; rw [hw1.2]⟩
    exact .emit hw2.1 (hw2.2.trans ht)
  | withdraw c v ps =>
    obtain ⟨_, _, _, uid, t, m0, m, E, N, _, ht, _, _, _, _, _, _, _, _, _, rfl⟩ := withdraw_ok hr0.tok hs
    exact .emit rfl ht
  | upgrade => simp only [step, Except.ok.injEq] at hs; subst hs; exact .none rfl rfl
  | delegatePending c o =>
    obtain ⟨_, _, hm, t, amt, sels, left, E, D, ht, _, _, hsub, htar, _, _, hD, _, _, rfl⟩ := delegatePending_ok hs
    exact .emit rfl ht
  | unDelegatePending c o =>
    obtain ⟨_, _, hm, t, amt, sels, left, E, D, ht, _, _, hsub, htar, _, hD, _, _, rfl⟩ := unDelegatePending_ok hs
    exact .emit rfl ht
  | withdrawPending c q => obtain ⟨_, _, _, _, _, E, _, rfl⟩ := withdrawPending_ok hs; exact .none rfl rfl
  | claimRewards c => obtain ⟨_, _, _, _, _, E, _, rfl⟩ := claimRewards_ok hs; exact .none rfl rfl
  | claimFees c a => obtain ⟨_, _, _, _, ht, m, _, rfl⟩ := claimFees_ok hs; exact ⟨[], by simp, by simp, .inr (.inl ⟨c, a, rfl⟩)⟩
  | whitelist c v q ad ts cap n apy =>
    obtain ⟨_, hm, _, _, hn, hcap, hv, _, E, _, _, _, rfl⟩ := whitelist_ok hs
    exact .none rfl rfl
  | changeAdmin c q a => obtain ⟨_, hm, d, hd, rfl⟩ := changeAdmin_ok.1 hs; exact .none rfl rfl
  | changeParams c q ts cap n apy e => obtain ⟨_, hcap, d, hd, hm, rfl⟩ := changeParams_ok.1 hs; exact .none rfl rfl
  | migrate c v o => obtain ⟨_, _, _, _, t, l, ht, _, rfl⟩ := migrate_ok.1 hs; exact EStep.emit (op := _) rfl ht
  | migratePending c v => obtain ⟨_, _, _, _, t, m, ht, _, rfl⟩ := migratePending_ok.1 hs; exact EStep.emit (op := _) rfl ht
  | addRewards c v => obtain ⟨_, t, m, ht, _, rfl⟩ := addRewards_ok.1 hs; exact .emit rfl ht
  | setMigrationSc c a => obtain ⟨_, rfl, _, rfl⟩ := setMigrationSc_ok.1 hs; exact .none rfl rfl
  | registerLsToken c v => obtain ⟨_, rfl, hn, _, m, _, rfl⟩ := registerLsToken_ok.1 hs; exact .none rfl rfl
  | registerUnstakeToken c v => obtain ⟨_, rfl, hn, _, m, _, rfl⟩ := registerUnstakeToken_ok.1 hs; exact .none rfl rfl
  | issued i o => obtain ⟨⟨k, u, v⟩, E, _, _, _, rfl⟩ := issued_ok.1 hs; cases k <;> exact .none rfl rfl
  | owner c cmd =>
    obtain ⟨_, rfl, st, h1, rfl⟩ := ownerCmd_ok.1 hs
    obtain ⟨s, fr, acc, mr, ma, ms, ub, mg, rfl⟩ := applyOwnerCmd_ok h1
    exact .none rfl rfl
  | setScoringConfig c cfg => obtain ⟨_, hm, _, rfl⟩ := setScoringConfig_ok.1 hs; exact .none rfl rfl
  | viewLsValue l =>
    simp only [step, bind_ok, Prod.exists, Except.ok.injEq] at hs
    obtain ⟨e, w1, h1, rfl⟩ := hs
    obtain ⟨_, _, rfl⟩ := viewLsValue_ok.1 h1
    exact .none rfl rfl
  | viewEgldPosition l =>
    simp only [step, bind_ok, Prod.exists, Except.ok.injEq] at hs
    obtain ⟨e, w1, h1, rfl⟩ := hs
    obtain ⟨_, _, rfl⟩ := viewEgldPosition_ok.1 h1
    exact .none rfl rfl
  | deliver i o => exact estep_deliver hs
  | transferLs s d v => obtain ⟨_, _, m, _, rfl⟩ := transferLs_ok.1 hs; exact .none rfl rfl
  | transferNft s d n v => obtain ⟨_, _, m, _, rfl⟩ := transferNft_ok.1 hs; exact .none rfl rfl
  | fund a v => obtain ⟨_, rfl⟩ := fund_ok.1 hs; exact .none rfl rfl
  | advance e => obtain ⟨h1, rfl⟩ := advance_ok.1 hs; exact .none rfl rfl
  | changeOwner c d => obtain ⟨_, _, rfl⟩ := changeOwner_ok.1 hs; exact .none rfl rfl
  | transferEgld s d v => obtain ⟨_, _, m, hm, rfl⟩ := transferEgld_ok.1 hs; exact .none rfl rfl
  | giveEgld s v => obtain ⟨_, _, m, hm, rfl⟩ := giveEgld_ok.1 hs; exact .none rfl rfl
  | giveLs s v => obtain ⟨_, _, m, hm, rfl⟩ := giveLs_ok.1 hs; exact .none rfl rfl
  | giveUnstake s n v => obtain ⟨_, _, m, hm, rfl⟩ := giveUnstake_ok.1 hs; exact .none rfl rfl
  | burnLs a v => obtain ⟨_, m, hm, rfl⟩ := holderBurnLs_ok.1 hs; exact .none rfl rfl
  | burnUnstake a n v => obtain ⟨_, m, hm, rfl⟩ := holderBurnNft_ok.1 hs; exact .none rfl rfl
  | starve i o => obtain ⟨f, hf, rfl⟩ := starve_ok hs; exact .none rfl rfl

end LS
