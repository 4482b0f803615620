import Verif.Proofs.Registry
import Verif.Spec.Observe

/-! The two token issues: at most one of each kind is in flight, and only while the token does not exist. -/

namespace LS
open Spec

/-- Number of issues of one kind in flight. -/
def issuesOf (k : TokenKind) (l : List Issue) : Nat := (l.filter (fun x => decide (x.kind = k))).length

theorem issuesOf_append (k : TokenKind) (l : List Issue) (x : Issue) :
    issuesOf k (l ++ [x]) = issuesOf k l + (if x.kind = k then 1 else 0) := by
  unfold issuesOf
  rw [List.filter_append, List.length_append]
  by_cases h : x.kind = k <;> simp [h]

theorem issuesOf_eraseIdx (k : TokenKind) {l : List Issue} {i : Nat} {x : Issue} (h : l[i]? = some x) :
    issuesOf k (l.eraseIdx i) + (if x.kind = k then 1 else 0) = issuesOf k l := by
  induction l generalizing i with
  | nil => simp at h
  | cons y ys ih =>
    cases i with
    | zero =>
      simp only [List.getElem?_cons_zero, Option.some.injEq] at h
      subst h
      unfold issuesOf
      by_cases hk : y.kind = k <;> simp [hk]
    | succ i =>
      simp only [List.getElem?_cons_succ] at h
      have := ih h
      unfold issuesOf at this ⊢
      by_cases hk : y.kind = k <;> simp [hk] <;> omega

structure IssOk (issues : List Issue) (lsT : Option TokenId) (lsP : Bool) (usT : Option TokenId) (usP : Bool)
    (slf : Addr) : Prop where
  ls : issuesOf .ls issues = if lsP then 1 else 0
  us : issuesOf .unstake issues = if usP then 1 else 0
  lsn : lsP = true → lsT = none
  usn : usP = true → usT = none
  own : ∀ x ∈ issues, x.caller ≠ slf

def IssInv (w : World) : Prop :=
  IssOk w.issues w.st.lsToken w.st.lsPending w.st.unstakeToken w.st.unstakePending w.self

/-- The issue that is answered is the one the contract waits for. -/
theorem IssInv.waiting {w : World} (h : IssInv w) {i : Nat} {x : Issue} (hx : w.issues[i]? = some x) :
    x.caller ≠ w.self ∧
    match x.kind with
    | .ls => w.st.lsPending = true ∧ w.st.lsToken = none
    | .unstake => w.st.unstakePending = true ∧ w.st.unstakeToken = none := by
  have h0 : IssOk w.issues w.st.lsToken w.st.lsPending w.st.unstakeToken w.st.unstakePending w.self := h
  refine ⟨h0.own x (List.mem_of_getElem? hx), ?_⟩
  obtain ⟨k, u, v⟩ := x
  have hl := issuesOf_eraseIdx k hx
  cases k with
  | ls =>
    have hp : w.st.lsPending = true := by
      by_contra hn
      have := h0.ls
      simp only [hn, if_false, Bool.false_eq_true] at this
      simp only [this, if_true] at hl
      omega
    exact ⟨hp, h0.lsn hp⟩
  | unstake =>
    have hp : w.st.unstakePending = true := by
      by_contra hn
      have := h0.us
      simp only [hn, if_false, Bool.false_eq_true] at this
      simp only [this, if_true] at hl
      omega
    exact ⟨hp, h0.usn hp⟩

theorem issInv_deliver {w w' : World} {i : Nat} {o : Outcome} (h : IssInv w) (hs : deliver w i o = .ok w') : IssInv w' := by
  have h0 : IssOk w.issues w.st.lsToken w.st.lsPending w.st.unstakeToken w.st.unstakePending w.self := h
  obtain ⟨f, hf, hcb⟩ := deliver_ok hs
  rcases hcb with hcb | ⟨_, rfl⟩
  swap
  · exact h0
  cases f with
  | delegate p a =>
    cases o with
    | ok g r => obtain ⟨_, d, _, _, rfl⟩ := addLiquidityCb_true_ok.1 hcb; exact h0
    | err => obtain ⟨t, d, _, _, _, rfl⟩ := addLiquidityCb_false_ok.1 hcb; exact h0
  | undelegate p a =>
    cases o with
    | ok g r => obtain ⟨t, d, _, _, _, _, rfl⟩ := removeLiquidityCb_true_ok.1 hcb; exact h0
    | err => obtain ⟨t, d, _, _, _, rfl⟩ := removeLiquidityCb_false_ok.1 hcb; exact h0
  | withdraw p =>
    have h' : ∃ v, withdrawTokensCb (arrive w i (.withdraw p) o) p v = .ok w' := by
      cases o with
      | ok g r => exact ⟨g, hcb⟩
      | err => exact ⟨0, hcb⟩
    obtain ⟨v, h'⟩ := h'
    rcases withdrawTokensCb_ok.1 h' with ⟨_, rfl⟩ | ⟨_, t, d, _, _, _, _, rfl⟩
    · exact h0
    · exact h0
  | claim ps =>
    cases o with
    | ok g r =>
      rcases claimRewardsCb_ok.1 hcb with ⟨_, rfl⟩ | ⟨_, t, fee, _, _, _, rfl⟩
      · exact h0
      · exact h0
    | err =>
      simp only [runCallback, claimRewardsCb, Except.ok.injEq] at hcb
      subst hcb; exact h0
  | whitelist p a u =>
    cases o with
    | ok g r => obtain ⟨t, d, l, _, _, _, rfl⟩ := whitelistCb_true_ok.1 hcb; exact h0
    | err => obtain ⟨_, m, _, rfl⟩ := whitelistCb_false_ok.1 hcb; exact h0

theorem issInv_step {w w' : World} (op : Op) (hr : RegInv w) (h : IssInv w) (hs : step w op = .ok w') : IssInv w' := by
  have hr0 : RegOk w.st.lsToken w.st.unstakeToken w.st.delegList w.st.undelegList w.st.data w.flights w.dead := hr
  have h0 : IssOk w.issues w.st.lsToken w.st.lsPending w.st.unstakeToken w.st.unstakePending w.self := h
  cases op with
  | delegate c v => obtain ⟨_, _, _, m, t, p, e, l, _, _, _, _, _, _, rfl⟩ := delegate_ok.1 hs; exact h0
  | unDelegate c v ps => obtain ⟨r, E, L, N, A, ln, un, ev, rfl⟩ := unDelegate_frame hs; exact h0
  | withdraw c v ps =>
    obtain ⟨_, _, _, uid, t, m0, m, E, N, _, _, _, _, _, _, _, _, _, _, _, rfl⟩ := withdraw_ok hr0.tok hs; exact h0
  | upgrade => simp only [step, Except.ok.injEq] at hs; subst hs; exact h
  | delegatePending c a =>
    obtain ⟨_, _, _, t, amt, sels, left, E, D, _, _, _, _, _, _, _, _, _, _, rfl⟩ := delegatePending_ok hs; exact h0
  | unDelegatePending c a =>
    obtain ⟨_, _, _, t, amt, sels, left, E, D, _, _, _, _, _, _, _, _, _, rfl⟩ := unDelegatePending_ok hs; exact h0
  | withdrawPending c p => obtain ⟨_, _, _, _, _, E, _, rfl⟩ := withdrawPending_ok hs; exact h0
  | claimRewards c => obtain ⟨_, _, _, _, _, E, _, rfl⟩ := claimRewards_ok hs; exact h0
  | claimFees c a => obtain ⟨_, _, _, _, _, m, _, rfl⟩ := claimFees_ok hs; exact h0
  | whitelist c v p ad ts cap n apy =>
    obtain ⟨_, _, _, _, _, _, _, _, E, _, _, _, rfl⟩ := whitelist_ok hs; exact h0
  | changeAdmin c p a => obtain ⟨_, _, d, _, rfl⟩ := changeAdmin_ok.1 hs; exact h0
  | changeParams c p ts cap n apy e => obtain ⟨_, _, d, _, _, rfl⟩ := changeParams_ok.1 hs; exact h0
  | migrate c v o => obtain ⟨_, _, _, _, t, l, _, _, rfl⟩ := migrate_ok.1 hs; exact h0
  | migratePending c v => obtain ⟨_, _, _, _, t, m, _, _, rfl⟩ := migratePending_ok.1 hs; exact h0
  | addRewards c v => obtain ⟨_, t, m, _, _, rfl⟩ := addRewards_ok.1 hs; exact h0
  | setMigrationSc c a => obtain ⟨_, _, _, rfl⟩ := setMigrationSc_ok.1 hs; exact h0
  | registerLsToken c v =>
    obtain ⟨hc, ho, hn, hp, m, _, rfl⟩ := registerLsToken_ok.1 hs
    refine ⟨?_, ?_, fun _ => hn, h0.usn, ?_⟩
    · show issuesOf .ls (w.issues ++ [⟨.ls, c, v⟩]) = 1
      rw [issuesOf_append, h0.ls, hp]; rfl
    · show issuesOf .unstake (w.issues ++ [⟨.ls, c, v⟩]) = _
      rw [issuesOf_append, h0.us]; simp
    · intro x hx
      rcases List.mem_append.1 hx with hx | hx
      · exact h0.own x hx
      · rw [List.mem_singleton.1 hx]; exact hc
  | registerUnstakeToken c v =>
    obtain ⟨hc, ho, hn, hp, m, _, rfl⟩ := registerUnstakeToken_ok.1 hs
    refine ⟨?_, ?_, h0.lsn, fun _ => hn, ?_⟩
    · show issuesOf .ls (w.issues ++ [⟨.unstake, c, v⟩]) = _
      rw [issuesOf_append, h0.ls]; simp
    · show issuesOf .unstake (w.issues ++ [⟨.unstake, c, v⟩]) = 1
      rw [issuesOf_append, h0.us, hp]; rfl
    · intro x hx
      rcases List.mem_append.1 hx with hx | hx
      · exact h0.own x hx
      · rw [List.mem_singleton.1 hx]; exact hc
  | issued i o =>
    obtain ⟨x, E, hx, _, _, rfl⟩ := issued_ok.1 hs
    obtain ⟨_, hw⟩ := h.waiting hx
    have e1 := issuesOf_eraseIdx .ls hx
    have e2 := issuesOf_eraseIdx .unstake hx
    rw [h0.ls] at e1
    rw [h0.us] at e2
    have hown : ∀ y ∈ w.issues.eraseIdx i, y.caller ≠ w.self :=
      fun y hy => h0.own y (List.mem_of_mem_eraseIdx hy)
    obtain ⟨k, u, v⟩ := x
    cases k with
    | ls =>
      simp only [hw.1, if_true, reduceCtorEq, if_false] at e1 e2
      have e3 : issuesOf .ls (w.issues.eraseIdx i) = 0 := by omega
      exact ⟨e3, e2, fun h => Bool.noConfusion h, h0.usn, hown⟩
    | unstake =>
      simp only [hw.1, if_true, reduceCtorEq, if_false] at e1 e2
      have e3 : issuesOf .unstake (w.issues.eraseIdx i) = 0 := by omega
      exact ⟨e1, e3, h0.lsn, fun h => Bool.noConfusion h, hown⟩
  | owner c cmd =>
    obtain ⟨_, _, st, h1, rfl⟩ := ownerCmd_ok.1 hs
    obtain ⟨s, fr, acc, mr, ma, ms, ub, mg, rfl⟩ := applyOwnerCmd_ok h1
    exact h0
  | setScoringConfig c cfg => obtain ⟨_, _, _, rfl⟩ := setScoringConfig_ok.1 hs; exact h0
  | viewLsValue l =>
    simp only [step, bind_ok, Prod.exists, Except.ok.injEq] at hs
    obtain ⟨e, w1, h1, rfl⟩ := hs
    obtain ⟨_, _, rfl⟩ := viewLsValue_ok.1 h1
    exact h
  | viewEgldPosition l =>
    simp only [step, bind_ok, Prod.exists, Except.ok.injEq] at hs
    obtain ⟨e, w1, h1, rfl⟩ := hs
    obtain ⟨_, _, rfl⟩ := viewEgldPosition_ok.1 h1
    exact h
  | deliver i o => exact issInv_deliver h hs
  | transferLs s d v => obtain ⟨_, _, m, _, rfl⟩ := transferLs_ok.1 hs; exact h0
  | transferNft s d n v => obtain ⟨_, _, m, _, rfl⟩ := transferNft_ok.1 hs; exact h0
  | fund a v => obtain ⟨_, rfl⟩ := fund_ok.1 hs; exact h0
  | advance e => obtain ⟨_, rfl⟩ := advance_ok.1 hs; exact h0
  | changeOwner c d => obtain ⟨_, _, rfl⟩ := changeOwner_ok.1 hs; exact h0
  | transferEgld s d v => obtain ⟨_, _, m, hm, rfl⟩ := transferEgld_ok.1 hs; exact h0
  | giveEgld s v => obtain ⟨_, _, m, hm, rfl⟩ := giveEgld_ok.1 hs; exact h0
  | giveLs s v => obtain ⟨_, _, m, hm, rfl⟩ := giveLs_ok.1 hs; exact h0
  | giveUnstake s n v => obtain ⟨_, _, m, hm, rfl⟩ := giveUnstake_ok.1 hs; exact h0
  | burnLs a v => obtain ⟨_, m, hm, rfl⟩ := holderBurnLs_ok.1 hs; exact h0
  | burnUnstake a n v => obtain ⟨_, m, hm, rfl⟩ := holderBurnNft_ok.1 hs; exact h0
  | starve i o => obtain ⟨f, hf, rfl⟩ := starve_ok hs; exact h0

theorem issInv_init {w : World} (h : IsInit w) : IssInv w := by
  obtain ⟨self, owner, contracts, epoch, funds, acc, fees, rpe, mr, ms, ma, ub, _, _, rfl⟩ := isInit_eq h
  exact ⟨rfl, rfl, fun h => Bool.noConfusion h, fun h => Bool.noConfusion h, by simp⟩

/-- The issue invariant holds in every reachable world. -/
theorem reachable_issInv {w : World} (h : Reachable w) : IssInv w := by
  induction h with
  | init h => exact issInv_init h
  | step op hr hs ih => exact issInv_step op (reachable_regInv hr) ih hs


/-- Answers of providers leave the issues. -/
theorem issues_deliver {w w' : World} {i : Nat} {o : Outcome} (hs : deliver w i o = .ok w') : w'.issues = w.issues := by
  obtain ⟨f, hf, hcb⟩ := deliver_ok hs
  rcases hcb with hcb | ⟨_, rfl⟩
  swap
  · rfl
  cases f with
  | delegate p a =>
    cases o with
    | ok g r => obtain ⟨_, d, _, _, rfl⟩ := addLiquidityCb_true_ok.1 hcb; rfl
    | err => obtain ⟨t, d, _, _, _, rfl⟩ := addLiquidityCb_false_ok.1 hcb; rfl
  | undelegate p a =>
    cases o with
    | ok g r => obtain ⟨t, d, _, _, _, _, rfl⟩ := removeLiquidityCb_true_ok.1 hcb; rfl
    | err => obtain ⟨t, d, _, _, _, rfl⟩ := removeLiquidityCb_false_ok.1 hcb; rfl
  | withdraw p =>
    have h' : ∃ v, withdrawTokensCb (arrive w i (.withdraw p) o) p v = .ok w' := by
      cases o with
      | ok g r => exact ⟨g, hcb⟩
      | err => exact ⟨0, hcb⟩
    obtain ⟨v, h'⟩ := h'
    rcases withdrawTokensCb_ok.1 h' with ⟨_, rfl⟩ | ⟨_, t, d, _, _, _, _, rfl⟩
    · rfl
    · rfl
  | claim ps =>
    cases o with
    | ok g r =>
      rcases claimRewardsCb_ok.1 hcb with ⟨_, rfl⟩ | ⟨_, t, fee, _, _, _, rfl⟩
      · rfl
      · rfl
    | err =>
      simp only [runCallback, claimRewardsCb, Except.ok.injEq] at hcb
      subst hcb; rfl
  | whitelist p a u =>
    cases o with
    | ok g r => obtain ⟨t, d, l, _, _, _, rfl⟩ := whitelistCb_true_ok.1 hcb; rfl
    | err => obtain ⟨_, m, _, rfl⟩ := whitelistCb_false_ok.1 hcb; rfl

/-- An issue is either old or started by this transaction, which the owner sends. -/
theorem issues_step {w w' : World} (op : Op) (hr : RegInv w) (hs : step w op = .ok w') {x : Issue} (hx : x ∈ w'.issues) :
    x ∈ w.issues ∨ (x.caller = w.owner ∧ op = startOf x) := by
  have hr0 : RegOk w.st.lsToken w.st.unstakeToken w.st.delegList w.st.undelegList w.st.data w.flights w.dead := hr
  cases op with
  | delegate c v => obtain ⟨_, _, _, m, t, p, e, l, _, _, _, _, _, _, rfl⟩ := delegate_ok.1 hs; exact .inl hx
  | unDelegate c v ps => obtain ⟨r, E, L, N, A, ln, un, ev, rfl⟩ := unDelegate_frame hs; exact .inl hx
  | withdraw c v ps =>
    obtain ⟨_, _, _, uid, t, m0, m, E, N, _, _, _, _, _, _, _, _, _, _, _, rfl⟩ := withdraw_ok hr0.tok hs; exact .inl hx
  | upgrade => simp only [step, Except.ok.injEq] at hs; subst hs; exact .inl hx
  | delegatePending c a =>
    obtain ⟨_, _, _, t, amt, sels, left, E, D, _, _, _, _, _, _, _, _, _, _, rfl⟩ := delegatePending_ok hs; exact .inl hx
  | unDelegatePending c a =>
    obtain ⟨_, _, _, t, amt, sels, left, E, D, _, _, _, _, _, _, _, _, _, rfl⟩ := unDelegatePending_ok hs; exact .inl hx
  | withdrawPending c p => obtain ⟨_, _, _, _, _, E, _, rfl⟩ := withdrawPending_ok hs; exact .inl hx
  | claimRewards c => obtain ⟨_, _, _, _, _, E, _, rfl⟩ := claimRewards_ok hs; exact .inl hx
  | claimFees c a => obtain ⟨_, _, _, _, _, m, _, rfl⟩ := claimFees_ok hs; exact .inl hx
  | whitelist c v p ad ts cap n apy =>
    obtain ⟨_, _, _, _, _, _, _, _, E, _, _, _, rfl⟩ := whitelist_ok hs; exact .inl hx
  | changeAdmin c p a => obtain ⟨_, _, d, _, rfl⟩ := changeAdmin_ok.1 hs; exact .inl hx
  | changeParams c p ts cap n apy e => obtain ⟨_, _, d, _, _, rfl⟩ := changeParams_ok.1 hs; exact .inl hx
  | migrate c v o => obtain ⟨_, _, _, _, t, l, _, _, rfl⟩ := migrate_ok.1 hs; exact .inl hx
  | migratePending c v => obtain ⟨_, _, _, _, t, m, _, _, rfl⟩ := migratePending_ok.1 hs; exact .inl hx
  | addRewards c v => obtain ⟨_, t, m, _, _, rfl⟩ := addRewards_ok.1 hs; exact .inl hx
  | setMigrationSc c a => obtain ⟨_, _, _, rfl⟩ := setMigrationSc_ok.1 hs; exact .inl hx
  | registerLsToken c v =>
    obtain ⟨_, ho, _, _, m, _, rfl⟩ := registerLsToken_ok.1 hs
    rcases List.mem_append.1 hx with hx | hx
    · exact .inl hx
    · rw [List.mem_singleton.1 hx]; exact .inr ⟨ho, rfl⟩
  | registerUnstakeToken c v =>
    obtain ⟨_, ho, _, _, m, _, rfl⟩ := registerUnstakeToken_ok.1 hs
    rcases List.mem_append.1 hx with hx | hx
    · exact .inl hx
    · rw [List.mem_singleton.1 hx]; exact .inr ⟨ho, rfl⟩
  | issued i o =>
    obtain ⟨y, E, _, _, _, rfl⟩ := issued_ok.1 hs
    exact .inl (List.mem_of_mem_eraseIdx hx)
  | owner c cmd =>
    obtain ⟨_, _, st, h1, rfl⟩ := ownerCmd_ok.1 hs
    obtain ⟨s, fr, acc, mr, ma, ms, ub, mg, rfl⟩ := applyOwnerCmd_ok h1
    exact .inl hx
  | setScoringConfig c cfg => obtain ⟨_, _, _, rfl⟩ := setScoringConfig_ok.1 hs; exact .inl hx
  | viewLsValue l =>
    simp only [step, bind_ok, Prod.exists, Except.ok.injEq] at hs
    obtain ⟨e, w1, h1, rfl⟩ := hs
    obtain ⟨_, _, rfl⟩ := viewLsValue_ok.1 h1
    exact .inl hx
  | viewEgldPosition l =>
    simp only [step, bind_ok, Prod.exists, Except.ok.injEq] at hs
    obtain ⟨e, w1, h1, rfl⟩ := hs
    obtain ⟨_, _, rfl⟩ := viewEgldPosition_ok.1 h1
    exact .inl hx
  | deliver i o => rw [issues_deliver hs] at hx; exact .inl hx
  | transferLs s d v => obtain ⟨_, _, m, _, rfl⟩ := transferLs_ok.1 hs; exact .inl hx
  | transferNft s d n v => obtain ⟨_, _, m, _, rfl⟩ := transferNft_ok.1 hs; exact .inl hx
  | fund a v => obtain ⟨_, rfl⟩ := fund_ok.1 hs; exact .inl hx
  | advance e => obtain ⟨_, rfl⟩ := advance_ok.1 hs; exact .inl hx
  | changeOwner c d => obtain ⟨_, _, rfl⟩ := changeOwner_ok.1 hs; exact .inl hx
  | transferEgld s d v => obtain ⟨_, _, m, hm, rfl⟩ := transferEgld_ok.1 hs; exact .inl hx
  | giveEgld s v => obtain ⟨_, _, m, hm, rfl⟩ := giveEgld_ok.1 hs; exact .inl hx
  | giveLs s v => obtain ⟨_, _, m, hm, rfl⟩ := giveLs_ok.1 hs; exact .inl hx
  | giveUnstake s n v => obtain ⟨_, _, m, hm, rfl⟩ := giveUnstake_ok.1 hs; exact .inl hx
  | burnLs a v => obtain ⟨_, m, hm, rfl⟩ := holderBurnLs_ok.1 hs; exact .inl hx
  | burnUnstake a n v => obtain ⟨_, m, hm, rfl⟩ := holderBurnNft_ok.1 hs; exact .inl hx
  | starve i o => obtain ⟨f, hf, rfl⟩ := starve_ok hs; exact .inl hx

theorem reachable_asked {w : World} (hr : Reachable w) {x : Issue} (hx : x ∈ w.issues) : AskedByOwner w x := by
  induction hr with
  | init h =>
    obtain ⟨self, owner, contracts, epoch, funds, acc, fees, rpe, mr, ms, ma, ub, _, _, rfl⟩ := isInit_eq h
    cases hx
  | @step w w' op hr hs ih =>
    rcases issues_step op (reachable_regInv hr) hs hx with h | ⟨ho, rfl⟩
    · obtain ⟨w0, w1, h0, h1, h2, h3⟩ := ih h
      exact ⟨w0, w1, h0, h1, h2, .snoc op h3 hs trivial⟩
    · exact ⟨w, w', hr, ho, hs, .nil⟩

end LS
