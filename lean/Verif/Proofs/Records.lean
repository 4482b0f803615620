import Verif.Proofs.Frame
import Verif.Proofs.BatchMore

/-! How one transaction changes the record of one provider. -/

namespace LS
open Spec

/-- All that can happen to the record of provider `p` in one successful transaction `op` made in world `w`. -/
inductive PStep (w : World) (op : Op) (p : Addr) : Option ProviderData → Option ProviderData → Prop
  | same (o : Option ProviderData) : PStep w op p o o
  | added (c : Addr) (v : Nat) (ad : Addr) (ts cap : Nat) (n apy : UInt64) (hop : op = .whitelist c v p ad ts cap n apy)
      (hm : isManager w c = true) (hv : MIN_EGLD ≤ v) (hcap : ts ≤ cap ∨ cap = 0) : PStep w op p none (some {
        admin := ad, totalStaked := ts, cap := cap, nrNodes := n, apy := apy, staked := 0, unstaked := 0, eligible := true,
        pStake := 0, pUnstake := 0 })
  | dropped (o : Option ProviderData) (i : Nat) (x : Nat) (u : Addr) (hop : op = .deliver i .err)
      (hf : w.flights[i]? = some (.whitelist p x u)) : PStep w op p o none
  | admin (d : ProviderData) (c a : Addr) (hop : op = .changeAdmin c p a) (hm : isManager w c = true) :
      PStep w op p (some d) (some { d with admin := a })
  | params (d : ProviderData) (c : Addr) (ts cap : Nat) (n apy : UInt64) (e : Bool) (hop : op = .changeParams c p ts cap n apy e)
      (hm : d.admin = c ∨ isManager w c = true) (hcap : ts ≤ cap ∨ cap = 0) :
      PStep w op p (some d) (some { d with totalStaked := ts, cap := cap, nrNodes := n, apy := apy, eligible := e })
  | sent (d : ProviderData) (c : Addr) (o : Option Nat) (a : Nat) (hop : op = .delegatePending c o) (hm : isManager w c = true)
      (ha : MIN_EGLD ≤ a) (he : d.eligible = true) (hn : d.pUnstake ≤ d.staked + d.pStake)
      (hcap : d.cap = 0 ∨ (MIN_EGLD + (d.staked + d.pStake - d.pUnstake) ≤ d.cap ∧ d.totalStaked ≤ d.cap ∧
        a ≤ d.cap - d.totalStaked)) : PStep w op p (some d) (some { d with pStake := d.pStake + a })
  | asked (d : ProviderData) (c : Addr) (o : Option Nat) (a : Nat) (hop : op = .unDelegatePending c o)
      (hm : isManager w c = true) (ha : MIN_EGLD ≤ a) (hn : d.pUnstake ≤ d.staked + d.pStake)
      (hle : a ≤ d.staked + d.pStake - d.pUnstake)
      (hdust : d.staked + d.pStake - d.pUnstake - a = 0 ∨ MIN_EGLD ≤ d.staked + d.pStake - d.pUnstake - a) :
      PStep w op p (some d) (some { d with pUnstake := d.pUnstake + a })
  | stakeOk (d : ProviderData) (i g r a : Nat) (hop : op = .deliver i (.ok g r)) (hf : w.flights[i]? = some (.delegate p a))
      (ha : a ≤ d.pStake) : PStep w op p (some d) (some { d with staked := d.staked + a, pStake := d.pStake - a })
  | stakeErr (d : ProviderData) (i a : Nat) (hop : op = .deliver i .err) (hf : w.flights[i]? = some (.delegate p a))
      (ha : a ≤ d.pStake) : PStep w op p (some d) (some { d with eligible := false, pStake := d.pStake - a })
  | unstakeOk (d : ProviderData) (i g r a : Nat) (hop : op = .deliver i (.ok g r))
      (hf : w.flights[i]? = some (.undelegate p a)) (hs : a ≤ d.staked) (ha : a ≤ d.pUnstake) :
      PStep w op p (some d) (some { d with staked := d.staked - a, unstaked := d.unstaked + a, pUnstake := d.pUnstake - a })
  | unstakeErr (d : ProviderData) (i a : Nat) (hop : op = .deliver i .err) (hf : w.flights[i]? = some (.undelegate p a))
      (ha : a ≤ d.pUnstake) : PStep w op p (some d) (some { d with pUnstake := d.pUnstake - a })
  | returned (d : ProviderData) (i g r : Nat) (hop : op = .deliver i (.ok g r)) (hf : w.flights[i]? = some (.withdraw p))
      (hg : g ≤ d.unstaked) : PStep w op p (some d) (some { d with unstaked := d.unstaked - g })
  | joined (d : ProviderData) (i g r x : Nat) (u : Addr) (hop : op = .deliver i (.ok g r))
      (hf : w.flights[i]? = some (.whitelist p x u)) : PStep w op p (some d) (some { d with staked := d.staked + x })

theorem selAt_mem {a : Addr} {l : List Selection} (hnd : (l.map Selection.address).Nodup) :
    (selAt a l = 0 ∧ a ∉ l.map Selection.address) ∨ ∃ s ∈ l, s.address = a ∧ selAt a l = s.amount := by
  by_cases h : a ∈ l.map Selection.address
  · right
    induction l with
    | nil => simp at h
    | cons s l ih =>
      simp only [List.map_cons, List.nodup_cons] at hnd
      by_cases hs : s.address = a
      · refine ⟨s, by simp, hs, ?_⟩
        rw [selAt, if_pos hs, selAt_eq_zero (by rw [← hs]; exact hnd.1)]
        rfl
      · simp only [List.map_cons, List.mem_cons] at h
        obtain ⟨q, hq, h1, h2⟩ := ih hnd.2 (h.resolve_left fun h' => hs h'.symm)
        exact ⟨q, by simp [hq], h1, by rw [selAt, if_neg hs, h2, Nat.zero_add]⟩
  · exact .inl ⟨selAt_eq_zero h, h⟩

/-- Writing the record of `q` changes the record of `p` only if `p = q`. -/
theorem PStep.set {w : World} {op : Op} {p q : Addr} {data : Map Addr (Option ProviderData)} {o : Option ProviderData}
    (h : PStep w op q (data.get none q) o) : PStep w op p (data.get none p) ((data.set q o).get none p) := by
  rw [Map.get_set]
  by_cases hq : q = p
  · subst hq; rw [if_pos rfl]; exact h
  · rw [if_neg hq]; exact .same _

theorem pstep_deliver {w w' : World} {i : Nat} {o : Outcome} (p : Addr) (hs : deliver w i o = .ok w') :
    PStep w (.deliver i o) p (w.st.data.get none p) (w'.st.data.get none p) := by
  obtain ⟨f, hf, hcb⟩ := deliver_ok hs
  rcases hcb with hcb | ⟨_, rfl⟩
  swap
  · exact .same _
  cases f with
  | delegate q a =>
    cases o with
    | ok g r =>
      obtain ⟨_, d, hd, ha, rfl⟩ := addLiquidityCb_true_ok.1 hcb
      have hd' : w.st.data.get none q = some d := hd
      exact .set (by rw [hd']; exact .stakeOk d i g r a rfl hf ha)
    | err =>
      obtain ⟨t, d, _, hd, ha, rfl⟩ := addLiquidityCb_false_ok.1 hcb
      have hd' : w.st.data.get none q = some d := hd
      exact .set (by rw [hd']; exact .stakeErr d i a rfl hf ha)
  | undelegate q a =>
    cases o with
    | ok g r =>
      obtain ⟨t, d, _, hd, h1, ha, rfl⟩ := removeLiquidityCb_true_ok.1 hcb
      have hd' : w.st.data.get none q = some d := hd
      exact .set (by rw [hd']; exact .unstakeOk d i g r a rfl hf h1 ha)
    | err =>
      obtain ⟨t, d, _, hd, ha, rfl⟩ := removeLiquidityCb_false_ok.1 hcb
      have hd' : w.st.data.get none q = some d := hd
      exact .set (by rw [hd']; exact .unstakeErr d i a rfl hf ha)
  | withdraw q =>
    cases o with
    | ok g r =>
      rcases withdrawTokensCb_ok.1 hcb with ⟨_, rfl⟩ | ⟨_, t, d, _, hd, hg, _, rfl⟩
      · exact .same _
      · have hd' : w.st.data.get none q = some d := hd
        exact .set (by rw [hd']; exact .returned d i g r rfl hf hg)
    | err =>
      rcases withdrawTokensCb_ok.1 hcb with ⟨_, rfl⟩ | ⟨h0, _⟩
      · exact .same _
      · omega
  | claim ps =>
    cases o with
    | ok g r => rcases claimRewardsCb_ok.1 hcb with ⟨_, rfl⟩ | ⟨_, t, fee, _, _, _, rfl⟩ <;> exact .same _
    | err =>
      have : arrive w i (.claim ps) .err = w' := by simpa [runCallback, claimRewardsCb] using hcb
      subst this; exact .same _
  | whitelist q a u =>
    cases o with
    | ok g r =>
      obtain ⟨t, d, l, _, hd, _, rfl⟩ := whitelistCb_true_ok.1 hcb
      have hd' : w.st.data.get none q = some d := hd
      exact .set (by rw [hd']; exact .joined d i g r a u rfl hf)
    | err =>
      obtain ⟨_, m, _, rfl⟩ := whitelistCb_false_ok.1 hcb
      exact .set (.dropped _ i a u rfl hf)

theorem pstep {w w' : World} {op : Op} (p : Addr) (hr : RegInv w) (hs : step w op = .ok w') :
    PStep w op p (w.st.data.get none p) (w'.st.data.get none p) := by
  have hr0 : RegOk w.st.lsToken w.st.unstakeToken w.st.delegList w.st.undelegList w.st.data w.flights w.dead := hr
  cases op with
  | delegate c v => obtain ⟨_, _, _, m, t, p, e, l, _, _, _, _, _, _, rfl⟩ := delegate_ok.1 hs; exact .same _
  | unDelegate c v ps =>
    obtain ⟨r, E, L, N, F, A, n, ev, rfl⟩ := unDelegate_frame hs
    exact .same _
  | withdraw c v ps =>
    obtain ⟨_, _, _, uid, t, m0, m, E, N, _, ht, _, _, _, _, _, _, _, _, _, rfl⟩ := withdraw_ok hr0.tok hs
    exact .same _
  | upgrade => simp only [step, Except.ok.injEq] at hs; subst hs; exact .same _
  | delegatePending c o =>
    obtain ⟨_, _, hm, t, amt, sels, left, E, D, _, _, _, hsub, htar, _, _, hD, _, _, rfl⟩ := delegatePending_ok hs
    show PStep _ _ _ _ (D.get none p)
    rw [hD p]
    rcases selAt_mem (a := p) (hsub.nodup hr0.nd1) with ⟨h0, _⟩ | ⟨s, hmem, rfl, ha⟩
    · rw [h0]
      cases hd : w.st.data.get none p <;> exact .same _
    · obtain ⟨d, hd, he, h1, h2, h3⟩ := htar s hmem
      rw [hd, ha]
      exact .sent d c o s.amount rfl hm h1 he h2 h3
  | unDelegatePending c o =>
    obtain ⟨_, _, hm, t, amt, sels, left, E, D, _, _, _, hsub, htar, _, hD, _, _, rfl⟩ := unDelegatePending_ok hs
    show PStep _ _ _ _ (D.get none p)
    rw [hD p]
    rcases selAt_mem (a := p) (hsub.nodup hr0.nd2) with ⟨h0, _⟩ | ⟨s, hmem, rfl, ha⟩
    · rw [h0]
      cases hd : w.st.data.get none p <;> exact .same _
    · obtain ⟨d, hd, h1, h2, h3, h4⟩ := htar s hmem
      rw [hd, ha]
      exact .asked d c o s.amount rfl hm h1 h2 h3 h4
  | withdrawPending c q => obtain ⟨_, _, _, _, _, E, _, rfl⟩ := withdrawPending_ok hs; exact .same _
  | claimRewards c => obtain ⟨_, _, _, _, _, E, _, rfl⟩ := claimRewards_ok hs; exact .same _
  | claimFees c a => obtain ⟨_, _, _, _, ht, m, _, rfl⟩ := claimFees_ok hs; exact .same _
  | whitelist c v q ad ts cap n apy =>
    obtain ⟨_, hm, _, _, hn, hcap, hv, _, E, _, _, _, rfl⟩ := whitelist_ok hs
    exact .set (by rw [hn]; exact .added c v ad ts cap n apy rfl hm hv hcap)
  | changeAdmin c q a =>
    obtain ⟨_, hm, d, hd, rfl⟩ := changeAdmin_ok.1 hs
    exact .set (by rw [hd]; exact .admin d c a rfl hm)
  | changeParams c q ts cap n apy e =>
    obtain ⟨_, hcap, d, hd, hm, rfl⟩ := changeParams_ok.1 hs
    exact .set (by rw [hd]; exact .params d c ts cap n apy e rfl hm hcap)
  | migrate c v o => obtain ⟨_, _, _, _, t, l, ht, _, rfl⟩ := migrate_ok.1 hs; exact .same _
  | migratePending c v => obtain ⟨_, _, _, _, t, m, ht, _, rfl⟩ := migratePending_ok.1 hs; exact .same _
  | addRewards c v => obtain ⟨_, t, m, ht, _, rfl⟩ := addRewards_ok.1 hs; exact .same _
  | setMigrationSc c a => obtain ⟨_, rfl, _, rfl⟩ := setMigrationSc_ok.1 hs; exact .same _
  | registerLsToken c v => obtain ⟨_, rfl, hn, _, m, _, rfl⟩ := registerLsToken_ok.1 hs; exact .same _
  | registerUnstakeToken c v => obtain ⟨_, rfl, hn, _, m, _, rfl⟩ := registerUnstakeToken_ok.1 hs; exact .same _
  | issued i o => obtain ⟨⟨k, u, v⟩, E, _, _, _, rfl⟩ := issued_ok.1 hs; cases k <;> exact .same _
  | owner c cmd =>
    obtain ⟨_, rfl, st, h1, rfl⟩ := ownerCmd_ok.1 hs
    obtain ⟨s, fr, acc, mr, ma, ms, ub, mg, rfl⟩ := applyOwnerCmd_ok h1
    exact .same _
  | setScoringConfig c cfg => obtain ⟨_, hm, _, rfl⟩ := setScoringConfig_ok.1 hs; exact .same _
  | viewLsValue l =>
    simp only [step, bind_ok, Prod.exists, Except.ok.injEq] at hs
    obtain ⟨e, w1, h1, rfl⟩ := hs
    obtain ⟨_, _, rfl⟩ := viewLsValue_ok.1 h1
    exact .same _
  | viewEgldPosition l =>
    simp only [step, bind_ok, Prod.exists, Except.ok.injEq] at hs
    obtain ⟨e, w1, h1, rfl⟩ := hs
    obtain ⟨_, _, rfl⟩ := viewEgldPosition_ok.1 h1
    exact .same _
  | deliver i o => exact pstep_deliver p hs
  | transferLs s d v => obtain ⟨_, _, m, _, rfl⟩ := transferLs_ok.1 hs; exact .same _
  | transferNft s d n v => obtain ⟨_, _, m, _, rfl⟩ := transferNft_ok.1 hs; exact .same _
  | fund a v => obtain ⟨_, rfl⟩ := fund_ok.1 hs; exact .same _
  | advance e => obtain ⟨h1, rfl⟩ := advance_ok.1 hs; exact .same _
  | changeOwner c d => obtain ⟨_, _, rfl⟩ := changeOwner_ok.1 hs; exact .same _
  | transferEgld s d v => obtain ⟨_, _, m, hm, rfl⟩ := transferEgld_ok.1 hs; exact .same _
  | giveEgld s v => obtain ⟨_, _, m, hm, rfl⟩ := giveEgld_ok.1 hs; exact .same _
  | giveLs s v => obtain ⟨_, _, m, hm, rfl⟩ := giveLs_ok.1 hs; exact .same _
  | giveUnstake s n v => obtain ⟨_, _, m, hm, rfl⟩ := giveUnstake_ok.1 hs; exact .same _
  | burnLs a v => obtain ⟨_, m, hm, rfl⟩ := holderBurnLs_ok.1 hs; exact .same _
  | burnUnstake a n v => obtain ⟨_, m, hm, rfl⟩ := holderBurnNft_ok.1 hs; exact .same _
  | starve i o => obtain ⟨f, hf, rfl⟩ := starve_ok hs; exact .same _

/-- All that can happen to the promises in one successful transaction: those in flight and those whose callback failed. -/
inductive FStep (w : World) (op : Op) : List Flight → List Flight → Prop
  | same : FStep w op w.flights w.dead
  | delegated (c : Addr) (o : Option Nat) (sels : List Selection) (hop : op = .delegatePending c o)
      (hs : ∀ s ∈ sels, MIN_EGLD ≤ s.amount) :
      FStep w op (w.flights ++ sels.map (fun s => Flight.delegate s.address s.amount)) w.dead
  | undelegated (c : Addr) (o : Option Nat) (sels : List Selection) (hop : op = .unDelegatePending c o)
      (hs : ∀ s ∈ sels, MIN_EGLD ≤ s.amount) :
      FStep w op (w.flights ++ sels.map (fun s => Flight.undelegate s.address s.amount)) w.dead
  | withdrawn (c p : Addr) (hop : op = .withdrawPending c p) : FStep w op (w.flights ++ [.withdraw p]) w.dead
  | claimed (c : Addr) (hop : op = .claimRewards c) : FStep w op (w.flights ++ [.claim w.st.delegList]) w.dead
  | whitelisted (c : Addr) (v : Nat) (p ad : Addr) (ts cap : Nat) (n apy : UInt64)
      (hop : op = .whitelist c v p ad ts cap n apy) (hv : MIN_EGLD ≤ v) (hc : c ≠ w.self) :
      FStep w op (w.flights ++ [.whitelist p v c]) w.dead
  | settled (i : Nat) (o : Outcome) (f : Flight) (w' : World) (hop : op = .deliver i o) (hf : w.flights[i]? = some f)
      (hcb : runCallback (arrive w i f o) f o = .ok w') : FStep w op (w.flights.eraseIdx i) w.dead
  | died (i : Nat) (o : Outcome) (f : Flight) (e : Err) (hop : op = .deliver i o) (hf : w.flights[i]? = some f)
      (hcb : runCallback (arrive w i f o) f o = .error e) : FStep w op (w.flights.eraseIdx i) (w.dead ++ [f])
  | starved (i : Nat) (o : Outcome) (f : Flight) (hop : op = .starve i o) (hf : w.flights[i]? = some f) :
      FStep w op (w.flights.eraseIdx i) (w.dead ++ [f])

theorem runCallback_flights {w w' : World} {f : Flight} {o : Outcome} (hcb : runCallback w f o = .ok w') :
    w'.flights = w.flights ∧ w'.dead = w.dead := by
  cases f with
  | delegate q a =>
    cases o with
    | ok g r => obtain ⟨_, d, _, _, rfl⟩ := addLiquidityCb_true_ok.1 hcb; exact ⟨rfl, rfl⟩
    | err => obtain ⟨t, d, _, _, _, rfl⟩ := addLiquidityCb_false_ok.1 hcb; exact ⟨rfl, rfl⟩
  | undelegate q a =>
    cases o with
    | ok g r => obtain ⟨t, d, _, _, _, _, rfl⟩ := removeLiquidityCb_true_ok.1 hcb; exact ⟨rfl, rfl⟩
    | err => obtain ⟨t, d, _, _, _, rfl⟩ := removeLiquidityCb_false_ok.1 hcb; exact ⟨rfl, rfl⟩
  | withdraw q =>
    have h' : ∃ v, withdrawTokensCb w q v = .ok w' := by
      cases o with
      | ok g r => exact ⟨g, hcb⟩
      | err => exact ⟨0, hcb⟩
    obtain ⟨v, h'⟩ := h'
    rcases withdrawTokensCb_ok.1 h' with ⟨_, rfl⟩ | ⟨_, t, d, _, _, _, _, rfl⟩ <;> exact ⟨rfl, rfl⟩
  | claim ps =>
    cases o with
    | ok g r => rcases claimRewardsCb_ok.1 hcb with ⟨_, rfl⟩ | ⟨_, t, fee, _, _, _, rfl⟩ <;> exact ⟨rfl, rfl⟩
    | err =>
      have : w = w' := by simpa [runCallback, claimRewardsCb] using hcb
      subst this; exact ⟨rfl, rfl⟩
  | whitelist q a u =>
    cases o with
    | ok g r => obtain ⟨t, d, l, _, _, _, rfl⟩ := whitelistCb_true_ok.1 hcb; exact ⟨rfl, rfl⟩
    | err => obtain ⟨_, m, _, rfl⟩ := whitelistCb_false_ok.1 hcb; exact ⟨rfl, rfl⟩

theorem fstep {w w' : World} {op : Op} (hr : RegInv w) (hs : step w op = .ok w') : FStep w op w'.flights w'.dead := by
  have hr0 : RegOk w.st.lsToken w.st.unstakeToken w.st.delegList w.st.undelegList w.st.data w.flights w.dead := hr
  cases op with
  | delegate c v => obtain ⟨_, _, _, m, t, p, e, l, _, _, _, _, _, _, rfl⟩ := delegate_ok.1 hs; exact .same
  | unDelegate c v ps => obtain ⟨r, E, L, N, F, A, n, ev, rfl⟩ := unDelegate_frame hs; exact .same
  | withdraw c v ps =>
    obtain ⟨_, _, _, uid, t, m0, m, E, N, _, ht, _, _, _, _, _, _, _, _, _, rfl⟩ := withdraw_ok hr0.tok hs
    exact .same
  | upgrade => simp only [step, Except.ok.injEq] at hs; subst hs; exact .same
  | delegatePending c o =>
    obtain ⟨_, _, hm, t, amt, sels, left, E, D, _, _, _, hsub, htar, _, _, hD, _, _, rfl⟩ := delegatePending_ok hs
    exact .delegated c o sels rfl fun s hs => (htar s hs).choose_spec.2.2.1
  | unDelegatePending c o =>
    obtain ⟨_, _, hm, t, amt, sels, left, E, D, _, _, _, hsub, htar, _, hD, _, _, rfl⟩ := unDelegatePending_ok hs
    exact .undelegated c o sels rfl fun s hs => (htar s hs).choose_spec.2.1
  | withdrawPending c q => obtain ⟨_, _, _, _, _, E, _, rfl⟩ := withdrawPending_ok hs; exact .withdrawn c q rfl
  | claimRewards c => obtain ⟨_, _, _, _, _, E, _, rfl⟩ := claimRewards_ok hs; exact .claimed c rfl
  | claimFees c a => obtain ⟨_, _, _, _, ht, m, _, rfl⟩ := claimFees_ok hs; exact .same
  | whitelist c v q ad ts cap n apy =>
    obtain ⟨hc, hm, _, _, hn, hcap, hv, _, E, _, _, _, rfl⟩ := whitelist_ok hs
    exact .whitelisted c v q ad ts cap n apy rfl hv hc
  | changeAdmin c q a => obtain ⟨_, hm, d, hd, rfl⟩ := changeAdmin_ok.1 hs; exact .same
  | changeParams c q ts cap n apy e => obtain ⟨_, hcap, d, hd, hm, rfl⟩ := changeParams_ok.1 hs; exact .same
  | migrate c v o => obtain ⟨_, _, _, _, t, l, ht, _, rfl⟩ := migrate_ok.1 hs; exact .same
  | migratePending c v => obtain ⟨_, _, _, _, t, m, ht, _, rfl⟩ := migratePending_ok.1 hs; exact .same
  | addRewards c v => obtain ⟨_, t, m, ht, _, rfl⟩ := addRewards_ok.1 hs; exact .same
  | setMigrationSc c a => obtain ⟨_, rfl, _, rfl⟩ := setMigrationSc_ok.1 hs; exact .same
  | registerLsToken c v => obtain ⟨_, rfl, hn, _, m, _, rfl⟩ := registerLsToken_ok.1 hs; exact .same
  | registerUnstakeToken c v => obtain ⟨_, rfl, hn, _, m, _, rfl⟩ := registerUnstakeToken_ok.1 hs; exact .same
  | issued i o => obtain ⟨⟨k, u, v⟩, E, _, _, _, rfl⟩ := issued_ok.1 hs; cases k <;> exact .same
  | owner c cmd => obtain ⟨_, rfl, st, h1, rfl⟩ := ownerCmd_ok.1 hs; exact .same
  | setScoringConfig c cfg => obtain ⟨_, hm, _, rfl⟩ := setScoringConfig_ok.1 hs; exact .same
  | viewLsValue l =>
    simp only [step, bind_ok, Prod.exists, Except.ok.injEq] at hs
    obtain ⟨e, w1, h1, rfl⟩ := hs
    obtain ⟨_, _, rfl⟩ := viewLsValue_ok.1 h1
    exact .same
  | viewEgldPosition l =>
    simp only [step, bind_ok, Prod.exists, Except.ok.injEq] at hs
    obtain ⟨e, w1, h1, rfl⟩ := hs
    obtain ⟨_, _, rfl⟩ := viewEgldPosition_ok.1 h1
    exact .same
  | deliver i o =>
    obtain ⟨f, hf, hcb | ⟨⟨e, he⟩, rfl⟩⟩ := deliver_ok hs
    · obtain ⟨h1, h2⟩ := runCallback_flights hcb
      rw [h1, h2]
      exact .settled i o f w' rfl hf hcb
    · exact .died i o f e rfl hf he
  | transferLs s d v => obtain ⟨_, _, m, _, rfl⟩ := transferLs_ok.1 hs; exact .same
  | transferNft s d n v => obtain ⟨_, _, m, _, rfl⟩ := transferNft_ok.1 hs; exact .same
  | fund a v => obtain ⟨_, rfl⟩ := fund_ok.1 hs; exact .same
  | advance e => obtain ⟨h1, rfl⟩ := advance_ok.1 hs; exact .same
  | changeOwner c d => obtain ⟨_, _, rfl⟩ := changeOwner_ok.1 hs; exact .same
  | transferEgld s d v => obtain ⟨_, _, m, hm, rfl⟩ := transferEgld_ok.1 hs; exact .same
  | giveEgld s v => obtain ⟨_, _, m, hm, rfl⟩ := giveEgld_ok.1 hs; exact .same
  | giveLs s v => obtain ⟨_, _, m, hm, rfl⟩ := giveLs_ok.1 hs; exact .same
  | giveUnstake s n v => obtain ⟨_, _, m, hm, rfl⟩ := giveUnstake_ok.1 hs; exact .same
  | burnLs a v => obtain ⟨_, m, hm, rfl⟩ := holderBurnLs_ok.1 hs; exact .same
  | burnUnstake a n v => obtain ⟨_, m, hm, rfl⟩ := holderBurnNft_ok.1 hs; exact .same
  | starve i o => obtain ⟨f, hf, rfl⟩ := starve_ok hs; exact .starved i o f rfl hf

/-- A promise in flight after a transaction was in flight before or was registered by it. -/
theorem FStep.mem {w : World} {op : Op} {fl dead : List Flight} {f : Flight} (h : FStep w op fl dead) (hf : f ∈ fl) :
    f ∈ w.flights ∨
    (∃ c o p a, op = .delegatePending c o ∧ f = .delegate p a ∧ MIN_EGLD ≤ a) ∨
    (∃ c o p a, op = .unDelegatePending c o ∧ f = .undelegate p a ∧ MIN_EGLD ≤ a) ∨
    (∃ c p, op = .withdrawPending c p ∧ f = .withdraw p) ∨ (∃ c, op = .claimRewards c ∧ f = .claim w.st.delegList) ∨
    (∃ c v p ad ts cap n apy, op = .whitelist c v p ad ts cap n apy ∧ f = .whitelist p v c ∧ MIN_EGLD ≤ v ∧ c ≠ w.self) := by
  cases h with
  | same => exact .inl hf
  | delegated c o sels hop hs =>
    rcases List.mem_append.1 hf with hf | hf
    · exact .inl hf
    · obtain ⟨s, hs', rfl⟩ := List.mem_map.1 hf
      exact .inr (.inl ⟨c, o, _, _, hop, rfl, hs s hs'⟩)
  | undelegated c o sels hop hs =>
    rcases List.mem_append.1 hf with hf | hf
    · exact .inl hf
    · obtain ⟨s, hs', rfl⟩ := List.mem_map.1 hf
      exact .inr (.inr (.inl ⟨c, o, _, _, hop, rfl, hs s hs'⟩))
  | withdrawn c p hop =>
    rcases List.mem_append.1 hf with hf | hf
    · exact .inl hf
    · rw [List.mem_singleton] at hf
      exact .inr (.inr (.inr (.inl ⟨c, p, hop, hf⟩)))
  | claimed c hop =>
    rcases List.mem_append.1 hf with hf | hf
    · exact .inl hf
    · rw [List.mem_singleton] at hf
      exact .inr (.inr (.inr (.inr (.inl ⟨c, hop, hf⟩))))
  | whitelisted c v p ad ts cap n apy hop hv hc =>
    rcases List.mem_append.1 hf with hf | hf
    · exact .inl hf
    · rw [List.mem_singleton] at hf
      exact .inr (.inr (.inr (.inr (.inr ⟨c, v, p, ad, ts, cap, n, apy, hop, hf, hv, hc⟩))))
  | settled i o f' w' hop hf' hcb => exact .inl (List.mem_of_mem_eraseIdx hf)
  | died i o f' e hop hf' hcb => exact .inl (List.mem_of_mem_eraseIdx hf)
  | starved i o f' hop hf' => exact .inl (List.mem_of_mem_eraseIdx hf)

/-- The first delegation of a whitelisting is at least one EGLD and made by a user. -/
theorem reachable_wl {w : World} (h : Reachable w) :
    ∀ p v u, .whitelist p v u ∈ w.flights → MIN_EGLD ≤ v ∧ u ≠ w.self := by
  induction h with
  | init h =>
    obtain ⟨self, owner, contracts, epoch, funds, acc, fees, rpe, mr, ms, ma, ub, _, _, rfl⟩ := isInit_eq h
    simp
  | @step w w' op hr hs ih =>
    intro p v u hm
    rw [(frame_step op (reachable_regInv hr) (reachable_issInv hr) hs).self]
    rcases (fstep (reachable_regInv hr) hs).mem hm with h | ⟨_, _, _, _, _, h, _⟩ | ⟨_, _, _, _, _, h, _⟩ | ⟨_, _, _, h⟩ |
      ⟨_, _, h⟩ | ⟨c, v', p', ad, ts, cap, n, apy, _, h, hv⟩
    · exact ih p v u h
    all_goals cases h
    exact hv

/-- The first delegation of a whitelisting is at least one EGLD. -/
theorem reachable_wlpos {w : World} (h : Reachable w) : ∀ p v u, .whitelist p v u ∈ w.flights → MIN_EGLD ≤ v :=
  fun p v u hm => (reachable_wl h p v u hm).1

/-- The owner's limits are never zero. -/
theorem reachable_limits {w : World} (h : Reachable w) : 1 ≤ w.st.maxSelectedProviders ∧ 1 ≤ w.st.maxDelegationAddresses := by
  induction h with
  | init h =>
    obtain ⟨self, owner, contracts, epoch, funds, acc, fees, rpe, mr, ms, ma, ub, h1, h2, rfl⟩ := isInit_eq h
    exact ⟨h1, h2⟩
  | @step w w' op hr hs ih =>
    rcases (frame_step op (reachable_regInv hr) (reachable_issInv hr) hs).cfg with h | ⟨cmd, _, h⟩
    · have h1 := congrArg Config.maxSelectedProviders h
      have h2 := congrArg Config.maxDelegationAddresses h
      simp only [config] at h1 h2
      rw [h1, h2]; exact ih
    · cases cmd <;> simp only [applyOwnerCmd, bind_ok, req_ok, exists_const, Except.ok.injEq] at h
      case maxAddresses => obtain ⟨h0, h⟩ := h; rw [← h]; exact ⟨ih.1, h0⟩
      case maxSelected => obtain ⟨h0, h⟩ := h; rw [← h]; exact ⟨h0, ih.2⟩
      all_goals rw [← h]; exact ih

/-- Declared totals respect the declared cap. -/
theorem reachable_capOk {w : World} (h : Reachable w) :
    ∀ p d, w.st.data.get none p = some d → d.totalStaked ≤ d.cap ∨ d.cap = 0 := by
  induction h with
  | init h =>
    obtain ⟨self, owner, contracts, epoch, funds, acc, fees, rpe, mr, ms, ma, ub, h1, h2, rfl⟩ := isInit_eq h
    intro p d hd
    simp [Map.get] at hd
  | @step w w' op hr hs ih =>
    intro p d hd
    have hp := pstep p (reachable_regInv hr) hs
    rw [hd] at hp
    have ih := ih p
    generalize w.st.data.get none p = x at hp ih
    cases hp <;> first | exact (ih _ rfl :) | assumption

/-- The stake of a provider net of calls in flight is zero or at least one EGLD as long as no delegation ever failed. -/
theorem net_whole {w : World} (h : ReachableBy (fun w op _ => ∀ i p a, op = .deliver i .err →
      w.flights[i]? ≠ some (.delegate p a)) w) :
    ∀ p d, w.st.data.get none p = some d → d.pUnstake ≤ d.staked + d.pStake ∧
      (d.staked + d.pStake - d.pUnstake = 0 ∨ MIN_EGLD ≤ d.staked + d.pStake - d.pUnstake) := by
  obtain ⟨w0, h0, ht⟩ := h
  induction ht with
  | nil =>
    obtain ⟨self, owner, contracts, epoch, funds, acc, fees, rpe, mr, ms, ma, ub, h1, h2, rfl⟩ := isInit_eq h0
    intro p d hd
    simp [Map.get] at hd
  | @snoc w w' op ht hs hP ih =>
    have hR : Reachable w := reachable_trace (.init h0) (trace_mono (fun _ _ _ _ => trivial) ht)
    have hr0 : RegOk w.st.lsToken w.st.unstakeToken w.st.delegList w.st.undelegList w.st.data w.flights w.dead :=
      reachable_regInv hR
    intro p d hd
    have hp := pstep p (reachable_regInv hR) hs
    rw [hd] at hp
    have ih := ih p
    have hz := hr0.zero p
    generalize w.st.data.get none p = x at hp ih hz
    cases hp with
    | same => exact ih _ rfl
    | added c v ad ts cap n apy hop hm hv hcap => exact ⟨Nat.zero_le _, .inl rfl⟩
    | admin d c a hop hm => exact ih d rfl
    | params d c ts cap n apy e hop hm hcap => exact ih d rfl
    | sent d c o a hop hm ha he hn hcap => have := ih d rfl; dsimp only; omega
    | asked d c o a hop hm ha hn hle hdust => dsimp only; omega
    | stakeOk d i g r a hop hf ha => have := ih d rfl; dsimp only; omega
    | stakeErr d i a hop hf ha => exact absurd hf (hP i p a hop)
    | unstakeOk d i g r a hop hf hs ha => have := ih d rfl; dsimp only; omega
    | unstakeErr d i a hop hf ha =>
      have := ih d rfl
      have hpos := hr0.pos p a (.inr (List.mem_of_getElem? hf))
      dsimp only; omega
    | returned d i g r hop hf hg => exact ih d rfl
    | joined d i g r x u hop hf =>
      have hmem := List.mem_of_getElem? hf
      have hpos := reachable_wlpos hR p x u hmem
      obtain ⟨z1, _, z2, z3⟩ := hz d rfl (hr0.wl2 p x u hmem).1
      dsimp only; omega

end LS
