import Verif.Spec.Effects
import Verif.Proofs.CallbackLemmas

/-! Exact events, exact failures of callbacks. -/

namespace LS
open Spec

theorem announce_commit {w : World} {t : TokenId} {s : CState} {r : Reserves} {k : EventKind} {c : Addr} (ht : w.st.lsToken = some t) :
    (commit (emit w ⟨s, t, r⟩ k c) ⟨s, t, r⟩).events = w.events ++ announce (commit (emit w ⟨s, t, r⟩ k c) ⟨s, t, r⟩) k c := by
  unfold announce
  have : (commit (emit w ⟨s, t, r⟩ k c) ⟨s, t, r⟩).st.lsToken = some t := ht
  rw [this]
  rfl

theorem callback_fails {w : World} {i : Nat} {o : Outcome} {f : Flight} (hr : Reachable w) (hf : w.flights[i]? = some f) :
    (∃ e, runCallback (arrive w i f o) f o = .error e) ↔ CallbackFails w f o := by
  have hr0 : RegOk w.st.lsToken w.st.unstakeToken w.st.delegList w.st.undelegList w.st.data w.flights w.dead :=
    reachable_regInv hr
  have hmem := List.mem_of_getElem? hf
  have key : ∀ {x : Res World} {P : Prop}, ((∃ w', x = .ok w') ↔ ¬ P) → ((∃ e, x = .error e) ↔ P) := by
    intro x P h
    cases x with
    | ok w' => simp only [reduceCtorEq, exists_false, false_iff]; exact h.1 ⟨w', rfl⟩
    | error e =>
      simp only [reduceCtorEq, exists_false, false_iff, not_not] at h
      simp [h]
  have htok : (∀ p v u, f ≠ .whitelist p v u) → ∃ t, w.st.lsToken = some t := by
    intro h
    refine Option.ne_none_iff_exists'.1 fun hn => ?_
    obtain ⟨p, v, u, h'⟩ := reachable_noFlights hr hn _ hmem
    exact h p v u h'
  apply key
  cases f with
  | delegate p a =>
    simp only [CallbackFails, not_false_eq_true, iff_true]
    exact delegate_cb_ok hr o hf
  | undelegate p a =>
    obtain ⟨t, d, ht, hd, ha, _, _⟩ := undelegate_flight hr hmem
    have hfig : figure (·.staked) w p = d.staked := by unfold figure provider; rw [hd]
    cases o with
    | ok g r =>
      simp only [CallbackFails, hfig, not_lt]
      constructor
      · rintro ⟨w', h⟩
        obtain ⟨t', d', _, hd', h1, _⟩ := removeLiquidityCb_true_ok.1 h
        have : some d = some d' := hd.symm.trans hd'
        cases this
        exact h1
      · intro h; exact ⟨_, removeLiquidityCb_true_ok.2 ⟨t, d, ht, hd, h, ha, rfl⟩⟩
    | err =>
      simp only [CallbackFails, not_false_eq_true, iff_true]
      exact ⟨_, removeLiquidityCb_false_ok.2 ⟨t, d, ht, hd, ha, rfl⟩⟩
  | withdraw p =>
    obtain ⟨t, ht⟩ := htok (by simp)
    cases o with
    | ok v r =>
      simp only [CallbackFails, not_or, not_lt]
      constructor
      · rintro ⟨w', h⟩
        rcases withdrawTokensCb_ok.1 h with ⟨rfl, _⟩ | ⟨_, t', d, _, hd, h1, h2, _⟩
        · exact ⟨Nat.zero_le _, Nat.zero_le _⟩
        · have hfig : figure (·.unstaked) w p = d.unstaked := by
            have hd' : w.st.data.get none p = some d := hd
            unfold figure provider; rw [hd']
          exact ⟨by rw [hfig]; exact h1, h2⟩
      · rintro ⟨h1, h2⟩
        rcases Nat.eq_zero_or_pos v with h0 | h0
        · exact ⟨_, withdrawTokensCb_ok.2 (.inl ⟨h0, rfl⟩)⟩
        · cases hd : w.st.data.get none p with
          | none =>
            have : figure (·.unstaked) w p = 0 := by unfold figure provider; rw [hd]
            omega
          | some d =>
            have hfig : figure (·.unstaked) w p = d.unstaked := by unfold figure provider; rw [hd]
            rw [hfig] at h1
            exact ⟨_, withdrawTokensCb_ok.2 (.inr ⟨h0, t, d, ht, hd, h1, h2, rfl⟩)⟩
    | err =>
      simp only [CallbackFails, not_false_eq_true, iff_true]
      exact ⟨_, withdrawTokensCb_ok.2 (.inl ⟨rfl, rfl⟩)⟩
  | claim ps =>
    obtain ⟨t, ht⟩ := htok (by simp)
    cases o with
    | ok g r =>
      simp only [CallbackFails, not_lt]
      constructor
      · rintro ⟨w', h⟩
        rcases claimRewardsCb_ok.1 h with ⟨rfl, _⟩ | ⟨_, t', fee, _, rfl, h1, _⟩
        · simp
        · exact h1
      · intro h
        rcases Nat.eq_zero_or_pos r with h0 | h0
        · exact ⟨_, claimRewardsCb_ok.2 (.inl ⟨h0, rfl⟩)⟩
        · exact ⟨_, claimRewardsCb_ok.2 (.inr ⟨h0, t, _, ht, rfl, h, rfl⟩)⟩
    | err =>
      simp only [CallbackFails, not_false_eq_true, iff_true]
      exact ⟨_, rfl⟩
  | whitelist p a u =>
    obtain ⟨hnot, hrec⟩ := hr0.wl2 p a u hmem
    obtain ⟨d, hd⟩ := Option.ne_none_iff_exists'.1 hrec
    cases o with
    | ok g r =>
      have hq : (∃ l, LsQuote w.st.r a l) ↔ lsFor (supply w) (reserve w) a ≠ 0 := by
        unfold LsQuote lsFor supply reserve
        by_cases h0 : w.st.r.reserve = 0
        · simp only [h0, if_true, Nat.lt_irrefl, false_and, true_and, false_or]
          constructor
          · rintro ⟨l, h1, rfl⟩; omega
          · intro h; exact ⟨a, by omega, rfl⟩
        · simp only [h0, if_false, false_and, or_false]
          constructor
          · rintro ⟨l, h1, _, rfl⟩; exact Nat.ne_of_gt h1
          · intro h; exact ⟨_, Nat.pos_of_ne_zero h, Nat.pos_of_ne_zero h0, rfl⟩
      simp only [CallbackFails, not_or]
      rw [← ne_eq, ← ne_eq, ← hq]
      constructor
      · rintro ⟨w', h⟩
        obtain ⟨t, d', l, ht, _, hl, _⟩ := whitelistCb_true_ok.1 h
        exact ⟨by have ht' : w.st.lsToken = some t := ht
                  rw [ht']; simp, l, hl⟩
      · rintro ⟨h1, l, hl⟩
        obtain ⟨t, ht⟩ := Option.ne_none_iff_exists'.1 h1
        exact ⟨_, whitelistCb_true_ok.2 ⟨t, d, l, ht, hd, hl, rfl⟩⟩
    | err =>
      simp only [CallbackFails]
      constructor
      · rintro ⟨w', h⟩; exact (whitelistCb_false_ok.1 h).1
      · intro h
        have hself : a ≤ (credit w.egld w.self a).get 0 w.self := by rw [get_credit, if_pos rfl]; omega
        exact ⟨_, whitelistCb_false_ok.2 ⟨h, _, debit_ok.2 ⟨hself, rfl⟩, rfl⟩⟩

theorem events_deliver {w w' : World} {i : Nat} {o : Outcome} (hs : deliver w i o = .ok w') :
    w'.events = w.events ++ announced w (.deliver i o) w' := by
  obtain ⟨f, hf, hcb⟩ := deliver_ok hs
  simp only [announced, hf]
  rcases hcb with hcb | ⟨_, rfl⟩
  swap
  · rw [if_neg (by simp)]; simp [arrive]
  have hdead : w'.dead = w.dead := by
    have := (runCallback_flights hcb).2
    exact this
  rw [if_pos hdead]
  cases f with
  | delegate q a =>
    cases o with
    | ok g r => obtain ⟨_, d, hd, ha, rfl⟩ := addLiquidityCb_true_ok.1 hcb; simp [callbackEvents, arrive]
    | err => obtain ⟨t, d, ht, hd, ha, rfl⟩ := addLiquidityCb_false_ok.1 hcb; exact announce_commit ht
  | undelegate q a =>
    cases o with
    | ok g r => obtain ⟨t, d, ht, hd, h1, ha, rfl⟩ := removeLiquidityCb_true_ok.1 hcb; exact announce_commit ht
    | err => obtain ⟨t, d, ht, hd, ha, rfl⟩ := removeLiquidityCb_false_ok.1 hcb; exact announce_commit ht
  | withdraw q =>
    cases o with
    | ok v r =>
      rcases withdrawTokensCb_ok.1 hcb with ⟨h0, rfl⟩ | ⟨h0, t, d, ht, hd, _, _, rfl⟩
      · simp [callbackEvents, h0, arrive]
      · simp only [callbackEvents]
        rw [if_neg (by omega)]
        exact announce_commit ht
    | err =>
      rcases withdrawTokensCb_ok.1 hcb with ⟨h0, rfl⟩ | ⟨h0, _⟩
      · simp [callbackEvents, arrive]
      · omega
  | claim ps =>
    cases o with
    | ok g r =>
      rcases claimRewardsCb_ok.1 hcb with ⟨h0, rfl⟩ | ⟨h0, t, fee, ht, _, _, rfl⟩
      · simp [callbackEvents, h0, arrive]
      · simp only [callbackEvents]
        rw [if_neg (by omega)]
        rw [announce_commit (w := { arrive w i (.claim ps) (.ok g r) with
          events := (arrive w i (.claim ps) (.ok g r)).events ++ [.protocolRevenue fee (arrive w i (.claim ps) (.ok g r)).epoch] }) ht]
        rw [List.append_assoc]
        show w.events ++ ([.protocolRevenue fee w.epoch] ++ _) =
          w.events ++ (.protocolRevenue (w.st.r.fees + fee - w.st.r.fees) w.epoch :: _)
        rw [Nat.add_sub_cancel_left]
        rfl
    | err =>
      have h : (arrive w i (.claim ps) .err) = w' := Except.ok.inj hcb
      subst h
      simp [callbackEvents, arrive]
  | whitelist p a u =>
    cases o with
    | ok g r => obtain ⟨t, d, l, ht, hd, hq, rfl⟩ := whitelistCb_true_ok.1 hcb; exact announce_commit ht
    | err => obtain ⟨_, m, hm, rfl⟩ := whitelistCb_false_ok.1 hcb; simp [callbackEvents, arrive]

theorem events_step {w w' : World} {op : Op} (hr : RegInv w) (hs : step w op = .ok w') :
    w'.events = w.events ++ announced w op w' := by
  have hr0 : RegOk w.st.lsToken w.st.unstakeToken w.st.delegList w.st.undelegList w.st.data w.flights w.dead := hr
  cases op with
  | delegate c v => obtain ⟨_, _, _, m, t, p, e, l, _, ht, _, _, _, _, rfl⟩ := delegate_ok.1 hs; exact announce_commit ht
  | unDelegate c v ps =>
    obtain ⟨_, _, _, amount, t, m0, m1, m2, e, i, u, w1, w2, _, ht, _, _, _, _, _, hq, _, _, _, hi, hu, rfl⟩ := unDelegate_ok hs
    have hw1 : w1.events = w.events ∧ w1.st = w.st := by
      rcases hi with ⟨_, rfl⟩ | ⟨_, m, _, rfl⟩ <;> exact ⟨rfl, rfl⟩
    have hw2 : w2.events = w.events ∧ w2.st.lsToken = w.st.lsToken := by
      rcases hu with ⟨_, rfl⟩ | ⟨_, _, _, w3, n, m, hM, _, rfl⟩
      · exact ⟨hw1.1, by rw [hw1.2]⟩
      · cases hM <;> exact ⟨hw1.1, by show w1.st.lsToken = _; rw [hw1.2]⟩
    have he : e ≤ w.st.r.reserve := by
      rw [hq.2.2.2]
      exact Nat.div_le_of_le_mul (Nat.mul_le_mul_right _ hq.1)
    have := announce_commit (w := w2) (t := t) (s := w.st.state) (r := { w.st.r with
            lsSupply := w.st.r.lsSupply - amount, reserve := w.st.r.reserve - e,
            pending := w.st.r.pending - i, toUnstake := w.st.r.toUnstake + u }) (k := .removeLiquidity e) (c := c) (hw2.2.trans ht)
    rw [hw2.1] at this
    simp only [announced]
    rw [this]
    congr 2
    show EventKind.removeLiquidity e = .removeLiquidity (w.st.r.reserve - (w.st.r.reserve - e))
    congr 1
    omega
  | withdraw c v ps =>
    obtain ⟨_, _, _, uid, t, m0, m, E, N, _, ht, _, _, _, _, _, _, _, _, _, rfl⟩ := withdraw_ok hr0.tok hs
    exact announce_commit ht
  | upgrade => simp only [step, Except.ok.injEq] at hs; subst hs; simp [announced]
  | delegatePending c a =>
    obtain ⟨_, _, _, t, amt, sels, left, E, D, ht, _, _, _, _, _, _, _, _, _, rfl⟩ := delegatePending_ok hs
    exact announce_commit ht
  | unDelegatePending c a =>
    obtain ⟨_, _, _, t, amt, sels, left, E, D, ht, _, _, _, _, _, _, _, _, rfl⟩ := unDelegatePending_ok hs
    exact announce_commit ht
  | withdrawPending c p => obtain ⟨_, _, _, _, _, E, hE, rfl⟩ := withdrawPending_ok hs; simp [announced]
  | claimRewards c => obtain ⟨_, _, _, _, _, E, hE, rfl⟩ := claimRewards_ok hs; simp [announced]
  | claimFees c a => obtain ⟨_, _, _, _, _, m, hm, rfl⟩ := claimFees_ok hs; simp [announced]
  | whitelist c v p ad ts cap n apy => obtain ⟨_, _, _, _, hd, _, _, _, E, e1, e2, e3, rfl⟩ := whitelist_ok hs; simp [announced]
  | changeAdmin c p a => obtain ⟨_, _, d, hd, rfl⟩ := changeAdmin_ok.1 hs; simp [announced]
  | changeParams c p ts cap n apy e => obtain ⟨_, _, d, hd, _, rfl⟩ := changeParams_ok.1 hs; simp [announced]
  | migrate c v o => obtain ⟨_, _, _, _, t, l, ht, _, rfl⟩ := migrate_ok.1 hs; exact announce_commit ht
  | migratePending c v => obtain ⟨_, _, _, _, t, m, ht, hm, rfl⟩ := migratePending_ok.1 hs; exact announce_commit ht
  | addRewards c v => obtain ⟨_, t, m, ht, hm, rfl⟩ := addRewards_ok.1 hs; exact announce_commit ht
  | setMigrationSc c a => obtain ⟨_, _, _, rfl⟩ := setMigrationSc_ok.1 hs; simp [announced]
  | registerLsToken c v => obtain ⟨_, _, _, _, m, hm, rfl⟩ := registerLsToken_ok.1 hs; simp [announced]
  | registerUnstakeToken c v => obtain ⟨_, _, _, _, m, hm, rfl⟩ := registerUnstakeToken_ok.1 hs; simp [announced]
  | owner c cmd => obtain ⟨_, _, st, h, rfl⟩ := ownerCmd_ok.1 hs; simp [announced]
  | setScoringConfig c cfg => obtain ⟨_, _, _, rfl⟩ := setScoringConfig_ok.1 hs; simp [announced]
  | viewLsValue l =>
    simp only [step, bind_ok, Prod.exists, Except.ok.injEq] at hs
    obtain ⟨e, w1, h1, rfl⟩ := hs
    obtain ⟨_, _, rfl⟩ := viewLsValue_ok.1 h1
    simp [announced]
  | viewEgldPosition l =>
    simp only [step, bind_ok, Prod.exists, Except.ok.injEq] at hs
    obtain ⟨e, w1, h1, rfl⟩ := hs
    obtain ⟨_, _, rfl⟩ := viewEgldPosition_ok.1 h1
    simp [announced]
  | deliver i o => exact events_deliver hs
  | issued i o => obtain ⟨y, E, hy, _, hE, rfl⟩ := issued_ok.1 hs; simp [announced]
  | transferLs a b v => obtain ⟨_, _, m, hm, rfl⟩ := transferLs_ok.1 hs; simp [announced]
  | transferNft a b n v => obtain ⟨_, _, m, hm, rfl⟩ := transferNft_ok.1 hs; simp [announced]
  | fund a v => obtain ⟨_, rfl⟩ := fund_ok.1 hs; simp [announced]
  | advance e => obtain ⟨_, rfl⟩ := advance_ok.1 hs; simp [announced]
  | changeOwner c d => obtain ⟨_, _, rfl⟩ := changeOwner_ok.1 hs; simp [announced]
  | transferEgld s d v => obtain ⟨_, _, m, hm, rfl⟩ := transferEgld_ok.1 hs; simp [announced]
  | giveEgld s v => obtain ⟨_, _, m, hm, rfl⟩ := giveEgld_ok.1 hs; simp [announced]
  | giveLs s v => obtain ⟨_, _, m, hm, rfl⟩ := giveLs_ok.1 hs; simp [announced]
  | giveUnstake s n v => obtain ⟨_, _, m, hm, rfl⟩ := giveUnstake_ok.1 hs; simp [announced]
  | burnLs a v => obtain ⟨_, m, hm, rfl⟩ := holderBurnLs_ok.1 hs; simp [announced]
  | burnUnstake a n v => obtain ⟨_, m, hm, rfl⟩ := holderBurnNft_ok.1 hs; simp [announced]
  | starve i o => obtain ⟨f, hf, rfl⟩ := starve_ok hs; simp [announced, arrive]

theorem lastFigures_append (l l' : List Event) : lastFigures (l ++ l') = (lastFigures l').or (lastFigures l) := by
  induction l with
  | nil => simp [lastFigures]
  | cons e l ih =>
    simp only [List.cons_append, lastFigures, ih]
    cases lastFigures l' with
    | some r => rfl
    | none => simp

theorem revenue_append (l l' : List Event) : revenue (l ++ l') = revenue l + revenue l' := by
  induction l with
  | nil => simp [revenue]
  | cons e l ih => cases e <;> simp only [List.cons_append, revenue, ih]; omega

end LS
