import Verif.Props.Withdraw

/-! When deposits and redemptions succeed: C15, C16, C35. -/

namespace LS
open Spec Demo

/-- **C15.** An active contract with an issued LS token accepts every deposit of at least one EGLD that is worth at least one
LS unit. -/
theorem C15_deposit_accepted {w : World} {c : Addr} {a : Nat} (ha : w.st.state = .active)
    (ht : w.st.lsToken ≠ none) (hc : c ≠ w.self) (hf : a ≤ egldOf w c) (h1 : oneEgld ≤ a)
    (h2 : 0 < lsFor (supply w) (reserve w) a) : ∃ w', step w (.delegate c a) = .ok w' := by
  obtain ⟨p, e, hpe, hsp⟩ := split_exists w.st.r.toUnstake a
  obtain ⟨t, ht⟩ : ∃ t, w.st.lsToken = some t := by
    cases h : w.st.lsToken with
    | none => exact absurd h ht
    | some t => exact ⟨t, rfl⟩
  have hone : MIN_EGLD = oneEgld := rfl
  have hpos : 0 < oneEgld := MIN_EGLD_pos
  have hsum := hsp.sum
  refine ⟨_, delegate_ok.2 ⟨hc, by omega, ha, _, t, p, e, lsFor (supply w) (reserve w) a,
    debit_ok.2 ⟨hf, rfl⟩, ht, hpe, fun hp => ?_, fun he => ?_, lsQuote_iff.2 ⟨h2, rfl⟩, rfl⟩⟩
  · rcases (hsp.clean hp).1 with h | h
    · exact .inr h
    · exact .inl h
  · rcases Nat.eq_zero_or_pos p with h0 | h0
    · omega
    · rcases (hsp.clean h0).2 with h | h <;> omega

/-- **C15**, exactly: a deposit is accepted if and only if the contract is active with an issued LS token, the sender has the
amount, it is worth an LS unit, and what is left after matching it with the un-delegation queue brings pending to one EGLD. -/
theorem C15_deposit_iff {w : World} {c : Addr} {a : Nat} : (∃ w', step w (.delegate c a) = .ok w') ↔
    w.st.state = .active ∧ w.st.lsToken ≠ none ∧ c ≠ w.self ∧ 0 < a ∧ a ≤ egldOf w c ∧
    0 < lsFor (supply w) (reserve w) a ∧
    ∀ i u, IsSplit (toUndelegate w) a i u → 0 < u → oneEgld ≤ pendingEgld w + u := by
  constructor
  · rintro ⟨w', h⟩
    obtain ⟨h1, h2, h3, m, t, p, e, l, hm, ht, hpe, _, hmin, hq, _⟩ := delegate_ok.1 h
    obtain ⟨hl, rfl⟩ := lsQuote_iff.1 hq
    refine ⟨h3, by rw [ht]; simp, h1, h2, debit_le hm, hl, fun i u hs hu => ?_⟩
    obtain ⟨_, rfl⟩ := hs.unique (split_of hpe)
    exact hmin hu
  · rintro ⟨h1, h2, h3, h4, h5, h6, h7⟩
    obtain ⟨p, e, hpe, hsp⟩ := split_exists w.st.r.toUnstake a
    obtain ⟨t, ht⟩ := Option.ne_none_iff_exists'.1 h2
    refine ⟨_, delegate_ok.2 ⟨h3, h4, h1, _, t, p, e, lsFor (supply w) (reserve w) a,
      debit_ok.2 ⟨h5, rfl⟩, ht, hpe, fun hp => ?_, fun he => h7 p e hsp he, lsQuote_iff.2 ⟨h6, rfl⟩, rfl⟩⟩
    rcases (hsp.clean hp).1 with h | h
    · exact .inr h
    · exact .inl h

/-- **C15** for a pool that is not bricked: some amount is always accepted, from anybody who has it. -/
theorem C15_some_deposit_accepted {w : World} (hr : Reachable w) (ha : w.st.state = .active) (ht : w.st.lsToken ≠ none)
    (hb : 0 < supply w ∨ reserve w = 0) :
    ∀ c, c ≠ w.self → ∀ a, oneEgld ≤ a → reserve w ≤ a → a ≤ egldOf w c → ∃ w', step w (.delegate c a) = .ok w' := by
  intro c hc a h1 h2 h3
  have hpos : 0 < oneEgld := MIN_EGLD_pos
  refine C15_deposit_accepted ha ht hc h3 h1 ?_
  unfold lsFor
  split
  · omega
  · next hR =>
    have hS := hb.resolve_right hR
    have := (C06_reserve_positive hr).2 hS
    exact Nat.div_pos (Nat.le_trans h2 (Nat.le_mul_of_pos_right a hS)) this

example : Reachable staked ∧ staked.st.state = .active ∧ staked.st.lsToken = some 500 ∧ 0 < supply staked ∧
    0 < lsFor (supply staked) (reserve staked) oneEgld ∧ oneEgld ≤ egldOf staked 13 :=
  ⟨staked_reachable, by decide +kernel, by decide +kernel, by decide +kernel, by decide +kernel, by decide +kernel⟩

/-- **C16.** An active contract with both tokens issued accepts every redemption, by the holder, of LS tokens worth at least
one EGLD. -/
theorem C16_redemption_accepted {w : World} {c : Addr} {t : TokenId} {l : Nat} (hr : ReachableBy HonestManager w)
    (ha : w.st.state = .active) (ht : w.st.lsToken = some t) (hu : w.st.unstakeToken ≠ none) (hc : c ≠ w.self)
    (hl : l ≤ lsOf w c) (h1 : oneEgld ≤ egldFor (supply w) (reserve w) l) :
    ∃ w', step w (.unDelegate c 0 [⟨t, 0, l⟩]) = .ok w' := by
  have hR := reachableBy_reachable hr
  have hsol := C09_solvent hr
  have hone : MIN_EGLD = oneEgld := rfl
  have hpos : 0 < oneEgld := MIN_EGLD_pos
  unfold pendingEgld withdrawable feesReserve egldOf at hsol
  have h1' : oneEgld ≤ l * w.st.r.reserve / w.st.r.lsSupply := h1
  have hl0 : 0 < l := by
    rcases Nat.eq_zero_or_pos l with h0 | h0
    · subst h0; rw [Nat.zero_mul, Nat.zero_div] at h1'; omega
    · exact h0
  have hS : l ≤ w.st.r.lsSupply := Nat.le_trans hl (ls_le_supply hR c)
  have hsplit : ∀ i u, getActionAmount w.st.r.pending (l * w.st.r.reserve / w.st.r.lsSupply) = .ok (i, u) →
      IsSplit w.st.r.pending (l * w.st.r.reserve / w.st.r.lsSupply) i u := fun i u h => split_of h
  apply NoErr.all
  intro e
  refine ne_unDelegate (reachable_nftInv hR) ht (.inl hl) (.inl (by omega)) (.inl fun _ _ _ _ => hu) (.inl hc) (.inl ha) (.inl hl0) (.inl hS)
    (.inl (by omega)) (.inl (by omega)) (.inl fun i u h hi => ?_) (.inl fun i u h hu => ?_)
  · rcases ((hsplit i u h).clean hi).1 with h | h
    · exact .inr h
    · exact .inl h
  · have hsum := (hsplit i u h).sum
    rcases Nat.eq_zero_or_pos i with h0 | h0
    · omega
    · rcases ((hsplit i u h).clean h0).2 with h | h <;> omega

/-- **C16**, exactly: a redemption is accepted if and only if the contract is active, the holder has the tokens, they are worth
something, and what is left after matching it with pending brings the un-delegation queue to one EGLD (and the unstake token
is issued, when something is left). -/
theorem C16_redemption_iff {w : World} {c : Addr} {t : TokenId} {l : Nat} (hr : ReachableBy HonestManager w)
    (ht : w.st.lsToken = some t) :
    (∃ w', step w (.unDelegate c 0 [⟨t, 0, l⟩]) = .ok w') ↔
      w.st.state = .active ∧ c ≠ w.self ∧ 0 < l ∧ l ≤ lsOf w c ∧ 0 < egldFor (supply w) (reserve w) l ∧
      ∀ i u, IsSplit (pendingEgld w) (egldFor (supply w) (reserve w) l) i u → 0 < u →
        oneEgld ≤ toUndelegate w + u ∧ w.st.unstakeToken ≠ none := by
  have hR := reachableBy_reachable hr
  constructor
  · rintro ⟨w', h⟩
    obtain ⟨h1, _, h3, l2, t2, m0, m1, m2, e, i, u, w1, w2, hps, ht2, h4, _, _, hm1, _, hq, hiu, _, _, _, hw2, _⟩ := unDelegate_ok h
    simp only [List.cons.injEq, Payment.mk.injEq, and_true] at hps
    obtain ⟨rfl, _, rfl⟩ := hps
    obtain ⟨q1, q2, q3, q4⟩ := hq
    have he : e = egldFor (supply w) (reserve w) l := q4
    refine ⟨h3, h1, h4, debit_le hm1, by rw [← he]; exact q3, fun i' u' hs hu' => ?_⟩
    rw [← he] at hs
    obtain ⟨_, rfl⟩ := hs.unique (split_of hiu)
    rcases hw2 with ⟨h0, _⟩ | ⟨_, hmin, hu, _⟩
    · omega
    · exact ⟨hmin, hu⟩
  · rintro ⟨h1, h2, h3, h4, h5, h6⟩
    have hsol := C09_solvent hr
    unfold pendingEgld withdrawable feesReserve egldOf at hsol
    have hS : l ≤ w.st.r.lsSupply := Nat.le_trans h4 (ls_le_supply hR c)
    apply NoErr.all
    intro e
    refine ne_unDelegate (reachable_nftInv hR) ht (.inl h4) (.inl (by omega)) (.inl fun i u h hu => (h6 i u (split_of h) hu).2)
      (.inl h2) (.inl h1) (.inl h3) (.inl hS) (.inl (by omega)) (.inl h5) (.inl fun i u h hi => ?_) (.inl fun i u h hu => (h6 i u (split_of h) hu).1)
    rcases ((split_of h).clean hi).1 with h | h
    · exact .inr h
    · exact .inl h

/-- User 11 holds LS tokens worth more than one EGLD. -/
example : ReachableBy HonestManager (run fresh busy) ∧ (run fresh busy).st.state = .active ∧
    (run fresh busy).st.lsToken = some 500 ∧ (run fresh busy).st.unstakeToken = some 501 ∧ E 1 ≤ lsOf (run fresh busy) 11 ∧
    oneEgld ≤ egldFor (supply (run fresh busy)) (reserve (run fresh busy)) (E 1) :=
  ⟨reachableBy_honest (by decide +kernel), by decide +kernel, by decide +kernel, by decide +kernel, by decide +kernel,
    by decide +kernel⟩

/-- Dust is refused: an amount worth less than one EGLD may fail when there is nothing to match it with. -/
example : Reachable settled ∧ 1000 ≤ lsOf settled 11 ∧ works settled (.unDelegate 11 0 [⟨500, 0, 1000⟩]) = false :=
  ⟨settled_reachable, by decide +kernel, by decide +kernel⟩

/-- Reserve without LS tokens: no deposit can be priced. -/
def Bricked (w : World) : Prop := supply w = 0 ∧ 0 < reserve w

theorem bricked_step {H : Prop} {a a' : Acct} (h : AStep H a a') (h1 : a.r.lsSupply = 0) (h2 : 0 < a.r.reserve) :
    a'.r.lsSupply = 0 ∧ 0 < a'.r.reserve := by
  have noquote : ∀ v l, ¬ LsQuote a.r v l := by
    rintro v l ⟨hl, ⟨_, h⟩ | ⟨h, _⟩⟩
    · rw [h1, Nat.mul_zero, Nat.zero_div] at h; omega
    · omega
  cases h with
  | deposit p e l hp hpe hq h => exact absurd hq (noquote _ _)
  | redeem l i u e hl hlt hq hs hi hb h => exact absurd hq.1 (by omega)
  | whitelistOk x l g hq h => exact absurd hq (noquote _ _)
  | migrate v l hq h => exact absurd hq (noquote _ _)
  | claim ret fee g hf hg h => subst h; exact ⟨h1, by dsimp only; omega⟩
  | reward v h => subst h; exact ⟨h1, by dsimp only; omega⟩
  | stay g h => subst h; exact ⟨h1, h2⟩
  | withdraw v t ht hu hb h => subst h; exact ⟨h1, h2⟩
  | delegateOut x hx hb h => subst h; exact ⟨h1, h2⟩
  | undelegateOut x hx h => subst h; exact ⟨h1, h2⟩
  | delegateOk x g hx h => subst h; exact ⟨h1, h2⟩
  | delegateErr x hx h => subst h; exact ⟨h1, h2⟩
  | undelegateOk x g hx hs h => subst h; exact ⟨h1, h2⟩
  | undelegateErr x hx h => subst h; exact ⟨h1, h2⟩
  | withdrawIn x hx hu h => subst h; exact ⟨h1, h2⟩
  | claimFees hb h => subst h; exact ⟨h1, h2⟩
  | migratePending v h => subst h; exact ⟨h1, h2⟩

/-- A bricked pool stays bricked for ever and refuses every deposit, whitelisting and migration. -/
theorem bricked_forever {w w' : World} (hr : Reachable w) (hb : Bricked w) (h : Later w w') :
    Bricked w' ∧ ∀ c a, ¬ ∃ w'', step w' (.delegate c a) = .ok w'' := by
  have hB : Bricked w' := by
    induction h with
    | nil => exact hb
    | @snoc w1 w2 op ht hs _ ih =>
      exact bricked_step (acct_step op (reachable_regInv (reachable_trace hr ht)) (reachable_issInv (reachable_trace hr ht)) hs) ih.1 ih.2
  refine ⟨hB, fun c a => ?_⟩
  rintro ⟨w'', hs⟩
  obtain ⟨_, _, _, m, t, p, e, l, _, _, _, _, _, ⟨hl, hq⟩, _⟩ := delegate_ok.1 hs
  obtain ⟨h1, h2⟩ := hB
  unfold supply at h1
  unfold reserve at h2
  rcases hq with ⟨_, hq⟩ | ⟨hq, _⟩
  · rw [h1, Nat.mul_zero, Nat.zero_div] at hq; omega
  · omega

/-- **C35 is false of the code**: 10^-18 EGLD of rewards before the first deposit, sent by anybody, blocks deposits for
ever. -/
theorem C35_false : ∃ w, Reachable w ∧ w.st.state = .active ∧ w.st.lsToken ≠ none ∧ w.st.unstakeToken ≠ none ∧
    (∃ w0, Reachable w0 ∧ works w0 (.delegate 11 (E 5)) = true ∧ step w0 (.addRewards 99 1) = .ok w) ∧
    ∀ w', Later w w' → ∀ c a, ¬ ∃ w'', step w' (.delegate c a) = .ok w'' := by
  have hr : Reachable (run active [.fund 99 1]) := reachable_run active_reachable _
  have hw : works (run active [.fund 99 1]) (.addRewards 99 1) = true := by decide +kernel
  refine ⟨exec (run active [.fund 99 1]) (.addRewards 99 1), .step _ hr (step_exec hw), by decide +kernel, by decide +kernel,
    by decide +kernel, ⟨_, hr, by decide +kernel, step_exec hw⟩, fun w' hl => ?_⟩
  refine (bricked_forever (.step _ hr (step_exec hw)) ⟨by decide +kernel, by decide +kernel⟩ hl).2

/-- The same after everybody left: rewards that arrive when no LS tokens exist. -/
example : let w := run active [.whitelist 1 (E 1) 22 42 (E 1000) 0 20 900, .deliver 0 (.ok 0 0), .claimRewards 1,
      .unDelegate 1 0 [⟨500, 0, E 1⟩], .deliver 0 (.ok (E 1) (E 1))]
    Reachable w ∧ Bricked w := ⟨reachable_run active_reachable _, by decide +kernel, by decide +kernel⟩

/-- A transaction that raises the reserve without minting is a donation of rewards or the answer to a claim. -/
theorem reserve_grows {w w' : World} {op : Op} (hr : RegInv w) (hs : step w op = .ok w') (h1 : supply w' = supply w)
    (h2 : reserve w < reserve w') :
    (∃ c v, op = .addRewards c v) ∨ (∃ i o ps, op = .deliver i o ∧ w.flights[i]? = some (.claim ps)) := by
  have hr0 : RegOk w.st.lsToken w.st.unstakeToken w.st.delegList w.st.undelegList w.st.data w.flights w.dead := hr
  unfold supply at h1
  unfold reserve at h2
  have same : ∀ {w' : World}, w.st.r.reserve < w'.st.r.reserve → w'.st.r.reserve = w.st.r.reserve → False := by
    intro w' h h'; omega
  cases op with
  | delegate c v =>
    obtain ⟨_, _, _, m, t, p, e, l, _, _, _, _, _, hq, rfl⟩ := delegate_ok.1 hs
    have hl := hq.1
    have h1' : w.st.r.lsSupply + l = w.st.r.lsSupply := h1
    omega
  | unDelegate c v ps =>
    obtain ⟨t, l, i, u, k, _, _, _, _, _, _, _, _, hres, _⟩ := C02_unDelegate_pays_pro_rata hs
    unfold reserve at hres; omega
  | withdraw c v ps =>
    obtain ⟨_, _, _, uid, t, m0, m, E, N, _, ht, _, _, _, _, _, _, _, _, _, rfl⟩ := withdraw_ok hr0.tok hs
    exact (same h2 rfl).elim
  | upgrade => simp only [step, Except.ok.injEq] at hs; subst hs; exact (same h2 rfl).elim
  | delegatePending c a =>
    obtain ⟨_, _, _, t, amt, sels, left, E, D, ht, _, _, _, _, _, _, _, _, _, rfl⟩ := delegatePending_ok hs
    exact (same h2 rfl).elim
  | unDelegatePending c a =>
    obtain ⟨_, _, _, t, amt, sels, left, E, D, ht, _, _, _, _, _, _, _, _, rfl⟩ := unDelegatePending_ok hs
    exact (same h2 rfl).elim
  | withdrawPending c p =>
    obtain ⟨_, _, _, _, _, E, _, rfl⟩ := withdrawPending_ok hs
    exact (same h2 rfl).elim
  | claimRewards c =>
    obtain ⟨_, _, _, _, _, E, _, rfl⟩ := claimRewards_ok hs
    exact (same h2 rfl).elim
  | claimFees c a =>
    obtain ⟨_, _, _, _, ht, m, _, rfl⟩ := claimFees_ok hs
    exact (same h2 rfl).elim
  | whitelist c v p ad ts cap n apy =>
    obtain ⟨_, _, _, _, _, _, _, _, E, _, _, _, rfl⟩ := whitelist_ok hs
    exact (same h2 rfl).elim
  | changeAdmin c p a =>
    obtain ⟨_, _, d, hd, rfl⟩ := changeAdmin_ok.1 hs
    exact (same h2 rfl).elim
  | changeParams c p ts cap n apy e =>
    obtain ⟨_, _, d, hd, _, rfl⟩ := changeParams_ok.1 hs
    exact (same h2 rfl).elim
  | migrate c v o =>
    obtain ⟨_, _, _, _, t, l, ht, hq, rfl⟩ := migrate_ok.1 hs
    have hl := hq.1
    have h1' : w.st.r.lsSupply + l = w.st.r.lsSupply := h1
    omega
  | migratePending c v =>
    obtain ⟨_, _, _, _, t, m, ht, _, rfl⟩ := migratePending_ok.1 hs
    exact (same h2 rfl).elim
  | addRewards c v => exact .inl ⟨c, v, rfl⟩
  | setMigrationSc c a =>
    obtain ⟨_, rfl, _, rfl⟩ := setMigrationSc_ok.1 hs
    exact (same h2 rfl).elim
  | registerLsToken c v =>
    obtain ⟨_, rfl, hn, _, m, _, rfl⟩ := registerLsToken_ok.1 hs
    exact (same h2 rfl).elim
  | registerUnstakeToken c v =>
    obtain ⟨_, rfl, hn, _, m, _, rfl⟩ := registerUnstakeToken_ok.1 hs
    exact (same h2 rfl).elim
  | issued i o =>
    obtain ⟨⟨k, u, v⟩, E, _, _, _, rfl⟩ := issued_ok.1 hs
    cases k <;> exact (same h2 rfl).elim
  | owner c cmd =>
    obtain ⟨_, rfl, st, hc, rfl⟩ := ownerCmd_ok.1 hs
    obtain ⟨s, fr, acc, mr, ma, ms, ub, mg, rfl⟩ := applyOwnerCmd_ok hc
    exact (same h2 rfl).elim
  | setScoringConfig c cfg =>
    obtain ⟨_, hm, _, rfl⟩ := setScoringConfig_ok.1 hs
    exact (same h2 rfl).elim
  | viewLsValue l => rw [(C28_views_change_nothing (x := l) (y := 0)).2.2.1 hs] at h2; omega
  | viewEgldPosition l => rw [(C28_views_change_nothing (x := l) (y := 0)).2.2.2 hs] at h2; omega
  | deliver i o =>
    obtain ⟨f, hf, hcb⟩ := deliver_ok hs
    rcases hcb with hcb | ⟨_, rfl⟩
    swap
    · exact (same h2 rfl).elim
    cases f with
    | delegate p a =>
      cases o with
      | ok g r => obtain ⟨ht, d, _, _, rfl⟩ := addLiquidityCb_true_ok.1 hcb; exact (same h2 rfl).elim
      | err => obtain ⟨t, d, ht, _, _, rfl⟩ := addLiquidityCb_false_ok.1 hcb; exact (same h2 rfl).elim
    | undelegate p a =>
      cases o with
      | ok g r => obtain ⟨t, d, ht, _, _, _, rfl⟩ := removeLiquidityCb_true_ok.1 hcb; exact (same h2 rfl).elim
      | err => obtain ⟨t, d, ht, _, _, rfl⟩ := removeLiquidityCb_false_ok.1 hcb; exact (same h2 rfl).elim
    | withdraw p =>
      have h' : ∃ v, withdrawTokensCb (arrive w i (.withdraw p) o) p v = .ok w' := by
        cases o with
        | ok g r => exact ⟨g, hcb⟩
        | err => exact ⟨0, hcb⟩
      obtain ⟨v, h'⟩ := h'
      rcases withdrawTokensCb_ok.1 h' with ⟨_, rfl⟩ | ⟨_, t, d, ht, _, _, _, rfl⟩ <;> exact (same h2 rfl).elim
    | claim ps => exact .inr ⟨i, o, ps, rfl, hf⟩
    | whitelist p a u =>
      cases o with
      | ok g r =>
        obtain ⟨t, d, l, ht, _, hq, rfl⟩ := whitelistCb_true_ok.1 hcb
        have hl := hq.1
        have h1' : w.st.r.lsSupply + l = w.st.r.lsSupply := h1
        omega
      | err => obtain ⟨ht, m, _, rfl⟩ := whitelistCb_false_ok.1 hcb; exact (same h2 rfl).elim
  | transferLs s d v => obtain ⟨_, _, m, _, rfl⟩ := transferLs_ok.1 hs; exact (same h2 rfl).elim
  | transferNft s d n v => obtain ⟨_, _, m, _, rfl⟩ := transferNft_ok.1 hs; exact (same h2 rfl).elim
  | fund a v => obtain ⟨_, rfl⟩ := fund_ok.1 hs; exact (same h2 rfl).elim
  | advance e => obtain ⟨h1, rfl⟩ := advance_ok.1 hs; exact (same h2 rfl).elim
  | changeOwner c d => obtain ⟨_, _, rfl⟩ := changeOwner_ok.1 hs; exact (same h2 rfl).elim
  | transferEgld s d v => obtain ⟨_, _, m, hm, rfl⟩ := transferEgld_ok.1 hs; exact (same h2 rfl).elim
  | giveEgld s v => obtain ⟨_, _, m, hm, rfl⟩ := giveEgld_ok.1 hs; exact (same h2 rfl).elim
  | giveLs s v => obtain ⟨_, _, m, hm, rfl⟩ := giveLs_ok.1 hs; exact (same h2 rfl).elim
  | giveUnstake s n v => obtain ⟨_, _, m, hm, rfl⟩ := giveUnstake_ok.1 hs; exact (same h2 rfl).elim
  | burnLs a v => obtain ⟨_, m, hm, rfl⟩ := holderBurnLs_ok.1 hs; exact (same h2 rfl).elim
  | burnUnstake a n v => obtain ⟨_, m, hm, rfl⟩ := holderBurnNft_ok.1 hs; exact (same h2 rfl).elim
  | starve i o => obtain ⟨f, hf, rfl⟩ := starve_ok hs; exact (same h2 rfl).elim

theorem brick_cause {H : Prop} {a a' : Acct} (h : AStep H a a') (h0 : 0 < a.r.lsSupply ∨ a.r.reserve = 0)
    (h1 : a'.r.lsSupply = 0) (h2 : 0 < a'.r.reserve) :
    a.r.lsSupply = 0 ∧ a.r.reserve = 0 := by
  cases h with
  | deposit p e l hp hpe hq h => subst h; have := hq.1; dsimp only at h1; omega
  | redeem l i u e hl hlt hq hs hi hb h =>
    subst h
    dsimp only at h1 h2
    have hle := hq.1
    have hls : l = a.r.lsSupply := by omega
    have he := hq.2.2.2
    have hS := hq.2.1
    rw [hls, Nat.mul_div_cancel_left _ (by omega)] at he
    omega
  | whitelistOk x l g hq h => subst h; have := hq.1; dsimp only at h1; omega
  | migrate v l hq h => subst h; have := hq.1; dsimp only at h1; omega
  | claim ret fee g hf hg h => subst h; dsimp only at h1 h2; omega
  | reward v h => subst h; dsimp only at h1 h2; omega
  | stay g h => subst h; dsimp only at h1 h2; omega
  | withdraw v t ht hu hb h => subst h; dsimp only at h1 h2; omega
  | delegateOut x hx hb h => subst h; dsimp only at h1 h2; omega
  | undelegateOut x hx h => subst h; dsimp only at h1 h2; omega
  | delegateOk x g hx h => subst h; dsimp only at h1 h2; omega
  | delegateErr x hx h => subst h; dsimp only at h1 h2; omega
  | undelegateOk x g hx hs h => subst h; dsimp only at h1 h2; omega
  | undelegateErr x hx h => subst h; dsimp only at h1 h2; omega
  | withdrawIn x hx hu h => subst h; dsimp only at h1 h2; omega
  | claimFees hb h => subst h; dsimp only at h1 h2; omega
  | migratePending v h => subst h; dsimp only at h1 h2; omega

/-- **C35, what does hold.**  The full claim is "no reachable state refuses every deposit for ever", refuted by `C35_false`.
True is: an active pool that is not bricked accepts deposits (`C15_some_deposit_accepted`), and the only transactions that can
brick it are `addRewards` and the answer to a reward claim, made while no LS tokens exist.  In particular a pool in which LS
tokens exist throughout never bricks. -/
theorem C35_partial {w w' : World} {op : Op} (hr : Reachable w) (hb : ¬ Bricked w) (hs : step w op = .ok w') (hb' : Bricked w') :
    supply w = 0 ∧ reserve w = 0 ∧
    ((∃ c v, op = .addRewards c v) ∨ (∃ i o ps, op = .deliver i o ∧ w.flights[i]? = some (.claim ps))) := by
  have h0 : 0 < (acct w).r.lsSupply ∨ (acct w).r.reserve = 0 := by
    unfold Bricked supply reserve at hb
    dsimp only [acct]
    omega
  obtain ⟨h1, h2⟩ := brick_cause (acct_step op (reachable_regInv hr) (reachable_issInv hr) hs) h0 hb'.1 hb'.2
  refine ⟨h1, h2, reserve_grows (reachable_regInv hr) hs ?_ ?_⟩
  · rw [hb'.1]; exact h1.symm
  · have := hb'.2; unfold reserve at this ⊢; dsimp only [acct] at h2; omega

end LS
