import Verif.Proofs.Invariants

/-! What no transaction changes: addresses, token ids, configuration. -/

namespace LS

/-- The configuration written by the owner's setters. -/
structure Config where
  state : CState
  feeRate : Nat
  accumulator : Addr
  roundsPerEpoch : UInt64
  minimumRounds : UInt64
  maxDelegationAddresses : Nat
  maxSelectedProviders : Nat
  unbondPeriod : UInt64
  managers : List Addr

def config (st : Store) : Config :=
  ⟨st.state, st.feeRate, st.accumulator, st.roundsPerEpoch, st.minimumRounds, st.maxDelegationAddresses,
    st.maxSelectedProviders, st.unbondPeriod, st.managers⟩

/-- What a successful transaction does to everything that is not accounting. -/
structure Frame (w : World) (op : Op) (w' : World) : Prop where
  self : w'.self = w.self
  owner : w'.owner = w.owner ∨ op = .changeOwner w.owner w'.owner
  contracts : w'.contracts = w.contracts
  lsT : w'.st.lsToken = w.st.lsToken ∨
    ∃ i u v id, op = .issued i (some id) ∧ w.issues[i]? = some ⟨.ls, u, v⟩ ∧ w.st.lsToken = none ∧
      w'.st = { w.st with lsToken := some id, lsPending := false }
  usT : w'.st.unstakeToken = w.st.unstakeToken ∨
    ∃ i u v id, op = .issued i (some id) ∧ w.issues[i]? = some ⟨.unstake, u, v⟩ ∧ w.st.unstakeToken = none ∧
      w'.st = { w.st with unstakeToken := some id, unstakePending := false }
  quiet : w.st.lsToken = none → w'.st.r = w.st.r
  cfg : config w'.st = config w.st ∨ ∃ cmd, op = .owner w.owner cmd ∧ applyOwnerCmd w.st cmd = .ok w'.st
  mig : w'.st.migrationSc = w.st.migrationSc ∨
    ∃ a, op = .setMigrationSc w.owner a ∧ w'.st = { w.st with migrationSc := some a }
  scor : w'.st.scoring = w.st.scoring ∨
    ∃ c cfg, op = .setScoringConfig c cfg ∧ isManager w c = true ∧ w'.st = { w.st with scoring := some cfg }

theorem Frame.of {w w' : World} {op : Op} {r : Reserves} {dl ul : List Addr} {D : Map Addr (Option ProviderData)}
    {N : Map UInt64 Nat} (h1 : w'.self = w.self) (h2 : w'.owner = w.owner) (h3 : w'.contracts = w.contracts)
    (h4 : w'.st = { w.st with r := r, delegList := dl, undelegList := ul, data := D, unstakeNonce := N })
    (h5 : w.st.lsToken ≠ none ∨ r = w.st.r) : Frame w op w' := by
  refine ⟨h1, .inl h2, h3, .inl ?_, .inl ?_, fun h => ?_, .inl ?_, .inl ?_, .inl ?_⟩ <;> rw [h4]
  · exact h5.resolve_left (fun hn => hn h)
  · rfl

theorem Frame.same {w : World} {op : Op} : Frame w op w := .of rfl rfl rfl rfl (.inr rfl)

theorem frame_deliver {w w' : World} {i : Nat} {o : Outcome} (hs : deliver w i o = .ok w') : Frame w (.deliver i o) w' := by
  obtain ⟨f, hf, hcb⟩ := deliver_ok hs
  rcases hcb with hcb | ⟨_, rfl⟩
  swap
  · exact .of rfl rfl rfl rfl (.inr rfl)
  cases f with
  | delegate p a =>
    cases o with
    | ok g r => obtain ⟨ht, d, _, _, rfl⟩ := addLiquidityCb_true_ok.1 hcb; exact .of rfl rfl rfl rfl (.inl ht)
    | err =>
      obtain ⟨t, d, ht, _, _, rfl⟩ := addLiquidityCb_false_ok.1 hcb
      exact .of rfl rfl rfl rfl (.inl (fun hn => by have h' : w.st.lsToken = some t := ht; rw [hn] at h'; cases h'))
  | undelegate p a =>
    cases o with
    | ok g r =>
      obtain ⟨t, d, ht, _, _, _, rfl⟩ := removeLiquidityCb_true_ok.1 hcb
      exact .of rfl rfl rfl rfl (.inl (fun hn => by have h' : w.st.lsToken = some t := ht; rw [hn] at h'; cases h'))
    | err =>
      obtain ⟨t, d, ht, _, _, rfl⟩ := removeLiquidityCb_false_ok.1 hcb
      exact .of rfl rfl rfl rfl (.inl (fun hn => by have h' : w.st.lsToken = some t := ht; rw [hn] at h'; cases h'))
  | withdraw p =>
    have h' : ∃ v, withdrawTokensCb (arrive w i (.withdraw p) o) p v = .ok w' := by
      cases o with
      | ok g r => exact ⟨g, hcb⟩
      | err => exact ⟨0, hcb⟩
    obtain ⟨v, h'⟩ := h'
    rcases withdrawTokensCb_ok.1 h' with ⟨_, rfl⟩ | ⟨_, t, d, ht, _, _, _, rfl⟩
    · exact .of rfl rfl rfl rfl (.inr rfl)
    · exact .of rfl rfl rfl rfl (.inl (fun hn => by have h' : w.st.lsToken = some t := ht; rw [hn] at h'; cases h'))
  | claim ps =>
    cases o with
    | ok g r =>
      rcases claimRewardsCb_ok.1 hcb with ⟨_, rfl⟩ | ⟨_, t, fee, ht, _, _, rfl⟩
      · exact .of rfl rfl rfl rfl (.inr rfl)
      · exact .of rfl rfl rfl rfl (.inl (fun hn => by have h' : w.st.lsToken = some t := ht; rw [hn] at h'; cases h'))
    | err =>
      simp only [runCallback, claimRewardsCb, Except.ok.injEq] at hcb
      subst hcb; exact .of rfl rfl rfl rfl (.inr rfl)
  | whitelist p a u =>
    cases o with
    | ok g r =>
      obtain ⟨t, d, l, ht, _, _, rfl⟩ := whitelistCb_true_ok.1 hcb
      exact .of rfl rfl rfl rfl (.inl (fun hn => by have h' : w.st.lsToken = some t := ht; rw [hn] at h'; cases h'))
    | err => obtain ⟨ht, m, _, rfl⟩ := whitelistCb_false_ok.1 hcb; exact .of rfl rfl rfl rfl (.inl ht)

theorem frame_unDelegate {w w' : World} {c : Addr} {v : Nat} {ps : List Payment} (hs : unDelegate w c v ps = .ok w') :
    Frame w (.unDelegate c v ps) w' := by
  obtain ⟨_, _, _, l, t, m0, m1, m2, e, i, u, w1, w2, hps, ht, _⟩ := unDelegate_ok hs
  obtain ⟨r, E, L, N, F, A, n, ev, rfl⟩ := unDelegate_frame hs
  exact .of rfl rfl rfl rfl (.inl (by simp [ht]))

theorem frame_step {w w' : World} (op : Op) (hr : RegInv w) (hi : IssInv w) (hs : step w op = .ok w') : Frame w op w' := by
  have hr0 : RegOk w.st.lsToken w.st.unstakeToken w.st.delegList w.st.undelegList w.st.data w.flights w.dead := hr
  cases op with
  | delegate c v =>
    obtain ⟨_, _, _, m, t, p, e, l, _, ht, _, _, _, _, rfl⟩ := delegate_ok.1 hs
    exact .of rfl rfl rfl rfl (.inl (by simp [ht]))
  | unDelegate c v ps => exact frame_unDelegate hs
  | withdraw c v ps =>
    obtain ⟨_, _, _, uid, t, m0, m, E, N, _, ht, _, _, _, _, _, _, _, _, _, rfl⟩ := withdraw_ok hr0.tok hs
    exact .of rfl rfl rfl rfl (.inl (by simp [ht]))
  | upgrade => simp only [step, Except.ok.injEq] at hs; subst hs; exact .same
  | delegatePending c a =>
    obtain ⟨_, _, _, t, amt, sels, left, E, D, ht, _, _, _, _, _, _, _, _, _, rfl⟩ := delegatePending_ok hs
    exact .of rfl rfl rfl rfl (.inl (by simp [ht]))
  | unDelegatePending c a =>
    obtain ⟨_, _, _, t, amt, sels, left, E, D, ht, _, _, _, _, _, _, _, _, rfl⟩ := unDelegatePending_ok hs
    exact .of rfl rfl rfl rfl (.inl (by simp [ht]))
  | withdrawPending c p =>
    obtain ⟨_, _, _, _, _, E, _, rfl⟩ := withdrawPending_ok hs
    exact .of rfl rfl rfl rfl (.inr rfl)
  | claimRewards c =>
    obtain ⟨_, _, _, _, _, E, _, rfl⟩ := claimRewards_ok hs
    exact .of rfl rfl rfl rfl (.inr rfl)
  | claimFees c a =>
    obtain ⟨_, _, _, _, ht, m, _, rfl⟩ := claimFees_ok hs
    exact .of rfl rfl rfl rfl (.inl ht)
  | whitelist c v p ad ts cap n apy =>
    obtain ⟨_, _, _, _, _, _, _, _, E, _, _, _, rfl⟩ := whitelist_ok hs
    exact .of rfl rfl rfl rfl (.inr rfl)
  | changeAdmin c p a =>
    obtain ⟨_, _, d, hd, rfl⟩ := changeAdmin_ok.1 hs
    exact .of rfl rfl rfl rfl (.inr rfl)
  | changeParams c p ts cap n apy e =>
    obtain ⟨_, _, d, hd, _, rfl⟩ := changeParams_ok.1 hs
    exact .of rfl rfl rfl rfl (.inr rfl)
  | migrate c v o =>
    obtain ⟨_, _, _, _, t, l, ht, _, rfl⟩ := migrate_ok.1 hs
    exact .of rfl rfl rfl rfl (.inl (by simp [ht]))
  | migratePending c v =>
    obtain ⟨_, _, _, _, t, m, ht, _, rfl⟩ := migratePending_ok.1 hs
    exact .of rfl rfl rfl rfl (.inl (by simp [ht]))
  | addRewards c v =>
    obtain ⟨_, t, m, ht, _, rfl⟩ := addRewards_ok.1 hs
    exact .of rfl rfl rfl rfl (.inl (by simp [ht]))
  | setMigrationSc c a =>
    obtain ⟨_, rfl, _, rfl⟩ := setMigrationSc_ok.1 hs
    exact ⟨rfl, .inl rfl, rfl, .inl rfl, .inl rfl, fun _ => rfl, .inl rfl, .inr ⟨_, rfl, rfl⟩, .inl rfl⟩
  | registerLsToken c v =>
    obtain ⟨_, rfl, hn, _, m, _, rfl⟩ := registerLsToken_ok.1 hs
    exact ⟨rfl, .inl rfl, rfl, .inl rfl, .inl rfl, fun _ => rfl, .inl rfl, .inl rfl, .inl rfl⟩
  | registerUnstakeToken c v =>
    obtain ⟨_, rfl, hn, _, m, _, rfl⟩ := registerUnstakeToken_ok.1 hs
    exact ⟨rfl, .inl rfl, rfl, .inl rfl, .inl rfl, fun _ => rfl, .inl rfl, .inl rfl, .inl rfl⟩
  | issued i o =>
    obtain ⟨x, E, hx, _, _, rfl⟩ := issued_ok.1 hs
    obtain ⟨_, hw⟩ := hi.waiting hx
    obtain ⟨k, u, v⟩ := x
    cases k with
    | ls =>
      have h4 : o = w.st.lsToken ∨ ∃ id, o = some id := by cases o with
        | none => exact .inl hw.2.symm
        | some id => exact .inr ⟨id, rfl⟩
      refine ⟨rfl, .inl rfl, rfl, ?_, .inl rfl, fun _ => rfl, .inl rfl, .inl rfl, .inl rfl⟩
      rcases h4 with h | ⟨id, rfl⟩
      · exact .inl h
      · exact .inr ⟨i, u, v, id, rfl, hx, hw.2, rfl⟩
    | unstake =>
      have h4 : o = w.st.unstakeToken ∨ ∃ id, o = some id := by cases o with
        | none => exact .inl hw.2.symm
        | some id => exact .inr ⟨id, rfl⟩
      refine ⟨rfl, .inl rfl, rfl, .inl rfl, ?_, fun _ => rfl, .inl rfl, .inl rfl, .inl rfl⟩
      rcases h4 with h | ⟨id, rfl⟩
      · exact .inl h
      · exact .inr ⟨i, u, v, id, rfl, hx, hw.2, rfl⟩
  | owner c cmd =>
    obtain ⟨_, rfl, st, h1, rfl⟩ := ownerCmd_ok.1 hs
    have h2 := applyOwnerCmd_ok h1
    obtain ⟨s, fr, acc, mr, ma, ms, ub, mg, rfl⟩ := h2
    exact ⟨rfl, .inl rfl, rfl, .inl rfl, .inl rfl, fun _ => rfl, .inr ⟨_, rfl, h1⟩, .inl rfl, .inl rfl⟩
  | setScoringConfig c cfg =>
    obtain ⟨_, hm, _, rfl⟩ := setScoringConfig_ok.1 hs
    exact ⟨rfl, .inl rfl, rfl, .inl rfl, .inl rfl, fun _ => rfl, .inl rfl, .inl rfl, .inr ⟨_, _, rfl, hm, rfl⟩⟩
  | viewLsValue l =>
    simp only [step, bind_ok, Prod.exists, Except.ok.injEq] at hs
    obtain ⟨e, w1, h1, rfl⟩ := hs
    obtain ⟨_, _, rfl⟩ := viewLsValue_ok.1 h1
    exact .same
  | viewEgldPosition l =>
    simp only [step, bind_ok, Prod.exists, Except.ok.injEq] at hs
    obtain ⟨e, w1, h1, rfl⟩ := hs
    obtain ⟨_, _, rfl⟩ := viewEgldPosition_ok.1 h1
    exact .same
  | deliver i o => exact frame_deliver hs
  | transferLs s d v =>
    obtain ⟨_, _, m, _, rfl⟩ := transferLs_ok.1 hs
    exact .of rfl rfl rfl rfl (.inr rfl)
  | transferNft s d n v =>
    obtain ⟨_, _, m, _, rfl⟩ := transferNft_ok.1 hs
    exact .of rfl rfl rfl rfl (.inr rfl)
  | fund a v => obtain ⟨_, rfl⟩ := fund_ok.1 hs; exact .of rfl rfl rfl rfl (.inr rfl)
  | advance e => obtain ⟨h1, rfl⟩ := advance_ok.1 hs; exact .of rfl rfl rfl rfl (.inr rfl)
  | changeOwner c d =>
    obtain ⟨_, rfl, rfl⟩ := changeOwner_ok.1 hs
    exact ⟨rfl, .inr rfl, rfl, .inl rfl, .inl rfl, fun _ => rfl, .inl rfl, .inl rfl, .inl rfl⟩
  | transferEgld s d v =>
    obtain ⟨_, _, m, _, rfl⟩ := transferEgld_ok.1 hs
    exact .of rfl rfl rfl rfl (.inr rfl)
  | giveEgld s v =>
    obtain ⟨_, _, m, _, rfl⟩ := giveEgld_ok.1 hs
    exact .of rfl rfl rfl rfl (.inr rfl)
  | giveLs s v =>
    obtain ⟨_, _, m, _, rfl⟩ := giveLs_ok.1 hs
    exact .of rfl rfl rfl rfl (.inr rfl)
  | giveUnstake s n v =>
    obtain ⟨_, _, m, _, rfl⟩ := giveUnstake_ok.1 hs
    exact .of rfl rfl rfl rfl (.inr rfl)
  | burnLs a v =>
    obtain ⟨_, m, _, rfl⟩ := holderBurnLs_ok.1 hs
    exact .of rfl rfl rfl rfl (.inr rfl)
  | burnUnstake a n v =>
    obtain ⟨_, m, _, rfl⟩ := holderBurnNft_ok.1 hs
    exact .of rfl rfl rfl rfl (.inr rfl)
  | starve i o => obtain ⟨f, hf, rfl⟩ := starve_ok hs; exact .of rfl rfl rfl rfl (.inr rfl)

/-- Until the LS token exists every pool figure is zero. -/
theorem reachable_quiet {w : World} (h : Reachable w) : w.st.lsToken = none → w.st.r = ⟨0, 0, 0, 0, 0, 0, 0⟩ := by
  induction h with
  | init h =>
    obtain ⟨self, owner, contracts, epoch, funds, acc, fees, rpe, mr, ms, ma, ub, _, _, rfl⟩ := isInit_eq h
    exact fun _ => rfl
  | @step w w' op hr hs ih =>
    intro hn
    have F := frame_step op (reachable_regInv hr) (reachable_issInv hr) hs
    have h0 : w.st.lsToken = none := by
      rcases F.lsT with h | ⟨_, _, _, _, _, _, h, _⟩
      · rw [← h]; exact hn
      · exact h
    rw [F.quiet h0]; exact ih h0

end LS
