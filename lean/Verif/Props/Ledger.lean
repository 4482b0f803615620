import Verif.Spec.Ledger
import Verif.Props.Accounting
import Verif.Proofs.Parts
import Verif.Proofs.Effects
import Verif.Proofs.Records

/-! Every EGLD in the contract's account is accounted for: C75. -/

namespace LS
open Spec Demo

theorem spare_of {w w' : World} {x : Int} {b p d f : Nat} (h1 : w'.self = w.self) (hb : w'.egld.get 0 w.self = b)
    (hp : w'.st.r.pending = p) (hd : w'.st.r.withdrawn = d) (hf : w'.st.r.fees = f)
    (h : (b : Int) - p - d - f =
      ((w.egld.get 0 w.self : Nat) : Int) - w.st.r.pending - w.st.r.withdrawn - w.st.r.fees + x) : spare w' = spare w + x := by
  subst hb hp hd hf
  unfold spare egldOf pendingEgld withdrawable feesReserve
  rw [h1]; exact h

theorem spare_same {w w' : World} (h1 : w'.self = w.self) (h2 : w'.st.r = w.st.r) (h3 : w'.egld.get 0 w.self = w.egld.get 0 w.self) :
    spare w' = spare w + 0 := spare_of h1 h3 rfl rfl rfl (by rw [h2]; omega)

theorem spare_deliver {w w' : World} {i : Nat} {o : Outcome} (hr : Reachable w) (hs : deliver w i o = .ok w') :
    spare w' = spare w + leftOver w (.deliver i o) := by
  obtain ⟨f, hf, hcb⟩ := deliver_ok hs
  have hmem : f ∈ w.flights := List.mem_of_getElem? hf
  have hbal : (credit w.egld w.self (attached f o)).get 0 w.self = w.egld.get 0 w.self + attached f o := by
    rw [get_credit]; simp
  have hfail := callback_fails (o := o) hr hf
  have hl : leftOver w (.deliver i o) = unbooked w f o := by simp only [leftOver, hf]
  rw [hl]
  rcases hcb with hcb | ⟨he, rfl⟩
  swap
  · have hF := hfail.1 he
    refine spare_of rfl hbal rfl rfl rfl ?_
    have : unbooked w f o = attached f o := by
      cases f <;> cases o <;> simp only [CallbackFails] at hF <;> simp [unbooked, attached, hF]
    rw [this]
    show (_ : Int) - (w.st.r.pending : Int) - (w.st.r.withdrawn : Int) - (w.st.r.fees : Int) = _
    omega
  have hF : ¬ CallbackFails w f o := fun h => by
    obtain ⟨e, he⟩ := hfail.2 h
    rw [he] at hcb; cases hcb
  cases f with
  | delegate p a =>
    cases o with
    | ok e r =>
      obtain ⟨_, d, h1, h2, rfl⟩ := addLiquidityCb_true_ok.1 hcb
      refine spare_of rfl hbal (p := w.st.r.pending) (d := w.st.r.withdrawn) (f := w.st.r.fees) rfl rfl rfl ?_
      simp only [unbooked, attached]; omega
    | err =>
      obtain ⟨t, d, _, h1, h2, rfl⟩ := addLiquidityCb_false_ok.1 hcb
      refine spare_of rfl hbal (p := w.st.r.pending + a) (d := w.st.r.withdrawn) (f := w.st.r.fees) rfl rfl rfl ?_
      simp only [unbooked, attached]; omega
  | undelegate p a =>
    cases o with
    | ok e r =>
      obtain ⟨t, d, _, h1, h2, h3, rfl⟩ := removeLiquidityCb_true_ok.1 hcb
      refine spare_of rfl hbal (p := w.st.r.pending) (d := w.st.r.withdrawn) (f := w.st.r.fees) rfl rfl rfl ?_
      simp only [unbooked, attached]; omega
    | err =>
      obtain ⟨t, d, _, h1, h2, rfl⟩ := removeLiquidityCb_false_ok.1 hcb
      refine spare_of rfl hbal (p := w.st.r.pending) (d := w.st.r.withdrawn) (f := w.st.r.fees) rfl rfl rfl ?_
      simp only [unbooked, attached]; omega
  | withdraw p =>
    cases o with
    | ok v r =>
      simp only [CallbackFails] at hF
      rcases withdrawTokensCb_ok.1 hcb with ⟨h0, rfl⟩ | ⟨hpos, t, d, _, h1, h2, h3, rfl⟩
      · refine spare_of rfl hbal (p := w.st.r.pending) (d := w.st.r.withdrawn) (f := w.st.r.fees) rfl rfl rfl ?_
        simp only [unbooked, attached, if_neg hF]; omega
      · refine spare_of rfl hbal (p := w.st.r.pending) (d := w.st.r.withdrawn + v) (f := w.st.r.fees) rfl rfl rfl ?_
        simp only [unbooked, attached, if_neg hF]; omega
    | err =>
      rcases withdrawTokensCb_ok.1 hcb with ⟨_, rfl⟩ | ⟨hpos, t, d, _, h1, h2, h3, rfl⟩
      · refine spare_of rfl hbal (p := w.st.r.pending) (d := w.st.r.withdrawn) (f := w.st.r.fees) rfl rfl rfl ?_
        simp only [unbooked, attached]; omega
      · exact absurd hpos (by simp)
  | claim ps =>
    cases o with
    | ok e r =>
      simp only [CallbackFails] at hF
      rcases claimRewardsCb_ok.1 hcb with ⟨h0, rfl⟩ | ⟨_, t, fee, _, _, hle, rfl⟩
      · refine spare_of rfl hbal (p := w.st.r.pending) (d := w.st.r.withdrawn) (f := w.st.r.fees) rfl rfl rfl ?_
        simp only [unbooked, attached, if_neg hF]; omega
      · refine spare_of rfl hbal (p := w.st.r.pending + (r - fee)) (d := w.st.r.withdrawn) (f := w.st.r.fees + fee) rfl rfl rfl ?_
        simp only [unbooked, attached, if_neg hF]; omega
    | err =>
      simp only [runCallback, claimRewardsCb, Except.ok.injEq] at hcb
      subst hcb
      refine spare_of rfl hbal (p := w.st.r.pending) (d := w.st.r.withdrawn) (f := w.st.r.fees) rfl rfl rfl ?_
      simp only [unbooked, attached]; omega
  | whitelist p a u =>
    cases o with
    | ok e r =>
      obtain ⟨t, d, l, _, h1, hq, rfl⟩ := whitelistCb_true_ok.1 hcb
      refine spare_of rfl hbal (p := w.st.r.pending) (d := w.st.r.withdrawn) (f := w.st.r.fees) rfl rfl rfl ?_
      simp only [unbooked, attached]; omega
    | err =>
      simp only [CallbackFails] at hF
      obtain ⟨_, m, hm, rfl⟩ := whitelistCb_false_ok.1 hcb
      have hu := (reachable_wl hr p a u hmem).2
      have hm' : debit (credit w.egld w.self a) w.self a = .ok m := hm
      have hE : (credit m u a).get 0 w.self = w.egld.get 0 w.self := by
        rw [get_credit, if_neg hu, get_debit hm', if_pos rfl, get_credit, if_pos rfl]; omega
      refine spare_of rfl hE (p := w.st.r.pending) (d := w.st.r.withdrawn) (f := w.st.r.fees) rfl rfl rfl ?_
      simp only [unbooked, if_neg hF]; omega

/-- **C75**, one transaction: what the contract's account holds beyond the EGLD it has booked (to be delegated, withdrawable, fees) grows
by exactly what the transaction leaves over. -/
theorem C75_ledger {w w' : World} {op : Op} (hr : Reachable w) (hs : step w op = .ok w') : spare w' = spare w + leftOver w op := by
  cases op with
  | deliver i o => exact spare_deliver hr hs
  | delegate c v =>
    obtain ⟨hc, hv, _, m, t, p, e, l, hm, _, ha, _, _, hq, rfl⟩ := delegate_ok.1 hs
    obtain ⟨hpe, hp⟩ := getActionAmount_sum ha
    refine spare_of rfl (bal_paid hc hm) (p := w.st.r.pending + e) (d := w.st.r.withdrawn + p) (f := w.st.r.fees) rfl rfl rfl ?_
    simp only [leftOver]; omega
  | unDelegate c v ps =>
    obtain ⟨hc, _, _, amount, t, m0, m1, m2, e, i, u, w1, w2, _, _, hl, hg, _, hd1, hd2, hq, ha, hi, _, hi', hu, rfl⟩ :=
      unDelegate_ok hs
    have hw1 : ∃ E, w1 = { w with egld := E, ls := m2 } ∧ i ≤ w.egld.get 0 w.self ∧
        E.get 0 w.self = w.egld.get 0 w.self - i := by
      rcases hi' with ⟨h0, rfl⟩ | ⟨h0, m, hm, rfl⟩
      · exact ⟨_, rfl, by omega, by rw [hg]; omega⟩
      · refine ⟨_, rfl, by rw [← hg]; exact debit_le hm, ?_⟩
        rw [get_credit, get_debit hm, hg]; simp [hc]
    obtain ⟨E, rfl, hb, hE⟩ := hw1
    have fin : (((w.egld.get 0 w.self - i : Nat)) : Int) - ((w.st.r.pending - i : Nat) : Int) - (w.st.r.withdrawn : Nat) -
        (w.st.r.fees : Nat) = ((w.egld.get 0 w.self : Nat) : Int) - w.st.r.pending - w.st.r.withdrawn - w.st.r.fees + 0 := by omega
    rcases hu with ⟨h0, rfl⟩ | ⟨h0, _, _, w3, n, m, hM, hm, rfl⟩
    · exact spare_of rfl hE rfl rfl rfl fin
    · cases hM <;> exact spare_of rfl hE rfl rfl rfl fin
  | withdraw c v ps =>
    obtain ⟨hc, _, _, uid, t, m0, m, E, N, _, _, _, _, hd1, hd2, rfl, _, _, _, hN, rfl⟩ :=
      withdraw_ok (reachable_regInv hr).tok hs
    have hb := bal_paid hc hd1
    have hle := debit_le hd2
    rw [hb] at hle
    have hw := Nat.min_le_right (amtSum ps) w.st.r.withdrawn
    refine spare_of rfl (b := w.egld.get 0 w.self + v - min (amtSum ps) w.st.r.withdrawn) ?_ rfl
      (d := w.st.r.withdrawn - min (amtSum ps) w.st.r.withdrawn) rfl rfl ?_
    · show (credit m c _).get 0 w.self = _
      rw [get_credit, get_debit hd2, hb]; simp [hc]
    · simp only [leftOver]
      show (_ : Int) - (w.st.r.pending : Nat) - _ - (w.st.r.fees : Nat) = _
      omega
  | upgrade => simp only [step, Except.ok.injEq] at hs; subst hs; exact spare_same rfl rfl rfl
  | delegatePending c o =>
    obtain ⟨_, _, _, t, amt, sels, left, E, D, _, hb, hsum, _, _, hE, _, _, hps, hf, rfl⟩ := delegatePending_ok hs
    obtain ⟨_, _, hle, _, _⟩ := batchAmount_ok hb
    exact spare_of rfl (b := E.get 0 w.self) rfl (p := w.st.r.pending - selSum sels) (d := w.st.r.withdrawn) (f := w.st.r.fees) rfl rfl
      rfl (by simp only [leftOver]; omega)
  | unDelegatePending c o =>
    obtain ⟨_, _, _, t, amt, sels, left, E, D, _, hb, hsum, _, _, hE, _, hps, hf, rfl⟩ := unDelegatePending_ok hs
    exact spare_of rfl (hE _) (p := w.st.r.pending) (d := w.st.r.withdrawn) (f := w.st.r.fees) rfl rfl rfl (by simp only [leftOver]; omega)
  | withdrawPending c p =>
    obtain ⟨_, _, _, _, _, E, hE, rfl⟩ := withdrawPending_ok hs
    exact spare_same rfl rfl (hE _)
  | claimRewards c =>
    obtain ⟨_, _, _, _, _, E, hE, rfl⟩ := claimRewards_ok hs
    exact spare_same rfl rfl (hE _)
  | claimFees c a =>
    obtain ⟨_, _, ha, _, _, m, hm, rfl⟩ := claimFees_ok hs
    have := debit_le hm
    refine spare_of rfl (b := w.egld.get 0 w.self - w.st.r.fees) ?_ (p := w.st.r.pending) (d := w.st.r.withdrawn) (f := 0) rfl rfl rfl ?_
    · show (credit m w.st.accumulator w.st.r.fees).get 0 w.self = w.egld.get 0 w.self - w.st.r.fees
      rw [get_credit, get_debit hm]; simp [ha]
    · simp only [leftOver]; omega
  | whitelist c v p ad ts cap n apy =>
    obtain ⟨_, _, _, _, hnone, _, _, _, E, hE, _, _, rfl⟩ := whitelist_ok hs
    exact spare_same rfl rfl hE
  | changeAdmin c p a => obtain ⟨_, _, d, hd, rfl⟩ := changeAdmin_ok.1 hs; exact spare_same rfl rfl rfl
  | changeParams c p ts cap n apy e => obtain ⟨_, _, d, hd, _, rfl⟩ := changeParams_ok.1 hs; exact spare_same rfl rfl rfl
  | migrate c v o =>
    obtain ⟨_, _, _, _, t, l, _, hq, rfl⟩ := migrate_ok.1 hs
    exact spare_of rfl (b := w.egld.get 0 w.self) rfl (p := w.st.r.pending) (d := w.st.r.withdrawn) (f := w.st.r.fees) rfl rfl rfl
      (by simp only [leftOver]; omega)
  | migratePending c v =>
    obtain ⟨hc, _, _, _, t, m, _, hm, rfl⟩ := migratePending_ok.1 hs
    exact spare_of rfl (bal_paid hc hm) (p := w.st.r.pending + v) (d := w.st.r.withdrawn) (f := w.st.r.fees) rfl rfl rfl
      (by simp only [leftOver]; omega)
  | addRewards c v =>
    obtain ⟨hc, t, m, _, hm, rfl⟩ := addRewards_ok.1 hs
    exact spare_of rfl (bal_paid hc hm) (p := w.st.r.pending + v) (d := w.st.r.withdrawn) (f := w.st.r.fees) rfl rfl rfl
      (by simp only [leftOver]; omega)
  | setMigrationSc c a => obtain ⟨_, _, _, rfl⟩ := setMigrationSc_ok.1 hs; exact spare_same rfl rfl rfl
  | registerLsToken c v =>
    obtain ⟨hc, _, _, _, m, hm, rfl⟩ := registerLsToken_ok.1 hs
    refine spare_same rfl rfl ?_
    show m.get 0 w.self = _
    rw [get_debit hm]; simp [hc]
  | registerUnstakeToken c v =>
    obtain ⟨hc, _, _, _, m, hm, rfl⟩ := registerUnstakeToken_ok.1 hs
    refine spare_same rfl rfl ?_
    show m.get 0 w.self = _
    rw [get_debit hm]; simp [hc]
  | issued i o =>
    obtain ⟨x, E, hx, _, hE, rfl⟩ := issued_ok.1 hs
    have hb := issued_bal ((reachable_issInv hr).waiting hx).1 hE
    obtain ⟨k, u, v⟩ := x
    cases k <;> exact spare_same rfl rfl hb
  | owner c cmd =>
    obtain ⟨_, _, st, h1, rfl⟩ := ownerCmd_ok.1 hs
    obtain ⟨s, fr, acc, mr, ma, ms, ub, mg, rfl⟩ := applyOwnerCmd_ok h1
    exact spare_same rfl rfl rfl
  | setScoringConfig c cfg => obtain ⟨_, _, _, rfl⟩ := setScoringConfig_ok.1 hs; exact spare_same rfl rfl rfl
  | viewLsValue l =>
    simp only [step, bind_ok, Prod.exists, Except.ok.injEq] at hs
    obtain ⟨e, w1, h1, rfl⟩ := hs
    obtain ⟨_, _, rfl⟩ := viewLsValue_ok.1 h1
    exact spare_same rfl rfl rfl
  | viewEgldPosition l =>
    simp only [step, bind_ok, Prod.exists, Except.ok.injEq] at hs
    obtain ⟨e, w1, h1, rfl⟩ := hs
    obtain ⟨_, _, rfl⟩ := viewEgldPosition_ok.1 h1
    exact spare_same rfl rfl rfl
  | transferLs s d v => obtain ⟨_, _, m, hm, rfl⟩ := transferLs_ok.1 hs; exact spare_same rfl rfl rfl
  | transferNft s d n v => obtain ⟨h1, h2, m, hm, rfl⟩ := transferNft_ok.1 hs; exact spare_same rfl rfl rfl
  | fund a v =>
    obtain ⟨h1, rfl⟩ := fund_ok.1 hs
    refine spare_same rfl rfl ?_
    show (credit w.egld a v).get 0 w.self = _
    rw [get_credit]; simp [h1]
  | advance e => obtain ⟨_, rfl⟩ := advance_ok.1 hs; exact spare_same rfl rfl rfl
  | changeOwner c d => obtain ⟨_, _, rfl⟩ := changeOwner_ok.1 hs; exact spare_same rfl rfl rfl
  | transferEgld s d v =>
    obtain ⟨h1, h2, m, hm, rfl⟩ := transferEgld_ok.1 hs
    refine spare_same rfl rfl ?_
    show (credit m d v).get 0 w.self = _
    rw [get_credit, get_debit hm]; simp [h1, h2]
  | giveEgld s v =>
    obtain ⟨h1, _, m, hm, rfl⟩ := giveEgld_ok.1 hs
    refine spare_of rfl (b := w.egld.get 0 w.self + v) ?_ (p := w.st.r.pending) (d := w.st.r.withdrawn) (f := w.st.r.fees) rfl rfl rfl
      (by simp only [leftOver]; omega)
    show (credit m w.self v).get 0 w.self = _
    rw [get_credit, get_debit hm]; simp [h1]
  | giveLs s v => obtain ⟨_, _, m, hm, rfl⟩ := giveLs_ok.1 hs; exact spare_same rfl rfl rfl
  | giveUnstake s n v => obtain ⟨_, _, m, hm, rfl⟩ := giveUnstake_ok.1 hs; exact spare_same rfl rfl rfl
  | burnLs a v => obtain ⟨_, m, hm, rfl⟩ := holderBurnLs_ok.1 hs; exact spare_same rfl rfl rfl
  | burnUnstake a n v => obtain ⟨_, m, hm, rfl⟩ := holderBurnNft_ok.1 hs; exact spare_same rfl rfl rfl
  | starve i o =>
    obtain ⟨f, hf, rfl⟩ := starve_ok hs
    have hl : leftOver w (.starve i o) = (attached f o : Int) := by
      simp only [leftOver, hf]; cases f <;> cases o <;> rfl
    have hbal : (credit w.egld w.self (attached f o)).get 0 w.self = w.egld.get 0 w.self + attached f o := by
      rw [get_credit]; simp
    refine spare_of rfl hbal (p := w.st.r.pending) (d := w.st.r.withdrawn) (f := w.st.r.fees) rfl rfl rfl ?_
    rw [hl]; omega

/-- A new contract has no EGLD and nothing booked. -/
theorem spare_init {w : World} (h : IsInit w) : spare w = 0 := by
  obtain ⟨self, owner, contracts, epoch, funds, acc, fees, rpe, mr, ms, ma, ub, h0, _, rfl⟩ := isInit_eq h
  have : Map.get 0 (List.filter (fun e : Addr × Nat => decide (e.1 ≠ self)) funds) self = 0 :=
    Map.get_of_notMem _ _ _ (by simp [Map.keys])
  unfold spare egldOf pendingEgld withdrawable feesReserve
  simp only [this]
  rfl

theorem spare_grows {w w' : World} {op : Op} (hr : Reachable w) (hs : step w op = .ok w') (hh : HonestManager w op w') :
    spare w ≤ spare w' := by
  rw [C75_ledger hr hs]
  suffices 0 ≤ leftOver w op by omega
  cases op with
  | withdraw c v ps => simp [leftOver]
  | giveEgld s v => simp [leftOver]
  | deliver i o =>
    simp only [leftOver]
    split
    · rename_i f hf
      cases f <;> cases o <;> simp only [unbooked] <;> try split
      all_goals first | omega | skip
      rename_i g r _
      have := hh _ hf
      omega
    · exact Int.le_refl _
  | starve i o =>
    simp only [leftOver]
    split
    · exact Int.natCast_nonneg _
    · exact Int.le_refl _
  | _ => exact Int.le_refl _

/-- **C75**, a whole history: the contract's EGLD is exactly what it has booked plus what the history left over. -/
theorem C75_history {w : World} {s : Int} (h : LeftOver w s) :
    (egldOf w w.self : Int) = pendingEgld w + withdrawable w + feesReserve w + s := by
  have key : Reachable w ∧ spare w = s := by
    induction h with
    | init h =>
      refine ⟨.init h, ?_⟩
      exact spare_init h
    | step op h hs ih => exact ⟨.step _ ih.1 hs, by rw [C75_ledger ih.1 hs, ih.2]⟩
  have := key.2
  unfold spare at this
  omega

/-- Every reachable world has such a history. -/
theorem C75_history_exists {w : World} (hr : Reachable w) : ∃ s, LeftOver w s := by
  induction hr with
  | init h => exact ⟨0, .init h⟩
  | step op _ hs ih => obtain ⟨s, h⟩ := ih; exact ⟨_, .step op h hs⟩

/-- **C75**, nobody ever gets what is left over: with an honest delegation manager it never shrinks. -/
theorem C75_locked {w w' : World} (hr : ReachableBy HonestManager w) (ht : Trace HonestManager w w') :
    0 ≤ spare w ∧ spare w ≤ spare w' := by
  refine ⟨?_, ?_⟩
  · have := C09_solvent hr
    unfold spare; omega
  · induction ht with
    | nil => exact Int.le_refl _
    | @snoc w1 w2 op ht hs hh ih => exact Int.le_trans ih (spare_grows (reachable_trace (reachableBy_reachable hr) ht) hs hh)

/-- **C75**, when nothing is left over (no EGLD sent along with `withdraw` or by plain transfers, no unexpected EGLD in answers, rewards as reported, no callback
failing on EGLD) the contract's account holds exactly the EGLD booked. -/
theorem C75_exact {w : World} (hr : ReachableBy (fun w op _ => leftOver w op = 0) w) :
    egldOf w w.self = pendingEgld w + withdrawable w + feesReserve w := by
  obtain ⟨w0, hi, ht⟩ := hr
  have key : spare w = 0 := by
    induction ht with
    | nil => exact spare_init hi
    | @snoc w1 w2 op ht hs hh ih => rw [C75_ledger (reachable_trace (.init hi) ht) hs, ih, hh]; rfl
  unfold spare at key
  omega

/-- **C75**, the LS tokens the contract holds are exactly those sent to it by plain transfers: no endpoint leaves any behind, and none
ever pays them out. -/
theorem C75_ls {w w' : World} {op : Op} (hr : Reachable w) (hs : step w op = .ok w') :
    lsOf w' w.self = lsOf w w.self + lsGiven op := by
  by_cases hg : ∃ s v, op = .giveLs s v
  · obtain ⟨s, v, rfl⟩ := hg
    obtain ⟨h1, _, m, hm, rfl⟩ := giveLs_ok.1 hs
    show (credit m w.self v).get 0 w.self = _
    rw [get_credit, get_debit hm]; simp [h1, lsOf, lsGiven]
  · have h0 : lsGiven op = 0 := by
      cases op <;> first | rfl | exact absurd ⟨_, _, rfl⟩ hg
    rw [h0, Nat.add_zero]
    refine parts_step hr hs (.ls w.self) ?_
    cases op with
    | delegate c v =>
      obtain ⟨hc, _⟩ := delegate_ok.1 hs
      simp [touched, Ne.symm hc]
    | unDelegate c v ps =>
      obtain ⟨hc, _⟩ := unDelegate_ok hs
      simp [touched, Ne.symm hc, positionParts]; split <;> simp
    | migrate c v o => obtain ⟨hc, _⟩ := migrate_ok.1 hs; simp [touched, Ne.symm hc]
    | transferLs a b v => obtain ⟨ha, hb, _⟩ := transferLs_ok.1 hs; simp [touched, Ne.symm ha, Ne.symm hb]
    | burnLs a v => obtain ⟨ha, _⟩ := holderBurnLs_ok.1 hs; simp [touched, Ne.symm ha]
    | owner c cmd => cases cmd <;> simp [touched, settingOf]
    | deliver i o =>
      unfold touched
      dsimp only
      split
      · rename_i f hf
        have hu : ∀ p v u, f = .whitelist p v u → ¬ w.self = u :=
          fun p v u e h => (reachable_wl hr p v u (e ▸ List.mem_of_getElem? hf)).2 h.symm
        cases f <;> cases o <;> simp [callbackParts]
        · exact hu _ _ _ rfl
        · split <;> simp
      · simp
    | issued i o =>
      unfold touched
      dsimp only
      split <;> simp <;> split <;> simp
    | giveLs s v => exact absurd ⟨_, _, rfl⟩ hg
    | _ => simp [touched]

/-- **C75**, so without such transfers it never holds any. -/
theorem C75_no_ls {w : World} (hr : ReachableBy (fun _ op _ => lsGiven op = 0) w) : lsOf w w.self = 0 := by
  obtain ⟨w0, hi, ht⟩ := hr
  induction ht with
  | nil => obtain ⟨self, owner, contracts, epoch, funds, acc, fees, rpe, mr, ms, ma, ub, h0, _, rfl⟩ := isInit_eq hi; rfl
  | @snoc w1 w2 op ht hs hh ih =>
    have hr1 : Reachable w1 := reachable_trace (.init hi) ht
    have hself : w2.self = w1.self := (frame_step op (reachable_regInv hr1) (reachable_issInv hr1) hs).self
    rw [hself, C75_ls hr1 hs, ih, hh]

/-- No transaction of the list leaves anything over. -/
def tidy (w : World) : List Op → Bool
  | [] => true
  | op :: ops => decide (leftOver w op = 0) && tidy (exec w op) ops

theorem tidy_reachable {ops : List Op} (h : tidy fresh ops = true) : ReachableBy (fun w op _ => leftOver w op = 0) (run fresh ops) := by
  refine ⟨fresh, fresh_isInit, trace_of_run tidy (fun w op ops h => ?_) ops fresh h⟩
  simp only [tidy, Bool.and_eq_true, decide_eq_true_eq] at h
  exact ⟨h.2, fun _ _ => h.1⟩

/-- The busy history leaves nothing over: the account holds exactly what is booked. -/
example : ReachableBy (fun w op _ => leftOver w op = 0) (run fresh busy) ∧ 0 < pendingEgld (run fresh busy) ∧
    0 < withdrawable (run fresh busy) ∧ 0 < feesReserve (run fresh busy) :=
  ⟨tidy_reachable (by decide +kernel), by decide +kernel, by decide +kernel, by decide +kernel⟩

/-- Three EGLD sent along with `withdraw`, one EGLD a provider attaches to its answer to a delegation, one EGLD of rewards beyond the
total reported. -/
def sloppy : List Op := busy ++ [.withdraw 13 (E 3) [], .delegatePending 1 none, .deliver 0 (.ok (E 1) 0), .claimRewards 1,
  .deliver 0 (.ok (E 2) (E 1))]

/-- They stay in the contract's account for ever. -/
example : ReachableBy HonestManager (run fresh sloppy) ∧ spare (run fresh busy) = 0 ∧ spare (run fresh sloppy) = E 5 :=
  ⟨reachableBy_honest (by decide +kernel), by decide +kernel, by decide +kernel⟩

end LS
