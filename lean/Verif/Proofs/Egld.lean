import Verif.Proofs.Sums
import Verif.Proofs.Records
import Verif.Spec.Network

/-! Where EGLD goes: the sum over all accounts, transaction by transaction. -/

namespace LS
open Spec

/-- EGLD of all accounts. -/
def tot (m : Map Addr Nat) : Nat := m.total (fun _ => true)

theorem isSum_tot (m : Map Addr Nat) : IsSum (fun a => m.get 0 a) (tot m) := by
  have h := isSum_total m (fun _ => true)
  exact h.congr fun a => if_pos rfl

theorem tot_congr {m m' : Map Addr Nat} (h : ∀ a, m'.get 0 a = m.get 0 a) : tot m' = tot m :=
  (isSum_tot m').unique ((isSum_tot m).congr fun a => (h a).symm)

theorem tot_at {m m' : Map Addr Nat} (k : Addr) (h : ∀ a, a ≠ k → m'.get 0 a = m.get 0 a) :
    tot m' + m.get 0 k = tot m + m'.get 0 k := by
  have h1 := total_set m (fun _ => true) k (m'.get 0 k)
  have h2 : tot m' = tot (m.set k (m'.get 0 k)) := tot_congr fun a => by
    rw [Map.get_set]
    split
    · next e => rw [e]
    · next e => exact h a (Ne.symm e)
  rw [h2]
  simpa [tot] using h1

theorem tot_credit (m : Map Addr Nat) (k : Addr) (v : Nat) : tot (credit m k v) = tot m + v := by
  have := total_credit m (fun _ => true) k v
  simpa [tot] using this

theorem tot_debit {m m' : Map Addr Nat} {k : Addr} {v : Nat} (h : debit m k v = .ok m') : tot m' + v = tot m := by
  have := total_debit (fun _ => true) h
  simpa [tot] using this

theorem costs_append : ∀ {l l' : List Issue}, costs (l ++ l') = costs l + costs l'
  | [], l' => by simp [costs]
  | x :: l, l' => by
    show x.cost + costs (l ++ l') = x.cost + costs l + costs l'
    rw [costs_append]; omega

theorem costs_eraseIdx : ∀ {l : List Issue} {i : Nat} {x : Issue}, l[i]? = some x → costs (l.eraseIdx i) + x.cost = costs l
  | [], i, x, h => by simp at h
  | y :: l, 0, x, h => by
    have : y = x := by simpa using h
    subst this
    show costs l + y.cost = y.cost + costs l
    omega
  | y :: l, i + 1, x, h => by
    have h' : l[i]? = some x := by simpa using h
    have := costs_eraseIdx h'
    show y.cost + costs (l.eraseIdx i) + x.cost = y.cost + costs l
    omega

theorem fsum_eraseIdx (g : Flight → Nat) {l : List Flight} {i : Nat} {f : Flight} (h : l[i]? = some f) :
    fsum g (l.eraseIdx i) + g f = fsum g l := by
  rw [← fsum_perm (eraseIdx_perm h), fsum_cons]; omega

theorem fsum_delegates : ∀ sels : List Selection,
    fsum carried (sels.map fun s => Flight.delegate s.address s.amount) = selSum sels
  | [] => rfl
  | s :: l => by
    rw [List.map_cons, fsum_cons, fsum_delegates l]; rfl

theorem fsum_undelegates : ∀ sels : List Selection,
    fsum carried (sels.map fun s => Flight.undelegate s.address s.amount) = 0
  | [] => rfl
  | s :: l => by
    rw [List.map_cons, fsum_cons, fsum_undelegates l]; rfl

/-- A callback moves EGLD between accounts at most. -/
theorem runCallback_tot {w w' : World} {f : Flight} {o : Outcome} (h : runCallback w f o = .ok w') :
    tot w'.egld = tot w.egld ∧ w'.issues = w.issues := by
  cases f with
  | delegate p a =>
    cases o with
    | ok e r => obtain ⟨_, d, _, _, rfl⟩ := addLiquidityCb_true_ok.1 h; exact ⟨rfl, rfl⟩
    | err => obtain ⟨t, d, _, _, _, rfl⟩ := addLiquidityCb_false_ok.1 h; exact ⟨rfl, rfl⟩
  | undelegate p a =>
    cases o with
    | ok e r => obtain ⟨t, d, _, _, _, _, rfl⟩ := removeLiquidityCb_true_ok.1 h; exact ⟨rfl, rfl⟩
    | err => obtain ⟨t, d, _, _, _, rfl⟩ := removeLiquidityCb_false_ok.1 h; exact ⟨rfl, rfl⟩
  | withdraw p =>
    cases o with
    | ok e r => rcases withdrawTokensCb_ok.1 h with ⟨_, rfl⟩ | ⟨_, t, d, _, _, _, _, rfl⟩ <;> exact ⟨rfl, rfl⟩
    | err => rcases withdrawTokensCb_ok.1 h with ⟨_, rfl⟩ | ⟨_, t, d, _, _, _, _, rfl⟩ <;> exact ⟨rfl, rfl⟩
  | claim ps =>
    cases o with
    | ok e r => rcases claimRewardsCb_ok.1 h with ⟨_, rfl⟩ | ⟨_, t, d, _, _, _, rfl⟩ <;> exact ⟨rfl, rfl⟩
    | err => cases h; exact ⟨rfl, rfl⟩
  | whitelist p a u =>
    cases o with
    | ok e r => obtain ⟨t, d, l, _, _, _, rfl⟩ := whitelistCb_true_ok.1 h; exact ⟨rfl, rfl⟩
    | err =>
      obtain ⟨_, m, hm, rfl⟩ := whitelistCb_false_ok.1 h
      have h1 := tot_debit hm
      have h2 := tot_credit m u a
      exact ⟨by show tot (credit m u a) = _; omega, rfl⟩

/-- All EGLD of accounts, promises and issues. -/
def inside (w : World) : Nat := tot w.egld + fsum carried w.flights + costs w.issues

theorem inside_same {w w' : World} {op : Op} (h0 : entering w op = 0) (h1 : leaving w op = 0) (h : tot w'.egld = tot w.egld)
    (hf : w'.flights = w.flights) (hi : w'.issues = w.issues) :
    inside w' + leaving w op = inside w + entering w op := by
  unfold inside; rw [h0, h1, h, hf, hi]

theorem attached_balance {w : World} {i : Nat} {f : Flight} {o : Outcome} (hf : w.flights[i]? = some f) :
    attached f o + leaving w (.deliver i o) = carried f + entering w (.deliver i o) := by
  unfold leaving entering
  cases o with
  | ok g r => simp only [hf, Option.isSome_some, if_true]; cases f <;> simp [attached] <;> omega
  | err => cases f <;> rfl

theorem egld_step {w w' : World} (op : Op) (hr : RegInv w) (hs : step w op = .ok w') :
    inside w' + leaving w op = inside w + entering w op := by
  have paid : ∀ {m m' : Map Addr Nat} {c d : Addr} {v : Nat}, debit m c v = .ok m' → tot (credit m' d v) = tot m := by
    intro m m' c d v h
    have h1 := tot_debit h
    have h2 := tot_credit m' d v
    omega
  cases op with
  | delegate c v =>
    obtain ⟨hc, hv, _, m, t, p, e, l, hm, _, ha, _, _, hq, rfl⟩ := delegate_ok.1 hs
    exact inside_same rfl rfl (paid hm) rfl rfl
  | unDelegate c v ps =>
    obtain ⟨hc, _, _, amount, t, m0, m1, m2, e, i, u, w1, w2, _, _, hl, hg, _, hd1, hd2, hq, ha, hi, _, hi', hu, rfl⟩ :=
      unDelegate_ok hs
    have hw1 : ∃ E, w1 = { w with egld := E, ls := m2 } ∧ tot E = tot w.egld := by
      rcases hi' with ⟨h0, rfl⟩ | ⟨h0, m, hm, rfl⟩
      · exact ⟨_, rfl, tot_congr hg⟩
      · exact ⟨_, rfl, (paid hm).trans (tot_congr hg)⟩
    obtain ⟨E, rfl, hE⟩ := hw1
    rcases hu with ⟨h0, rfl⟩ | ⟨h0, _, _, w3, n, m, hM, hm, rfl⟩
    · exact inside_same rfl rfl hE rfl rfl
    · cases hM with
      | topUp => exact inside_same rfl rfl hE rfl rfl
      | fresh => exact inside_same rfl rfl hE rfl rfl
      | freshClean => exact inside_same rfl rfl hE rfl rfl
  | withdraw c v ps =>
    obtain ⟨hc, _, _, uid, t, m0, m, E, N, _, _, _, _, hd1, hd2, rfl, _, _, _, hN, rfl⟩ := withdraw_ok hr.tok hs
    exact inside_same rfl rfl ((paid hd2).trans (paid hd1)) rfl rfl
  | upgrade => simp only [step, Except.ok.injEq] at hs; subst hs; exact inside_same rfl rfl rfl rfl rfl
  | delegatePending c a =>
    obtain ⟨_, _, _, t, amt, sels, left, E, D, _, hb, hsum, _, _, hE, hE', _, hps, hf, rfl⟩ := delegatePending_ok hs
    have h1 := tot_at w.self hE'
    show tot E + fsum carried (w.flights ++ _) + costs w.issues + 0 = tot w.egld + fsum carried w.flights + costs w.issues + 0
    rw [fsum_append, fsum_delegates]
    omega
  | unDelegatePending c a =>
    obtain ⟨_, _, _, t, amt, sels, left, E, D, _, hb, hsum, _, _, hE, _, hps, hf, rfl⟩ := unDelegatePending_ok hs
    have h1 := tot_congr hE
    show tot E + fsum carried (w.flights ++ _) + costs w.issues + 0 = tot w.egld + fsum carried w.flights + costs w.issues + 0
    rw [fsum_append, fsum_undelegates]
    omega
  | withdrawPending c p =>
    obtain ⟨_, _, _, _, _, E, hE, rfl⟩ := withdrawPending_ok hs
    have h1 := tot_congr hE
    show tot E + fsum carried (w.flights ++ [.withdraw p]) + costs w.issues + 0 = tot w.egld + fsum carried w.flights + costs w.issues + 0
    rw [fsum_append, h1]; rfl
  | claimRewards c =>
    obtain ⟨_, _, _, _, _, E, hE, rfl⟩ := claimRewards_ok hs
    have h1 := tot_congr hE
    show tot E + fsum carried (w.flights ++ [.claim w.st.delegList]) + costs w.issues + 0 = tot w.egld + fsum carried w.flights + costs w.issues + 0
    rw [fsum_append, h1]; rfl
  | claimFees c a =>
    obtain ⟨_, _, ha, _, _, m, hm, rfl⟩ := claimFees_ok hs
    exact inside_same rfl rfl (paid hm) rfl rfl
  | whitelist c v p ad ts cap n apy =>
    obtain ⟨hc, _, _, _, hnone, _, _, _, E, hE, hEc, hEo, rfl⟩ := whitelist_ok hs
    have h1 := tot_at (m := w.egld) (m' := E) c fun a ha => by
      by_cases h : a = w.self
      · rw [h]; exact hE
      · exact hEo a h ha
    show tot E + fsum carried (w.flights ++ [.whitelist p v c]) + costs w.issues + 0 = tot w.egld + fsum carried w.flights + costs w.issues + 0
    rw [fsum_append]
    have : fsum carried [Flight.whitelist p v c] = v := by rw [fsum_cons]; rfl
    omega
  | changeAdmin c p a => obtain ⟨_, _, d, hd, rfl⟩ := changeAdmin_ok.1 hs; exact inside_same rfl rfl rfl rfl rfl
  | changeParams c p ts cap n apy e => obtain ⟨_, _, d, hd, _, rfl⟩ := changeParams_ok.1 hs; exact inside_same rfl rfl rfl rfl rfl
  | migrate c v o => obtain ⟨_, _, _, _, t, l, _, hq, rfl⟩ := migrate_ok.1 hs; exact inside_same rfl rfl rfl rfl rfl
  | migratePending c v =>
    obtain ⟨hc, _, _, _, t, m, _, hm, rfl⟩ := migratePending_ok.1 hs
    exact inside_same rfl rfl (paid hm) rfl rfl
  | addRewards c v =>
    obtain ⟨hc, t, m, _, hm, rfl⟩ := addRewards_ok.1 hs
    exact inside_same rfl rfl (paid hm) rfl rfl
  | setMigrationSc c a => obtain ⟨_, _, _, rfl⟩ := setMigrationSc_ok.1 hs; exact inside_same rfl rfl rfl rfl rfl
  | registerLsToken c v =>
    obtain ⟨hc, _, _, _, m, hm, rfl⟩ := registerLsToken_ok.1 hs
    have h1 := tot_debit hm
    show tot m + fsum carried w.flights + costs (w.issues ++ [⟨.ls, c, v⟩]) + 0 = tot w.egld + fsum carried w.flights + costs w.issues + 0
    rw [costs_append]
    simp only [costs]; omega
  | registerUnstakeToken c v =>
    obtain ⟨hc, _, _, _, m, hm, rfl⟩ := registerUnstakeToken_ok.1 hs
    have h1 := tot_debit hm
    show tot m + fsum carried w.flights + costs (w.issues ++ [⟨.unstake, c, v⟩]) + 0 = tot w.egld + fsum carried w.flights + costs w.issues + 0
    rw [costs_append]
    simp only [costs]; omega
  | issued i o =>
    obtain ⟨x, E, hx, _, hE, rfl⟩ := issued_ok.1 hs
    have hc := costs_eraseIdx hx
    cases o with
    | none =>
      rw [if_pos rfl] at hE
      obtain ⟨m, hm, rfl⟩ := hE
      have h1 := paid (d := x.caller) hm
      have h2 := tot_credit w.egld w.self x.cost
      show tot (credit m x.caller x.cost) + fsum carried w.flights + costs (w.issues.eraseIdx i) + 0 =
        tot w.egld + fsum carried w.flights + costs w.issues + 0
      omega
    | some id =>
      rw [if_neg (by simp)] at hE
      subst hE
      have hl : leaving w (.issued i (some id)) = x.cost := by
        unfold leaving; simp only [hx]
      rw [hl]
      show tot w.egld + fsum carried w.flights + costs (w.issues.eraseIdx i) + x.cost =
        tot w.egld + fsum carried w.flights + costs w.issues + 0
      omega
  | owner c cmd => obtain ⟨_, _, st, h1, rfl⟩ := ownerCmd_ok.1 hs; exact inside_same rfl rfl rfl rfl rfl
  | setScoringConfig c cfg => obtain ⟨_, _, _, rfl⟩ := setScoringConfig_ok.1 hs; exact inside_same rfl rfl rfl rfl rfl
  | viewLsValue l =>
    simp only [step, bind_ok, Prod.exists, Except.ok.injEq] at hs
    obtain ⟨e, w1, h1, rfl⟩ := hs
    obtain ⟨_, _, rfl⟩ := viewLsValue_ok.1 h1
    exact inside_same rfl rfl rfl rfl rfl
  | viewEgldPosition l =>
    simp only [step, bind_ok, Prod.exists, Except.ok.injEq] at hs
    obtain ⟨e, w1, h1, rfl⟩ := hs
    obtain ⟨_, _, rfl⟩ := viewEgldPosition_ok.1 h1
    exact inside_same rfl rfl rfl rfl rfl
  | deliver i o =>
    obtain ⟨f, hf, hcb⟩ := deliver_ok hs
    have he := fsum_eraseIdx carried hf
    have ha := attached_balance (o := o) hf
    have hE : tot w'.egld = tot w.egld + attached f o ∧ w'.flights = w.flights.eraseIdx i ∧ w'.issues = w.issues := by
      have h1 := tot_credit w.egld w.self (attached f o)
      rcases hcb with hcb | ⟨_, rfl⟩
      · obtain ⟨h2, h3⟩ := runCallback_tot hcb
        exact ⟨h2.trans h1, (runCallback_flights hcb).1, h3⟩
      · exact ⟨h1, rfl, rfl⟩
    unfold inside
    rw [hE.1, hE.2.1, hE.2.2]
    omega
  | transferLs s d v => obtain ⟨_, _, m, hm, rfl⟩ := transferLs_ok.1 hs; exact inside_same rfl rfl rfl rfl rfl
  | transferNft s d n v => obtain ⟨h1, h2, m, hm, rfl⟩ := transferNft_ok.1 hs; exact inside_same rfl rfl rfl rfl rfl
  | fund a v =>
    obtain ⟨h1, rfl⟩ := fund_ok.1 hs
    have h2 := tot_credit w.egld a v
    show tot (credit w.egld a v) + fsum carried w.flights + costs w.issues + 0 = tot w.egld + fsum carried w.flights + costs w.issues + v
    omega
  | advance e => obtain ⟨_, rfl⟩ := advance_ok.1 hs; exact inside_same rfl rfl rfl rfl rfl
  | changeOwner c d => obtain ⟨_, _, rfl⟩ := changeOwner_ok.1 hs; exact inside_same rfl rfl rfl rfl rfl
  | transferEgld s d v =>
    obtain ⟨_, _, m, hm, rfl⟩ := transferEgld_ok.1 hs
    exact inside_same rfl rfl (paid hm) rfl rfl
  | giveEgld s v =>
    obtain ⟨_, _, m, hm, rfl⟩ := giveEgld_ok.1 hs
    exact inside_same rfl rfl (paid hm) rfl rfl
  | giveLs s v => obtain ⟨_, _, m, hm, rfl⟩ := giveLs_ok.1 hs; exact inside_same rfl rfl rfl rfl rfl
  | giveUnstake s n v => obtain ⟨_, _, m, hm, rfl⟩ := giveUnstake_ok.1 hs; exact inside_same rfl rfl rfl rfl rfl
  | burnLs a v => obtain ⟨_, m, hm, rfl⟩ := holderBurnLs_ok.1 hs; exact inside_same rfl rfl rfl rfl rfl
  | burnUnstake a n v => obtain ⟨_, m, hm, rfl⟩ := holderBurnNft_ok.1 hs; exact inside_same rfl rfl rfl rfl rfl
  | starve i o =>
    obtain ⟨f, hf, rfl⟩ := starve_ok hs
    have he := fsum_eraseIdx carried hf
    have ha := attached_balance (o := o) hf
    have h1 := tot_credit w.egld w.self (attached f o)
    have e1 : leaving w (.starve i o) = leaving w (.deliver i o) := by cases o <;> rfl
    have e2 : entering w (.starve i o) = entering w (.deliver i o) := by cases o <;> rfl
    rw [e1, e2]
    show tot (credit w.egld w.self (attached f o)) + fsum carried (w.flights.eraseIdx i) + costs w.issues + _ = _
    unfold inside
    omega

end LS
