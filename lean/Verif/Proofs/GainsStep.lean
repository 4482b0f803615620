import Verif.Proofs.Gains

/-! The account of every transaction there is. -/

namespace LS
open Spec

section
variable {C : Finset Addr} {w w' : World} {u u' : Nat}

theorem group_debit {m m' : Map Addr Nat} {c : Addr} {v : Nat} (h : debit m c v = .ok m') :
    ∑ a ∈ C, m'.get 0 a + (if c ∈ C then v else 0) = ∑ a ∈ C, m.get 0 a := by
  rw [sum_total, sum_total, ← total_debit (fun a => decide (a ∈ C)) h]
  simp only [decide_eq_true_eq]

theorem group_credit (m : Map Addr Nat) (c : Addr) (v : Nat) :
    ∑ a ∈ C, (credit m c v).get 0 a = ∑ a ∈ C, m.get 0 a + (if c ∈ C then v else 0) := by
  rw [sum_total, sum_total, total_credit]
  simp only [decide_eq_true_eq]

private theorem cast_when (p : Prop) [Decidable p] (v : Nat) : (((if p then v else 0 : Nat) : Nat) : ℚ) = if p then (v : ℚ) else 0 := by
  split <;> simp

/-! ### EGLD -/

theorem ex_transferEgld {s d : Addr} {v : Nat} (hr : Reachable w) (hs : step w (.transferEgld s d v) = .ok w')
    (hu : IsSum (unstakesIn C w) u) (hu' : IsSum (unstakesIn C w') u') : Explained C w w' (.transferEgld s d v) u u' := by
  obtain ⟨_, _, m, hm, rfl⟩ := transferEgld_ok.1 hs
  have h1 : ∑ a ∈ C, (credit m d v).get 0 a = _ := group_credit m d v
  have h2 := group_debit (C := C) hm
  refine explained_egld (i := if s ∉ C ∧ d ∈ C then v else 0) (o := if s ∈ C ∧ d ∉ C then v else 0) hr hs hu hu' rfl ?_ (by simp [touched])
    (by simp [touched]) (by simp [touched]) rfl rfl (cast_when _ _).symm (cast_when _ _).symm
  show ∑ a ∈ C, (credit m d v).get 0 a + _ = ∑ a ∈ C, w.egld.get 0 a + _
  by_cases a1 : s ∈ C <;> by_cases a2 : d ∈ C <;> simp only [a1, a2, if_true, if_false, not_true, not_false_iff, and_true, and_false, true_and] at h1 h2 ⊢ <;> omega

theorem ex_giveEgld {s : Addr} {v : Nat} (hr : Reachable w) (hs : step w (.giveEgld s v) = .ok w') (hself : w.self ∉ C)
    (hu : IsSum (unstakesIn C w) u) (hu' : IsSum (unstakesIn C w') u') : Explained C w w' (.giveEgld s v) u u' := by
  obtain ⟨_, _, m, hm, rfl⟩ := giveEgld_ok.1 hs
  have h1 : ∑ a ∈ C, (credit m w.self v).get 0 a = _ := group_credit m w.self v
  have h2 := group_debit (C := C) hm
  refine explained_egld (i := 0) (o := if s ∈ C then v else 0) hr hs hu hu' rfl ?_ (by simp [touched])
    (by simp [touched]) (by simp [touched]) rfl rfl (by simp [handed]) (cast_when _ _).symm
  show ∑ a ∈ C, (credit m w.self v).get 0 a + _ = ∑ a ∈ C, w.egld.get 0 a + _
  rw [if_neg hself] at h1
  omega

theorem ex_fund {s : Addr} {v : Nat} (hr : Reachable w) (hs : step w (.fund s v) = .ok w')
    (hu : IsSum (unstakesIn C w) u) (hu' : IsSum (unstakesIn C w') u') : Explained C w w' (.fund s v) u u' := by
  obtain ⟨_, rfl⟩ := fund_ok.1 hs
  have h1 : ∑ a ∈ C, (credit w.egld s v).get 0 a = _ := group_credit w.egld s v
  refine explained_egld (i := if s ∈ C then v else 0) (o := 0) hr hs hu hu' rfl ?_ (by simp [touched])
    (by simp [touched]) (by simp [touched]) rfl rfl (cast_when _ _).symm (by simp [spent])
  exact h1

theorem ex_claimFees {c : Addr} {x : Bool} (hr : Reachable w) (hs : step w (.claimFees c x) = .ok w') (hself : w.self ∉ C)
    (hu : IsSum (unstakesIn C w) u) (hu' : IsSum (unstakesIn C w') u') : Explained C w w' (.claimFees c x) u u' := by
  obtain ⟨_, _, _, _, _, m, hm, rfl⟩ := claimFees_ok hs
  have h1 : ∑ a ∈ C, (credit m w.st.accumulator w.st.r.fees).get 0 a = _ := group_credit m w.st.accumulator w.st.r.fees
  have h2 := group_debit (C := C) hm
  refine explained_egld (i := if w.st.accumulator ∈ C then feesReserve w else 0) (o := 0) hr hs hu hu' rfl ?_ (by simp [touched])
    (by simp [touched]) (by simp [touched]) rfl rfl (cast_when _ _).symm (by simp [spent])
  show ∑ a ∈ C, (credit m w.st.accumulator w.st.r.fees).get 0 a + _ = ∑ a ∈ C, w.egld.get 0 a + if _ then w.st.r.fees else 0
  rw [if_neg hself] at h2
  omega

theorem ex_whitelist {c : Addr} {v : Nat} {p ad : Addr} {ts cap : Nat} {n apy : UInt64} (hr : Reachable w)
    (hs : step w (.whitelist c v p ad ts cap n apy) = .ok w') (hself : w.self ∉ C)
    (hu : IsSum (unstakesIn C w) u) (hu' : IsSum (unstakesIn C w') u') : Explained C w w' (.whitelist c v p ad ts cap n apy) u u' := by
  obtain ⟨hcs, _, _, _, hnone, _, _, _, E, hE, hEc, hEo, rfl⟩ := whitelist_ok hs
  refine explained_egld (i := 0) (o := if c ∈ C then v else 0) hr hs hu hu' rfl ?_ (by simp [touched])
    (by simp [touched]) (by simp [touched]) rfl rfl (by simp [handed]) (cast_when _ _).symm
  show ∑ a ∈ C, E.get 0 a + _ = ∑ a ∈ C, w.egld.get 0 a + _
  by_cases hc : c ∈ C
  · have := sum_at (f := fun a => w.egld.get 0 a) (f' := fun a => E.get 0 a) hc (fun a ha hac => hEo a (fun e => hself (e ▸ ha)) hac)
    rw [if_pos hc]
    omega
  · rw [if_neg hc, sum_same fun a ha => hEo a (fun e => hself (e ▸ ha)) (fun e => hc (e ▸ ha))]

theorem ex_migratePending {c : Addr} {v : Nat} (hr : Reachable w) (hs : step w (.migratePending c v) = .ok w') (hself : w.self ∉ C)
    (hu : IsSum (unstakesIn C w) u) (hu' : IsSum (unstakesIn C w') u') : Explained C w w' (.migratePending c v) u u' := by
  obtain ⟨_, _, h1, _, h3, _⟩ := C39_migratePending hs
  refine explained_egld (i := 0) (o := if c ∈ C then v else 0) hr hs hu hu' rfl ?_ (by simp [touched])
    (by simp [touched]) (by simp [touched]) rfl rfl (by simp [handed]) (cast_when _ _).symm
  by_cases hc : c ∈ C
  · have := sum_at (f := egldOf w) (f' := egldOf w') hc (fun a ha hac => h3 a hac (fun e => hself (e ▸ ha)))
    rw [if_pos hc]
    omega
  · rw [if_neg hc, sum_same fun a ha => h3 a (fun e => hc (e ▸ ha)) (fun e => hself (e ▸ ha))]

theorem ex_registerLs {c : Addr} {v : Nat} (hr : Reachable w) (hs : step w (.registerLsToken c v) = .ok w')
    (hu : IsSum (unstakesIn C w) u) (hu' : IsSum (unstakesIn C w') u') : Explained C w w' (.registerLsToken c v) u u' := by
  obtain ⟨_, _, _, _, m, hm, rfl⟩ := registerLsToken_ok.1 hs
  have h2 := group_debit (C := C) hm
  exact explained_egld (i := 0) (o := if c ∈ C then v else 0) hr hs hu hu' rfl h2 (by simp [touched])
    (by simp [touched]) (by simp [touched]) rfl rfl (by simp [handed]) (cast_when _ _).symm

theorem ex_registerUnstake {c : Addr} {v : Nat} (hr : Reachable w) (hs : step w (.registerUnstakeToken c v) = .ok w')
    (hu : IsSum (unstakesIn C w) u) (hu' : IsSum (unstakesIn C w') u') : Explained C w w' (.registerUnstakeToken c v) u u' := by
  obtain ⟨_, _, _, _, m, hm, rfl⟩ := registerUnstakeToken_ok.1 hs
  have h2 := group_debit (C := C) hm
  exact explained_egld (i := 0) (o := if c ∈ C then v else 0) hr hs hu hu' rfl h2 (by simp [touched])
    (by simp [touched]) (by simp [touched]) rfl rfl (by simp [handed]) (cast_when _ _).symm

theorem ex_issued {i : Nat} {o : Option TokenId} (hr : Reachable w) (hs : step w (.issued i o) = .ok w') (hself : w.self ∉ C)
    (hu : IsSum (unstakesIn C w) u) (hu' : IsSum (unstakesIn C w') u') : Explained C w w' (.issued i o) u u' := by
  obtain ⟨x, E, hx, _, hE, hw⟩ := issued_ok.1 hs
  have t1 : Part.reserve ∉ touched w (.issued i o) := by simp only [touched]; split <;> simp <;> split <;> simp
  have t2 : Part.supply ∉ touched w (.issued i o) := by simp only [touched]; split <;> simp <;> split <;> simp
  have t3 : ∀ a ∈ C, Part.ls a ∉ touched w (.issued i o) := by
    intro a _
    simp only [touched]; split <;> simp <;> split <;> simp
  cases o with
  | some id =>
    simp only [reduceCtorEq, if_false] at hE
    refine explained_egld (i := 0) (o := 0) hr hs hu hu' rfl ?_ t3 t1 t2 rfl rfl (by simp [handed]) (by simp [spent])
    rw [hw, hE]; rfl
  | none =>
    simp only [if_true] at hE
    obtain ⟨m, hm, hE⟩ := hE
    have h0 := group_credit (C := C) w.egld w.self x.cost
    have h1 := group_debit (C := C) hm
    have h2 : ∑ a ∈ C, (credit m x.caller x.cost).get 0 a = _ := group_credit m x.caller x.cost
    rw [if_neg hself] at h0 h1
    refine explained_egld (i := if x.caller ∈ C then x.cost else 0) (o := 0) hr hs hu hu' rfl ?_ t3 t1 t2 rfl rfl ?_ (by simp [spent])
    · rw [hw, hE]
      show ∑ a ∈ C, (credit m x.caller x.cost).get 0 a + _ = ∑ a ∈ C, w.egld.get 0 a + _
      omega
    · simp only [handed, hx]
      exact (cast_when _ _).symm

/-! ### LS tokens -/

theorem ex_transferLs {s d : Addr} {v : Nat} (hr : Reachable w) (hs : step w (.transferLs s d v) = .ok w')
    (hu : IsSum (unstakesIn C w) u) (hu' : IsSum (unstakesIn C w') u') : Explained C w w' (.transferLs s d v) u u' := by
  have e3 := unstakes_same hs rfl hu hu'
  obtain ⟨_, _, m, hm, rfl⟩ := transferLs_ok.1 hs
  have h1 : ∑ a ∈ C, (credit m d v).get 0 a = _ := group_credit m d v
  have h2 := group_debit (C := C) hm
  refine explained_flat (i := 0) (o := 0) (li := if s ∉ C ∧ d ∈ C then v else 0) (lo := if s ∈ C ∧ d ∉ C then v else 0) (by rw [e3]; rfl) ?_ rfl
    rfl rfl rfl ?_ ?_
  · show ∑ a ∈ C, (credit m d v).get 0 a + _ = ∑ a ∈ C, w.ls.get 0 a + _
    by_cases a1 : s ∈ C <;> by_cases a2 : d ∈ C <;> simp only [a1, a2, if_true, if_false, not_true, not_false_iff, and_true, and_false, true_and] at h1 h2 ⊢ <;> omega
  · rw [cast_when]; simp only [handed]; split <;> simp
  · rw [cast_when]; simp only [spent]; split <;> simp

theorem ex_burnLs {s : Addr} {v : Nat} (hs : step w (.burnLs s v) = .ok w')
    (hu : IsSum (unstakesIn C w) u) (hu' : IsSum (unstakesIn C w') u') : Explained C w w' (.burnLs s v) u u' := by
  have e3 := unstakes_same hs rfl hu hu'
  obtain ⟨_, m, hm, rfl⟩ := holderBurnLs_ok.1 hs
  refine explained_flat (i := 0) (o := 0) (li := 0) (lo := if s ∈ C then v else 0) (by rw [e3]; rfl) (group_debit (C := C) hm) rfl
    rfl rfl rfl (by simp [handed]) ?_
  rw [cast_when]; simp only [spent]; split <;> simp

theorem ex_giveLs {s : Addr} {v : Nat} (hs : step w (.giveLs s v) = .ok w') (hself : w.self ∉ C)
    (hu : IsSum (unstakesIn C w) u) (hu' : IsSum (unstakesIn C w') u') : Explained C w w' (.giveLs s v) u u' := by
  have e3 := unstakes_same hs rfl hu hu'
  obtain ⟨_, _, m, hm, rfl⟩ := giveLs_ok.1 hs
  have h1 : ∑ a ∈ C, (credit m w.self v).get 0 a = _ := group_credit m w.self v
  have h2 := group_debit (C := C) hm
  rw [if_neg hself] at h1
  refine explained_flat (i := 0) (o := 0) (li := 0) (lo := if s ∈ C then v else 0) (by rw [e3]; rfl) ?_ rfl
    rfl rfl rfl (by simp [handed]) ?_
  · show ∑ a ∈ C, (credit m w.self v).get 0 a + _ = ∑ a ∈ C, w.ls.get 0 a + _
    omega
  · rw [cast_when]; simp only [spent]; split <;> simp

/-! ### Unstake tokens -/

theorem ex_transferNft {s d : Addr} {n v : Nat} (hs : step w (.transferNft s d n v) = .ok w')
    (hu : IsSum (unstakesIn C w) u) (hu' : IsSum (unstakesIn C w') u') : Explained C w w' (.transferNft s d n v) u u' := by
  obtain ⟨_, _, m, hm, rfl⟩ := transferNft_ok.1 hs
  refine explained_flat (i := if s ∉ C ∧ d ∈ C then v else 0) (o := if s ∈ C ∧ d ∉ C then v else 0) (li := 0) (lo := 0) ?_ rfl rfl
    rfl rfl rfl ?_ ?_
  · have e : u' + (if s ∈ C ∧ d ∉ C then v else 0) = u + if s ∉ C ∧ d ∈ C then v else 0 := by
      rw [hu'.unique (isSum_unstakesIn C _), hu.unique (isSum_unstakesIn C w)]
      show (credit m (n, d) v).total _ + _ = _
      rw [total_credit, ← total_debit (fun p : Nat × Addr => decide (p.2 ∈ C)) hm]
      by_cases a1 : s ∈ C <;> by_cases a2 : d ∈ C <;> simp [a1, a2]
    show ∑ a ∈ C, egldOf w a + u' + _ = _
    omega
  · rw [cast_when]; simp only [handed]; split <;> simp
  · rw [cast_when]; simp only [spent]; split <;> simp

theorem ex_burnUnstake {s : Addr} {n v : Nat} (hs : step w (.burnUnstake s n v) = .ok w')
    (hu : IsSum (unstakesIn C w) u) (hu' : IsSum (unstakesIn C w') u') : Explained C w w' (.burnUnstake s n v) u u' := by
  obtain ⟨_, m, hm, rfl⟩ := holderBurnNft_ok.1 hs
  refine explained_flat (i := 0) (o := if s ∈ C then v else 0) (li := 0) (lo := 0) ?_ rfl rfl rfl rfl rfl (by simp [handed]) ?_
  · have e : u' + (if s ∈ C then v else 0) = u := by
      rw [hu'.unique (isSum_unstakesIn C _), hu.unique (isSum_unstakesIn C w)]
      have := total_debit (fun p : Nat × Addr => decide (p.2 ∈ C)) hm
      simp only [decide_eq_true_eq] at this
      exact this
    show ∑ a ∈ C, egldOf w a + u' + _ = _
    omega
  · rw [cast_when]; simp only [spent]; split <;> simp

theorem ex_giveUnstake {s : Addr} {n v : Nat} (hs : step w (.giveUnstake s n v) = .ok w') (hself : w.self ∉ C)
    (hu : IsSum (unstakesIn C w) u) (hu' : IsSum (unstakesIn C w') u') : Explained C w w' (.giveUnstake s n v) u u' := by
  obtain ⟨_, _, m, hm, rfl⟩ := giveUnstake_ok.1 hs
  refine explained_flat (i := 0) (o := if s ∈ C then v else 0) (li := 0) (lo := 0) ?_ rfl rfl rfl rfl rfl (by simp [handed]) ?_
  · have e : u' + (if s ∈ C then v else 0) = u := by
      rw [hu'.unique (isSum_unstakesIn C _), hu.unique (isSum_unstakesIn C w)]
      show (credit m (n, w.self) v).total _ + _ = _
      rw [total_credit, ← total_debit (fun p : Nat × Addr => decide (p.2 ∈ C)) hm]
      simp [hself]
    show ∑ a ∈ C, egldOf w a + u' + _ = _
    omega
  · rw [cast_when]; simp only [spent]; split <;> simp

theorem ex_withdraw {c : Addr} {v : Nat} {ps : List Payment} (hr : Reachable w) (hs : step w (.withdraw c v ps) = .ok w') (hself : w.self ∉ C)
    (hu : IsSum (unstakesIn C w) u) (hu' : IsSum (unstakesIn C w') u') : Explained C w w' (.withdraw c v ps) u u' := by
  have hne : ∀ a ∈ C, a ≠ w.self := fun a ha e => hself (e ▸ ha)
  obtain ⟨burned, x, _, hb, _, h1, h2, _, _, hst, h5, h6, h7⟩ := C11_withdraw_one_to_one hr hs
  have hR : reserve w' = reserve w := by unfold reserve; rw [hst]
  have hS : supply w' = supply w := by unfold supply; rw [hst]
  have e2 : ∑ a ∈ C, lsOf w' a = ∑ a ∈ C, lsOf w a := sum_same fun a _ => h7 a
  refine explained_flat (i := 0) (o := if c ∈ C then v else 0) (li := 0) (lo := 0) ?_ (by omega) hR hS rfl rfl (by simp [handed]) ?_
  · by_cases hcC : c ∈ C
    · have e1 := sum_at (f := egldOf w) (f' := egldOf w') hcC (fun a ha hac => h5 a hac (hne a ha))
      have e3 : u = u' + x := by
        refine hu.unique ((hu'.add (isSum_atAccount hb c)).congr fun p => ?_)
        obtain ⟨n, a⟩ := p
        unfold unstakesIn
        dsimp only
        by_cases hac : a = c
        · subst hac; rw [if_pos hcC, if_pos rfl, if_pos hcC]; exact h1 n
        · rw [if_neg hac, h6 n a hac]; rfl
      rw [if_pos hcC]
      omega
    · have e3 : u' = u := by
        refine hu'.unique (hu.congr fun p => ?_)
        unfold unstakesIn
        by_cases ha : p.2 ∈ C
        · rw [if_pos ha, if_pos ha, h6 _ _ (fun e => hcC (e ▸ ha))]
        · rw [if_neg ha, if_neg ha]
      have e1 : ∑ a ∈ C, egldOf w' a = ∑ a ∈ C, egldOf w a := sum_same fun a ha => h5 a (fun e => hcC (e ▸ ha)) (hne a ha)
      rw [if_neg hcC]
      omega
  · rw [cast_when]; simp only [spent]; split <;> simp

/-! ### Rewards -/

theorem ex_addRewards {c : Addr} {v : Nat} (hs : step w (.addRewards c v) = .ok w') (hself : w.self ∉ C)
    (hu : IsSum (unstakesIn C w) u) (hu' : IsSum (unstakesIn C w') u') : Explained C w w' (.addRewards c v) u u' := by
  have e3 := unstakes_same hs rfl hu hu'
  obtain ⟨_, t, m, _, hm, rfl⟩ := addRewards_ok.1 hs
  have h1 : ∑ a ∈ C, (credit m w.self v).get 0 a = _ := group_credit m w.self v
  have h2 := group_debit (C := C) hm
  rw [if_neg hself] at h1
  refine explained_credit (o := if c ∈ C then v else 0) ?_ e3 rfl rfl rfl rfl rfl ?_
  · show ∑ a ∈ C, (credit m w.self v).get 0 a + _ = ∑ a ∈ C, w.egld.get 0 a
    omega
  · rw [cast_when]; simp only [spent]

/-! ### Deposits and redemptions -/

theorem ex_delegate {c : Addr} {v : Nat} (hr : Reachable w) (hs : step w (.delegate c v) = .ok w') (hself : w.self ∉ C)
    (hu : IsSum (unstakesIn C w) u) (hu' : IsSum (unstakesIn C w') u') : Explained C w w' (.delegate c v) u u' := by
  have hne : ∀ a ∈ C, a ≠ w.self := fun a ha e => hself (e ▸ ha)
  obtain ⟨h1, h2, h3, h4, _, h5, h6, _⟩ := C01_delegate_mints_pro_rata hs
  have e3 := unstakes_same hs rfl hu hu'
  by_cases hc : c ∈ C
  · obtain ⟨_, _, _, m, t, p, e, l, _, _, _, _, _, hq, _⟩ := delegate_ok.1 hs
    obtain ⟨hl0, hl⟩ := lsQuote_iff.1 hq
    have hl' : l = lsFor (supply w) (reserve w) v := hl
    have e1 := sum_at (f := egldOf w) (f' := egldOf w') hc (fun a ha hac => h5 a hac (hne a ha))
    have e2 := sum_at (f := lsOf w) (f' := lsOf w') hc (fun a ha hac => h6 a hac)
    have e4 : ∑ x ∈ C, egldOf w' x + v = ∑ x ∈ C, egldOf w x := by omega
    refine explained_deposit (a := v) (m := lsFor (supply w) (reserve w) v) hr rfl hc rfl (by omega) ?_ (by omega) e3 h4 h3 rfl rfl
    simp only [handed, add_zero]
    exact_mod_cast e4
  · exact explained_outsider hr hs rfl hc (fun a ha => h5 a (fun e => hc (e ▸ ha)) (hne a ha)) (fun a ha => h6 a (fun e => hc (e ▸ ha))) e3 rfl
      rfl rfl

theorem ex_migrate {c : Addr} {v : Nat} {o : Addr} (hr : Reachable w) (hs : step w (.migrate c v o) = .ok w')
    (hu : IsSum (unstakesIn C w) u) (hu' : IsSum (unstakesIn C w') u') : Explained C w w' (.migrate c v o) u u' := by
  obtain ⟨_, h2, h6, h3, h4, _, h5, _⟩ := C39_migrate hr hs
  have e3 := unstakes_same hs rfl hu hu'
  by_cases hc : c ∈ C
  · obtain ⟨_, _, _, _, t, l, _, hq, _⟩ := migrate_ok.1 hs
    obtain ⟨hl0, hl⟩ := lsQuote_iff.1 hq
    have hl' : l = lsFor (supply w) (reserve w) v := hl
    have e1 : ∑ x ∈ C, egldOf w' x = ∑ x ∈ C, egldOf w x := sum_same fun a _ => h5 a
    have e2 := sum_at (f := lsOf w) (f' := lsOf w') hc (fun a ha hac => h6 a hac)
    refine explained_deposit (a := v) (m := lsFor (supply w) (reserve w) v) hr rfl hc rfl (by omega) ?_ (by omega) e3 h4 h3 rfl rfl
    simp only [handed, if_pos hc, e1]
  · exact explained_outsider hr hs rfl hc (fun a _ => h5 a) (fun a ha => h6 a (fun e => hc (e ▸ ha))) e3 rfl (if_neg hc) rfl

theorem ex_unDelegate {c : Addr} {v : Nat} {ps : List Payment} (hr : Reachable w) (hs : step w (.unDelegate c v ps) = .ok w') (hself : w.self ∉ C)
    (hu : IsSum (unstakesIn C w) u) (hu' : IsSum (unstakesIn C w') u') : Explained C w w' (.unDelegate c v ps) u u' := by
  have hne : ∀ a ∈ C, a ≠ w.self := fun a ha e => hself (e ▸ ha)
  obtain ⟨t, l, i, x, n, _, _, _, hcs, hiu, h1, hp, h3, h4, _, h5, h6, h7⟩ := C02_unDelegate_pays_pro_rata hs
  by_cases hc : c ∈ C
  · have e1 := sum_at (f := egldOf w) (f' := egldOf w') hc (fun a ha hac => h5 a hac (hne a ha))
    have e2 := sum_at (f := lsOf w) (f' := lsOf w') hc (fun a ha hac => h6 a hac)
    have e3 : u' = u + x := by
      refine hu'.unique ((hu.add (isSum_single (n, c) x)).congr fun p => ?_)
      obtain ⟨m, a⟩ := p
      unfold unstakesIn
      dsimp only
      by_cases ha : a ∈ C
      · rw [if_pos ha, if_pos ha]
        by_cases hac : a = c
        · subst hac
          by_cases hk : m = n
          · subst hk; rw [if_pos rfl, hp.2.1]
          · rw [if_neg (by simp [Ne.symm hk]), hp.2.2 m hk]; rfl
        · rw [if_neg (by simp [Ne.symm hac]), h7 m a hac (hne a ha)]; rfl
      · rw [if_neg ha, if_neg ha, if_neg]
        intro e; cases e; exact ha hc
    have := hp.1
    exact explained_redeem (x := l) (y := i + x) hr rfl hc hiu (by omega) (by omega) h4 h3 rfl rfl rfl
  · have e3 : u' = u := by
      refine hu'.unique (hu.congr fun p => ?_)
      unfold unstakesIn
      by_cases ha : p.2 ∈ C
      · rw [if_pos ha, if_pos ha, h7 _ _ (fun e => hc (e ▸ ha)) (hne _ ha)]
      · rw [if_neg ha, if_neg ha]
    exact explained_outsider hr hs rfl hc (fun a ha => h5 a (fun e => hc (e ▸ ha)) (hne a ha)) (fun a ha => h6 a (fun e => hc (e ▸ ha))) e3 rfl
      rfl rfl

/-! ### Callbacks -/

theorem ex_whitelisted {i : Nat} {o : Outcome} {p : Addr} {a : Nat} {c : Addr} (hr : Reachable w) (hs : step w (.deliver i o) = .ok w')
    (hself : w.self ∉ C) (hu : IsSum (unstakesIn C w) u) (hu' : IsSum (unstakesIn C w') u') (hf : w.flights[i]? = some (.whitelist p a c)) :
    Explained C w w' (.deliver i o) u u' := by
  have hne : ∀ a ∈ C, a ≠ w.self := fun a ha e => hself (e ▸ ha)
  have e3 := unstakes_same hs rfl hu hu'
  have hd : dealer w (.deliver i o) = some c := by simp only [dealer, hf]
  have hcr : creditedBy w (.deliver i o) = 0 := by cases o <;> simp [creditedBy, hf]
  by_cases hc : c ∈ C
  · obtain ⟨f, hf', hcb⟩ := deliver_ok hs
    obtain rfl : f = .whitelist p a c := by rw [hf] at hf'; exact (Option.some.inj hf').symm
    have hsum : ∑ x ∈ C, (credit w.egld w.self (attached (.whitelist p a c) o)).get 0 x = ∑ x ∈ C, w.egld.get 0 x := by
      rw [group_credit, if_neg hself, Nat.add_zero]
    have flat : ∀ {h : Nat}, ∑ x ∈ C, egldOf w' x = ∑ x ∈ C, egldOf w x + h → ∑ x ∈ C, lsOf w' x = ∑ x ∈ C, lsOf w x →
        reserve w' = reserve w → supply w' = supply w → handed C w w' (.deliver i o) = h → Explained C w w' (.deliver i o) u u' := by
      intro h k1 k2 k3 k4 k5
      have e : residue C w w' (.deliver i o) u u' = 0 := by
        unfold residue worth shareOf rate
        rw [k5, k1, k2, k3, k4, e3, hcr]
        simp only [spent]
        push_cast
        ring
      unfold Explained roundingLoss roundingGain
      rw [e, hd]
      simp only [if_pos hc]
      have : (0 : ℚ) ≤ max (rate w) 1 := le_trans zero_le_one (le_max_right _ _)
      exact ⟨by linarith, le_refl _⟩
    rcases hcb with hcb | ⟨_, rfl⟩
    · cases o with
      | ok e r =>
        obtain ⟨t, d, l, _, _, hq, hw⟩ := whitelistCb_true_ok.1 hcb
        obtain ⟨hl0, hl⟩ := lsQuote_iff.1 hq
        have hl' : l = lsFor (supply w) (reserve w) a := hl
        have hls : ∀ x, lsOf w' x = if x = c then lsOf w x + l else lsOf w x := by
          intro x
          rw [hw]
          show (mintTo w.ls w.self c l).get 0 x = _
          rw [get_mintTo]
          by_cases hx : x = c
          · rw [if_pos hx.symm, if_pos hx]; rfl
          · rw [if_neg (Ne.symm hx), if_neg hx]; rfl
        have e1 : ∑ x ∈ C, egldOf w' x = ∑ x ∈ C, egldOf w x := by rw [hw]; exact hsum
        have e2 := sum_at (f := lsOf w) (f' := lsOf w') hc (fun x _ hxc => by rw [hls, if_neg hxc])
        have e4 : lsOf w' c = lsOf w c + l := by rw [hls, if_pos rfl]
        refine explained_deposit (a := a) (m := l) hr hd hc hl' hl0 ?_ (by omega) e3 (by rw [hw]; rfl) (by rw [hw]; rfl) hcr rfl
        have : w'.dead = w.dead := by rw [hw]; rfl
        simp only [handed, hf, hc, this, and_self, if_true, e1]
      | err =>
        obtain ⟨_, m, hm, hw⟩ := whitelistCb_false_ok.1 hcb
        have h1 := group_debit (C := C) hm
        have h2 := group_credit (C := C) m c a
        have hm' : ∑ x ∈ C, (arrive w i (.whitelist p a c) .err).egld.get 0 x = ∑ x ∈ C, w.egld.get 0 x := hsum
        have hself' : (arrive w i (.whitelist p a c) .err).self ∉ C := hself
        rw [if_neg hself', hm'] at h1
        rw [if_pos hc] at h2
        refine flat (h := a) ?_ (by rw [hw]; rfl) (by rw [hw]; rfl) (by rw [hw]; rfl) ?_
        · rw [hw]
          show ∑ x ∈ C, (credit m c a).get 0 x = ∑ x ∈ C, w.egld.get 0 x + a
          omega
        · have : w'.dead = w.dead := by rw [hw]; rfl
          simp only [handed, hf, hc, this, and_self, if_true]
    · refine flat (h := 0) hsum rfl rfl rfl ?_
      have : w.dead ++ [Flight.whitelist p a c] ≠ w.dead := by simp
      simp only [handed, hf]
      rw [if_neg (fun h => this h.2)]
      simp
  · refine explained_outsider hr hs hd hc (fun x hx => ?_) (fun x hx => ?_) e3 hcr ?_ rfl
    · refine parts_step hr hs (.egld x) ?_
      have h1 := hne x hx
      have h2 : x ≠ c := fun e => hc (e ▸ hx)
      cases o with
      | ok e r => simp [touched, hf, callbackParts, h1]
      | err => simp only [touched, hf, callbackParts]; split <;> simp [h1, h2]
    · refine parts_step hr hs (.ls x) ?_
      have h2 : x ≠ c := fun e => hc (e ▸ hx)
      cases o with
      | ok e r => simp [touched, hf, callbackParts, h2]
      | err => simp only [touched, hf, callbackParts]; split <;> simp
    · simp only [handed, hf]
      rw [if_neg (fun h => hc h.1)]

theorem ex_deliver {i : Nat} {o : Outcome} (hr : Reachable w) (hs : step w (.deliver i o) = .ok w')
    (hself : w.self ∉ C) (hu : IsSum (unstakesIn C w) u) (hu' : IsSum (unstakesIn C w') u') : Explained C w w' (.deliver i o) u u' := by
  have hne : ∀ a ∈ C, a ≠ w.self := fun a ha e => hself (e ▸ ha)
  obtain ⟨f, hf, _⟩ := deliver_ok hs
  cases f with
  | whitelist p a c => exact ex_whitelisted hr hs hself hu hu' hf
  | claim ps =>
    obtain ⟨h1, h2⟩ := claim_moves hr hs hf
    refine explained_credit (o := 0) ?_ (unstakes_same hs rfl hu hu') ?_ h2 h1 (by simp only [dealer, hf]) (by simp only [handed, hf])
      (by simp [spent])
    · exact sum_same fun a ha => parts_step hr hs (.egld a) (by cases o <;> simp [touched, hf, callbackParts, hne a ha])
    · exact sum_same fun a ha => parts_step hr hs (.ls a) (by cases o <;> simp [touched, hf, callbackParts])
  | delegate p a =>
    refine explained_aside hr hs hu hu' rfl (fun a ha => ?_) (fun a ha => ?_) ?_ ?_ (by simp only [dealer, hf]) ?_ (by simp only [handed, hf]) rfl
    · have := hne a ha
      cases o <;> simp [touched, hf, callbackParts, this]
    all_goals cases o <;> simp [touched, hf, callbackParts, creditedBy]
  | undelegate p a =>
    refine explained_aside hr hs hu hu' rfl (fun a ha => ?_) (fun a ha => ?_) ?_ ?_ (by simp only [dealer, hf]) ?_ (by simp only [handed, hf]) rfl
    · have := hne a ha
      cases o <;> simp [touched, hf, callbackParts, this]
    all_goals cases o <;> simp [touched, hf, callbackParts, creditedBy]
  | withdraw p =>
    refine explained_aside hr hs hu hu' rfl (fun a ha => ?_) (fun a ha => ?_) ?_ ?_ (by simp only [dealer, hf]) ?_ (by simp only [handed, hf]) rfl
    · have := hne a ha
      cases o <;> simp [touched, hf, callbackParts, this]
    all_goals cases o <;> simp [touched, hf, callbackParts, creditedBy]

/-- Every transaction there is, is explained. -/
theorem explained_step (op : Op) (hr : Reachable w) (hs : step w op = .ok w') (hself : w.self ∉ C)
    (hu : IsSum (unstakesIn C w) u) (hu' : IsSum (unstakesIn C w') u') : Explained C w w' op u u' := by
  have hne : ∀ a ∈ C, a ≠ w.self := fun a ha e => hself (e ▸ ha)
  cases op with
  | delegate c v => exact ex_delegate hr hs hself hu hu'
  | unDelegate c v ps => exact ex_unDelegate hr hs hself hu hu'
  | withdraw c v ps => exact ex_withdraw hr hs hself hu hu'
  | claimFees c x => exact ex_claimFees hr hs hself hu hu'
  | whitelist c v p ad ts cap n apy => exact ex_whitelist hr hs hself hu hu'
  | migrate c v o => exact ex_migrate hr hs hu hu'
  | migratePending c v => exact ex_migratePending hr hs hself hu hu'
  | addRewards c v => exact ex_addRewards hs hself hu hu'
  | registerLsToken c v => exact ex_registerLs hr hs hu hu'
  | registerUnstakeToken c v => exact ex_registerUnstake hr hs hu hu'
  | issued i o => exact ex_issued hr hs hself hu hu'
  | deliver i o => exact ex_deliver hr hs hself hu hu'
  | transferEgld s d v => exact ex_transferEgld hr hs hu hu'
  | transferLs s d v => exact ex_transferLs hr hs hu hu'
  | transferNft s d n v => exact ex_transferNft hs hu hu'
  | fund a v => exact ex_fund hr hs hu hu'
  | giveEgld s v => exact ex_giveEgld hr hs hself hu hu'
  | giveLs s v => exact ex_giveLs hs hself hu hu'
  | giveUnstake s n v => exact ex_giveUnstake hs hself hu hu'
  | burnLs a v => exact ex_burnLs hs hu hu'
  | burnUnstake a n v => exact ex_burnUnstake hs hu hu'
  | owner c cmd =>
    exact explained_aside hr hs hu hu' rfl (fun _ _ => by cases cmd <;> simp [touched, settingOf]) (fun _ _ => by cases cmd <;> simp [touched, settingOf])
      (by cases cmd <;> simp [touched, settingOf]) (by cases cmd <;> simp [touched, settingOf]) rfl rfl rfl rfl
  | _ =>
    exact explained_aside hr hs hu hu' rfl (fun a ha => by have := hne a ha; simp [touched, this]) (fun _ _ => by simp [touched])
      (by simp [touched]) (by simp [touched]) rfl rfl rfl rfl

/-- When an outsider deals with the pool, the LS tokens of the group stay. -/
theorem outsider_ls {op : Op} (hr : Reachable w) (hs : step w op = .ok w') (hself : w.self ∉ C) {c : Addr} (hd : dealer w op = some c)
    (hc : c ∉ C) : ∀ a ∈ C, lsOf w' a = lsOf w a := by
  intro a ha
  have h1 : a ≠ w.self := fun e => hself (e ▸ ha)
  have h2 : a ≠ c := fun e => hc (e ▸ ha)
  refine parts_step hr hs (.ls a) ?_
  cases op with
  | delegate x v => obtain rfl := Option.some.inj hd; simp [touched, h2]
  | unDelegate x v ps =>
    obtain rfl := Option.some.inj hd
    simp only [touched, positionParts]
    split <;> simp [h2]
  | migrate x v o => obtain rfl := Option.some.inj hd; simp [touched, h2]
  | deliver i o =>
    simp only [dealer] at hd
    split at hd
    · rename_i p x c' hf
      obtain rfl := Option.some.inj hd
      cases o with
      | ok e r => simp [touched, hf, callbackParts, h2]
      | err => simp only [touched, hf, callbackParts]; split <;> simp
    · simp at hd
  | _ => simp [dealer] at hd

end

end LS
