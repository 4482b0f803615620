import Verif.Spec.Deeds
import Verif.Proofs.GainsStep

/-! Every transaction does to a purse what its deeds do. -/

namespace LS
open Spec

section
variable {C : Finset Addr} {w w' : World} {u u' : Nat}

theorem purse_same {op : Op} (hr : Reachable w) (hs : step w op = .ok w') (hu : IsSum (unstakesIn C w) u) (hu' : IsSum (unstakesIn C w') u')
    (hm : movesNft op = false) (h1 : ∀ a ∈ C, Part.egld a ∉ touched w op) (h2 : ∀ a ∈ C, Part.ls a ∉ touched w op)
    (hR : Part.reserve ∉ touched w op) (hS : Part.supply ∉ touched w op) : purse C w' u' = purse C w u := by
  have e1 : ∑ a ∈ C, egldOf w' a = ∑ a ∈ C, egldOf w a := sum_same fun a ha => parts_step hr hs (.egld a) (h1 a ha)
  have e2 : ∑ a ∈ C, lsOf w' a = ∑ a ∈ C, lsOf w a := sum_same fun a ha => parts_step hr hs (.ls a) (h2 a ha)
  have e3 := unstakes_same hs hm hu hu'
  unfold purse
  rw [e1, e2, e3, parts_step hr hs .reserve hR, parts_step hr hs .supply hS]

/-- EGLD moves, nothing else. -/
theorem purse_egld {op : Op} {i o : Nat} (hr : Reachable w) (hs : step w op = .ok w') (hu : IsSum (unstakesIn C w) u)
    (hu' : IsSum (unstakesIn C w') u') (hm : movesNft op = false) (h1 : ∑ a ∈ C, egldOf w' a + o = ∑ a ∈ C, egldOf w a + i)
    (h2 : ∀ a ∈ C, Part.ls a ∉ touched w op) (hR : Part.reserve ∉ touched w op) (hS : Part.supply ∉ touched w op) :
    purse C w' u' = { purse C w u with cash := (purse C w u).cash - o + i } := by
  have e2 : ∑ a ∈ C, lsOf w' a = ∑ a ∈ C, lsOf w a := sum_same fun a ha => parts_step hr hs (.ls a) (h2 a ha)
  have e3 := unstakes_same hs hm hu hu'
  unfold purse
  rw [e2, e3, parts_step hr hs .reserve hR, parts_step hr hs .supply hS]
  ext <;> dsimp only
  omega

/-- A group member's figure moves, or the figure of an outsider does. -/
theorem group_at {f f' : Addr → Nat} {c : Addr} {x y : Nat} (hc : f' c + x = f c + y) (ho : ∀ a ∈ C, a ≠ c → f' a = f a) :
    ∑ a ∈ C, f' a + ofGroup C c x = ∑ a ∈ C, f a + ofGroup C c y := by
  unfold ofGroup
  by_cases h : c ∈ C
  · have := sum_at h ho
    simp only [if_pos h]
    omega
  · simp only [if_neg h]
    rw [sum_same fun a ha => ho a ha (fun e => h (e ▸ ha))]

theorem nft_group {m : Map (Nat × Addr) Nat} {n : Nat} {s : Addr} {v : Nat} (h : debit w.nft (n, s) v = .ok m) :
    m.total (fun p : Nat × Addr => decide (p.2 ∈ C)) + ofGroup C s v = w.nft.total (fun p : Nat × Addr => decide (p.2 ∈ C)) := by
  rw [← total_debit (fun p : Nat × Addr => decide (p.2 ∈ C)) h]
  simp only [decide_eq_true_eq]
  rfl

theorem deed_transferEgld {s d : Addr} {v : Nat} (hr : Reachable w) (hs : step w (.transferEgld s d v) = .ok w')
    (hu : IsSum (unstakesIn C w) u) (hu' : IsSum (unstakesIn C w') u') :
    purse C w' u' = (purse C w u).afterAll C [.give s v, .get d v] := by
  refine (purse_egld (i := ofGroup C d v) (o := ofGroup C s v) hr hs hu hu' rfl ?_ (by simp [touched]) (by simp [touched]) (by simp [touched]))
  obtain ⟨_, _, m, hm, rfl⟩ := transferEgld_ok.1 hs
  have h1 : ∑ a ∈ C, (credit m d v).get 0 a = _ := group_credit m d v
  have h2 := group_debit (C := C) hm
  show ∑ a ∈ C, (credit m d v).get 0 a + _ = ∑ a ∈ C, w.egld.get 0 a + _
  unfold ofGroup
  omega

theorem deed_give {op : Op} {c : Addr} {v : Nat} (hr : Reachable w) (hs : step w op = .ok w') (hself : w.self ∉ C)
    (hu : IsSum (unstakesIn C w) u) (hu' : IsSum (unstakesIn C w') u') (hm : movesNft op = false)
    (hc : egldOf w' c + v = egldOf w c) (ho : ∀ a, a ≠ c → a ≠ w.self → egldOf w' a = egldOf w a)
    (h2 : ∀ a ∈ C, Part.ls a ∉ touched w op) (hR : Part.reserve ∉ touched w op) (hS : Part.supply ∉ touched w op) :
    purse C w' u' = (purse C w u).afterAll C [.give c v] := by
  have h1 := group_at (C := C) (f := egldOf w) (f' := egldOf w') (c := c) (x := v) (y := 0) (by omega)
    (fun a ha hac => ho a hac (fun e => hself (e ▸ ha)))
  rw [purse_egld (i := 0) (o := ofGroup C c v) hr hs hu hu' hm (by rw [h1]; unfold ofGroup; simp) h2 hR hS]
  simp [Purse.afterAll, Purse.after]

theorem deed_get {op : Op} {c : Addr} {v : Nat} (hr : Reachable w) (hs : step w op = .ok w')
    (hu : IsSum (unstakesIn C w) u) (hu' : IsSum (unstakesIn C w') u') (hm : movesNft op = false)
    (h1 : ∑ a ∈ C, egldOf w' a = ∑ a ∈ C, egldOf w a + ofGroup C c v)
    (h2 : ∀ a ∈ C, Part.ls a ∉ touched w op) (hR : Part.reserve ∉ touched w op) (hS : Part.supply ∉ touched w op) :
    purse C w' u' = (purse C w u).afterAll C [.get c v] := by
  rw [purse_egld (i := ofGroup C c v) (o := 0) hr hs hu hu' hm (by omega) h2 hR hS]
  simp [Purse.afterAll, Purse.after]

theorem deed_giveEgld {s : Addr} {v : Nat} (hr : Reachable w) (hs : step w (.giveEgld s v) = .ok w') (hself : w.self ∉ C)
    (hu : IsSum (unstakesIn C w) u) (hu' : IsSum (unstakesIn C w') u') :
    purse C w' u' = (purse C w u).afterAll C [.give s v] := by
  have h1 : ∑ a ∈ C, egldOf w' a + ofGroup C s v = ∑ a ∈ C, egldOf w a + 0 := by
    obtain ⟨_, _, m, hm, rfl⟩ := giveEgld_ok.1 hs
    have h1 : ∑ a ∈ C, (credit m w.self v).get 0 a = _ := group_credit m w.self v
    have h2 := group_debit (C := C) hm
    rw [if_neg hself] at h1
    show ∑ a ∈ C, (credit m w.self v).get 0 a + _ = ∑ a ∈ C, w.egld.get 0 a + _
    unfold ofGroup
    omega
  rw [purse_egld hr hs hu hu' rfl h1 (by simp [touched]) (by simp [touched]) (by simp [touched])]
  simp [Purse.afterAll, Purse.after]

theorem deed_register {op : Op} {c : Addr} {v : Nat} (hr : Reachable w) (hs : step w op = .ok w')
    (hop : op = .registerLsToken c v ∨ op = .registerUnstakeToken c v)
    (hu : IsSum (unstakesIn C w) u) (hu' : IsSum (unstakesIn C w') u') :
    purse C w' u' = (purse C w u).afterAll C [.give c v] := by
  have h1 : ∑ a ∈ C, egldOf w' a + ofGroup C c v = ∑ a ∈ C, egldOf w a + 0 := by
    rcases hop with rfl | rfl
    · obtain ⟨_, _, _, _, m, hm, rfl⟩ := registerLsToken_ok.1 hs
      exact group_debit (C := C) hm
    · obtain ⟨_, _, _, _, m, hm, rfl⟩ := registerUnstakeToken_ok.1 hs
      exact group_debit (C := C) hm
  rw [purse_egld hr hs hu hu' (by rcases hop with rfl | rfl <;> rfl) h1 (by rcases hop with rfl | rfl <;> simp [touched])
    (by rcases hop with rfl | rfl <;> simp [touched]) (by rcases hop with rfl | rfl <;> simp [touched])]
  simp [Purse.afterAll, Purse.after]

theorem deed_claimFees {c : Addr} {x : Bool} (hr : Reachable w) (hs : step w (.claimFees c x) = .ok w') (hself : w.self ∉ C)
    (hu : IsSum (unstakesIn C w) u) (hu' : IsSum (unstakesIn C w') u') :
    purse C w' u' = (purse C w u).afterAll C [.get w.st.accumulator (feesReserve w)] := by
  refine deed_get hr hs hu hu' rfl ?_ (by simp [touched]) (by simp [touched]) (by simp [touched])
  obtain ⟨_, _, _, _, _, m, hm, rfl⟩ := claimFees_ok hs
  have h1 : ∑ a ∈ C, (credit m w.st.accumulator w.st.r.fees).get 0 a = _ := group_credit m w.st.accumulator w.st.r.fees
  have h2 := group_debit (C := C) hm
  rw [if_neg hself] at h2
  show ∑ a ∈ C, (credit m w.st.accumulator w.st.r.fees).get 0 a = ∑ a ∈ C, w.egld.get 0 a + if _ then w.st.r.fees else 0
  omega

theorem deed_issued {i : Nat} {o : Option TokenId} (hr : Reachable w) (hs : step w (.issued i o) = .ok w') (hself : w.self ∉ C)
    (hu : IsSum (unstakesIn C w) u) (hu' : IsSum (unstakesIn C w') u') :
    purse C w' u' = (purse C w u).afterAll C (deeds w w' (.issued i o)) := by
  obtain ⟨x, E, hx, _, hE, hw⟩ := issued_ok.1 hs
  have t1 : Part.reserve ∉ touched w (.issued i o) := by simp only [touched]; split <;> simp <;> split <;> simp
  have t2 : Part.supply ∉ touched w (.issued i o) := by simp only [touched]; split <;> simp <;> split <;> simp
  have t3 : ∀ a ∈ C, Part.ls a ∉ touched w (.issued i o) := by
    intro a _
    simp only [touched]; split <;> simp <;> split <;> simp
  cases o with
  | some id =>
    simp only [reduceCtorEq, if_false] at hE
    have h1 : ∑ a ∈ C, egldOf w' a + 0 = ∑ a ∈ C, egldOf w a + 0 := by rw [hw, hE]; rfl
    rw [purse_egld hr hs hu hu' rfl h1 t3 t1 t2]
    simp [deeds, Purse.afterAll]
  | none =>
    simp only [if_true] at hE
    obtain ⟨m, hm, hE⟩ := hE
    have h0 := group_credit (C := C) w.egld w.self x.cost
    have h1 := group_debit (C := C) hm
    have h2 : ∑ a ∈ C, (credit m x.caller x.cost).get 0 a = _ := group_credit m x.caller x.cost
    rw [if_neg hself] at h0 h1
    simp only [deeds, hx]
    refine deed_get hr hs hu hu' rfl ?_ t3 t1 t2
    rw [hw, hE]
    show ∑ a ∈ C, (credit m x.caller x.cost).get 0 a = ∑ a ∈ C, w.egld.get 0 a + if _ then _ else _
    omega

theorem deed_giveLs {op : Op} {s : Addr} {v : Nat} (hs : step w op = .ok w') (hself : w.self ∉ C) (hop : op = .burnLs s v ∨ op = .giveLs s v)
    (hu : IsSum (unstakesIn C w) u) (hu' : IsSum (unstakesIn C w') u') :
    purse C w' u' = (purse C w u).afterAll C [.giveLs s v] := by
  have e3 := unstakes_same hs (by rcases hop with rfl | rfl <;> rfl) hu hu'
  have h : ∑ a ∈ C, lsOf w' a + ofGroup C s v = ∑ a ∈ C, lsOf w a ∧ supply w' = supply w ∧ reserve w' = reserve w ∧
      ∑ a ∈ C, egldOf w' a = ∑ a ∈ C, egldOf w a := by
    rcases hop with rfl | rfl
    · obtain ⟨_, m, hm, rfl⟩ := holderBurnLs_ok.1 hs
      exact ⟨group_debit (C := C) hm, rfl, rfl, rfl⟩
    · obtain ⟨_, _, m, hm, rfl⟩ := giveLs_ok.1 hs
      have h1 : ∑ a ∈ C, (credit m w.self v).get 0 a = _ := group_credit m w.self v
      have h2 := group_debit (C := C) hm
      rw [if_neg hself] at h1
      refine ⟨?_, rfl, rfl, rfl⟩
      show ∑ a ∈ C, (credit m w.self v).get 0 a + _ = ∑ a ∈ C, w.ls.get 0 a
      unfold ofGroup
      omega
  obtain ⟨h1, h2, h3, h4⟩ := h
  simp only [Purse.afterAll, Purse.after, purse, List.foldl_cons, List.foldl_nil]
  ext <;> dsimp only <;> omega

theorem deed_transferLs {s d : Addr} {v : Nat} (hs : step w (.transferLs s d v) = .ok w')
    (hu : IsSum (unstakesIn C w) u) (hu' : IsSum (unstakesIn C w') u') :
    purse C w' u' = (purse C w u).afterAll C [.giveLs s v, .getLs d v] := by
  have e3 := unstakes_same hs rfl hu hu'
  obtain ⟨_, _, m, hm, rfl⟩ := transferLs_ok.1 hs
  have h1 : ∑ a ∈ C, (credit m d v).get 0 a = ∑ a ∈ C, m.get 0 a + ofGroup C d v := group_credit m d v
  have h2 : ∑ a ∈ C, m.get 0 a + ofGroup C s v = ∑ a ∈ C, w.ls.get 0 a := group_debit (C := C) hm
  simp only [Purse.afterAll, Purse.after, purse, List.foldl_cons, List.foldl_nil]
  ext
  · rfl
  · rfl
  · show ((∑ a ∈ C, (credit m d v).get 0 a : Nat) : Int) = ((∑ a ∈ C, w.ls.get 0 a : Nat) : Int) - _ + _
    omega
  · show ((∑ a ∈ C, w.egld.get 0 a : Nat) : Int) + u' = ((∑ a ∈ C, w.egld.get 0 a : Nat) : Int) + u
    omega

theorem deed_transferNft {s d : Addr} {n v : Nat} (hs : step w (.transferNft s d n v) = .ok w')
    (hu : IsSum (unstakesIn C w) u) (hu' : IsSum (unstakesIn C w') u') :
    purse C w' u' = (purse C w u).afterAll C [.give s v, .get d v] := by
  obtain ⟨_, _, m, hm, rfl⟩ := transferNft_ok.1 hs
  have e : u' + ofGroup C s v = u + ofGroup C d v := by
    rw [hu'.unique (isSum_unstakesIn C _), hu.unique (isSum_unstakesIn C w), ← nft_group hm]
    show (credit m (n, d) v).total _ + _ = _
    rw [total_credit]
    simp only [decide_eq_true_eq, ofGroup]
    omega
  simp only [Purse.afterAll, Purse.after, purse, List.foldl_cons, List.foldl_nil]
  ext
  · rfl
  · rfl
  · rfl
  · show ((∑ a ∈ C, w.egld.get 0 a : Nat) : Int) + u' = ((∑ a ∈ C, w.egld.get 0 a : Nat) : Int) + u - _ + _
    omega

theorem deed_giveUnstake {op : Op} {s : Addr} {n v : Nat} (hs : step w op = .ok w') (hself : w.self ∉ C)
    (hop : op = .burnUnstake s n v ∨ op = .giveUnstake s n v)
    (hu : IsSum (unstakesIn C w) u) (hu' : IsSum (unstakesIn C w') u') :
    purse C w' u' = (purse C w u).afterAll C [.give s v] := by
  have h : u' + ofGroup C s v = u ∧ supply w' = supply w ∧ reserve w' = reserve w ∧ ∑ a ∈ C, lsOf w' a = ∑ a ∈ C, lsOf w a ∧
      ∑ a ∈ C, egldOf w' a = ∑ a ∈ C, egldOf w a := by
    rcases hop with rfl | rfl
    · obtain ⟨_, m, hm, rfl⟩ := holderBurnNft_ok.1 hs
      refine ⟨?_, rfl, rfl, rfl, rfl⟩
      rw [hu'.unique (isSum_unstakesIn C _), hu.unique (isSum_unstakesIn C w)]
      exact nft_group hm
    · obtain ⟨_, _, m, hm, rfl⟩ := giveUnstake_ok.1 hs
      refine ⟨?_, rfl, rfl, rfl, rfl⟩
      rw [hu'.unique (isSum_unstakesIn C _), hu.unique (isSum_unstakesIn C w), ← nft_group hm]
      show (credit m (n, w.self) v).total _ + _ = _
      rw [total_credit]
      simp [hself]
  obtain ⟨h1, h2, h3, h4, h5⟩ := h
  simp only [Purse.afterAll, Purse.after, purse, List.foldl_cons, List.foldl_nil]
  ext <;> dsimp only <;> omega

theorem deed_withdraw {c : Addr} {v : Nat} {ps : List Payment} (hr : Reachable w) (hs : step w (.withdraw c v ps) = .ok w') (hself : w.self ∉ C)
    (hu : IsSum (unstakesIn C w) u) (hu' : IsSum (unstakesIn C w') u') :
    purse C w' u' = (purse C w u).afterAll C [.give c v] := by
  have hne : ∀ a ∈ C, a ≠ w.self := fun a ha e => hself (e ▸ ha)
  obtain ⟨burned, x, _, hb, _, h1, h2, _, _, hst, h5, h6, h7⟩ := C11_withdraw_one_to_one hr hs
  have hR : reserve w' = reserve w := by unfold reserve; rw [hst]
  have hS : supply w' = supply w := by unfold supply; rw [hst]
  have e2 : ∑ a ∈ C, lsOf w' a = ∑ a ∈ C, lsOf w a := sum_same fun a _ => h7 a
  have e1 := group_at (C := C) h2 (fun a ha hac => h5 a hac (hne a ha))
  have e3 : u = u' + ofGroup C c x := by
    unfold ofGroup
    by_cases hcC : c ∈ C
    · rw [if_pos hcC]
      refine hu.unique ((hu'.add (isSum_atAccount hb c)).congr fun p => ?_)
      obtain ⟨n, a⟩ := p
      unfold unstakesIn
      dsimp only
      by_cases hac : a = c
      · subst hac; rw [if_pos hcC, if_pos rfl, if_pos hcC]; exact h1 n
      · rw [if_neg hac, h6 n a hac]; rfl
    · rw [if_neg hcC]
      refine hu.unique (hu'.congr fun p => ?_)
      unfold unstakesIn
      by_cases ha : p.2 ∈ C
      · rw [if_pos ha, if_pos ha, h6 _ _ (fun e => hcC (e ▸ ha))]
      · rw [if_neg ha, if_neg ha]
  simp only [Purse.afterAll, Purse.after, purse, List.foldl_cons, List.foldl_nil]
  ext <;> dsimp only <;> omega

theorem deed_addRewards {c : Addr} {v : Nat} (hs : step w (.addRewards c v) = .ok w') (hself : w.self ∉ C)
    (hu : IsSum (unstakesIn C w) u) (hu' : IsSum (unstakesIn C w') u') :
    purse C w' u' = (purse C w u).afterAll C [.give c v, .reward v] := by
  have e3 := unstakes_same hs rfl hu hu'
  obtain ⟨_, t, m, _, hm, rfl⟩ := addRewards_ok.1 hs
  have h1 : ∑ a ∈ C, (credit m w.self v).get 0 a = _ := group_credit m w.self v
  have h2 : ∑ a ∈ C, m.get 0 a + ofGroup C c v = ∑ a ∈ C, w.egld.get 0 a := group_debit (C := C) hm
  rw [if_neg hself] at h1
  simp only [Purse.afterAll, Purse.after, purse, List.foldl_cons, List.foldl_nil]
  ext
  · rfl
  · rfl
  · rfl
  · show ((∑ a ∈ C, (credit m w.self v).get 0 a : Nat) : Int) + u' = ((∑ a ∈ C, w.egld.get 0 a : Nat) : Int) + u - _
    omega

theorem deed_join {c : Addr} {v : Nat} (hu : u' = u) (h1 : ∑ a ∈ C, egldOf w' a = ∑ a ∈ C, egldOf w a)
    (h2 : lsOf w' c = lsOf w c + lsFor (supply w) (reserve w) v) (h6 : ∀ x, x ≠ c → lsOf w' x = lsOf w x)
    (h3 : supply w' = supply w + lsFor (supply w) (reserve w) v) (h4 : reserve w' = reserve w + v) :
    purse C w' u' = (purse C w u).afterAll C [.join c v] := by
  have e2 := group_at (C := C) (f := lsOf w) (f' := lsOf w') (x := 0) h2 (fun a _ hac => h6 a hac)
  have e0 : ofGroup C c 0 = 0 := by unfold ofGroup; simp
  simp only [Purse.afterAll, Purse.after, purse, List.foldl_cons, List.foldl_nil]
  ext <;> dsimp only <;> omega

theorem deed_delegate {c : Addr} {v : Nat} (hs : step w (.delegate c v) = .ok w') (hself : w.self ∉ C)
    (hu : IsSum (unstakesIn C w) u) (hu' : IsSum (unstakesIn C w') u') :
    purse C w' u' = (purse C w u).afterAll C [.give c v, .join c v] := by
  have hne : ∀ a ∈ C, a ≠ w.self := fun a ha e => hself (e ▸ ha)
  obtain ⟨h1, h2, h3, h4, _, h5, h6, _⟩ := C01_delegate_mints_pro_rata hs
  have e3 := unstakes_same hs rfl hu hu'
  have e1 := group_at (C := C) (f := egldOf w) (f' := egldOf w') (y := 0) h1 (fun a ha hac => h5 a hac (hne a ha))
  have e2 := group_at (C := C) (f := lsOf w) (f' := lsOf w') (x := 0) h2 (fun a _ hac => h6 a hac)
  have e0 : ofGroup C c 0 = 0 := by unfold ofGroup; simp
  simp only [Purse.afterAll, Purse.after, purse, List.foldl_cons, List.foldl_nil]
  ext <;> dsimp only <;> omega

theorem deed_unDelegate {c : Addr} {v : Nat} {ps : List Payment} (hs : step w (.unDelegate c v ps) = .ok w') (hself : w.self ∉ C)
    (hu : IsSum (unstakesIn C w) u) (hu' : IsSum (unstakesIn C w') u') :
    purse C w' u' = (purse C w u).afterAll C [.redeem c (handedIn ps)] := by
  have hne : ∀ a ∈ C, a ≠ w.self := fun a ha e => hself (e ▸ ha)
  obtain ⟨t, l, i, x, n, _, rfl, _, hcs, hiu, h1, hp, h3, h4, _, h5, h6, h7⟩ := C02_unDelegate_pays_pro_rata hs
  have e1 := group_at (C := C) (f := egldOf w) (f' := egldOf w') (x := 0) hp.1 (fun a ha hac => h5 a hac (hne a ha))
  have e2 := group_at (C := C) (f := lsOf w) (f' := lsOf w') (y := 0) h1 (fun a _ hac => h6 a hac)
  have e0 : ofGroup C c 0 = 0 := by unfold ofGroup; simp
  have ei : ofGroup C c (egldFor (supply w) (reserve w) l) = ofGroup C c i + ofGroup C c x := by
    rw [← hiu]; unfold ofGroup; split <;> rfl
  have e3 : u' = u + ofGroup C c x := by
    unfold ofGroup
    by_cases hc : c ∈ C
    · rw [if_pos hc]
      refine hu'.unique ((hu.add (isSum_single (n, c) x)).congr fun p => ?_)
      obtain ⟨m, a⟩ := p
      unfold unstakesIn
      dsimp only
      by_cases ha : a ∈ C
      · rw [if_pos ha, if_pos ha]
        by_cases hac : a = c
        · subst hac
          by_cases hk : m = n
          · subst hk; rw [if_pos rfl, hp.2.1]
          · rw [if_neg (by simp [Ne.symm hk]), hp.2.2 m hk]; rfl
        · rw [if_neg (by simp [Ne.symm hac]), h7 m a hac (hne a ha)]; rfl
      · rw [if_neg ha, if_neg ha, if_neg]
        intro e; cases e; exact ha hc
    · rw [if_neg hc]
      refine hu'.unique (hu.congr fun p => ?_)
      unfold unstakesIn
      by_cases ha : p.2 ∈ C
      · rw [if_pos ha, if_pos ha, h7 _ _ (fun e => hc (e ▸ ha)) (hne _ ha)]
      · rw [if_neg ha, if_neg ha]
  simp only [Purse.afterAll, Purse.after, purse, List.foldl_cons, List.foldl_nil, handedIn]
  ext <;> dsimp only <;> omega

theorem deed_whitelisted {i : Nat} {o : Outcome} {p : Addr} {a : Nat} {c : Addr} (hs : step w (.deliver i o) = .ok w')
    (hself : w.self ∉ C) (hu : IsSum (unstakesIn C w) u) (hu' : IsSum (unstakesIn C w') u') (hf : w.flights[i]? = some (.whitelist p a c)) :
    purse C w' u' = (purse C w u).afterAll C (deeds w w' (.deliver i o)) := by
  have e3 := unstakes_same hs rfl hu hu'
  obtain ⟨f, hf', hcb⟩ := deliver_ok hs
  obtain rfl : f = .whitelist p a c := by rw [hf] at hf'; exact (Option.some.inj hf').symm
  have hsum : ∑ x ∈ C, (credit w.egld w.self (attached (.whitelist p a c) o)).get 0 x = ∑ x ∈ C, w.egld.get 0 x := by
    rw [group_credit, if_neg hself, Nat.add_zero]
  rcases hcb with hcb | ⟨_, rfl⟩
  · cases o with
    | ok e r =>
      obtain ⟨t, d, l, _, _, hq, hw⟩ := whitelistCb_true_ok.1 hcb
      obtain ⟨_, hl⟩ := lsQuote_iff.1 hq
      have hl' : l = lsFor (supply w) (reserve w) a := hl
      have hls : ∀ x, lsOf w' x = lsOf w x + if c = x then l else 0 := by
        intro x
        rw [hw]
        exact get_mintTo _ _ _ _ _
      have hd : w'.dead = w.dead := by rw [hw]; rfl
      simp only [deeds, hf, hd, if_true]
      refine deed_join e3 (by rw [hw]; exact hsum) (by rw [hls, if_pos rfl, hl']) (fun x hx => by rw [hls, if_neg (Ne.symm hx), Nat.add_zero]) ?_ ?_
      · rw [hw, ← hl']; rfl
      · rw [hw]; rfl
    | err =>
      obtain ⟨_, m, hm, hw⟩ := whitelistCb_false_ok.1 hcb
      have h1 := group_debit (C := C) hm
      have h2 := group_credit (C := C) m c a
      have hm' : ∑ x ∈ C, (arrive w i (.whitelist p a c) .err).egld.get 0 x = ∑ x ∈ C, w.egld.get 0 x := hsum
      have hself' : (arrive w i (.whitelist p a c) .err).self ∉ C := hself
      rw [if_neg hself', hm'] at h1
      have hd : w'.dead = w.dead := by rw [hw]; rfl
      simp only [deeds, hf, hd, if_true]
      have e1 : ∑ x ∈ C, egldOf w' x = ∑ x ∈ C, egldOf w x + ofGroup C c a := by
        rw [hw]
        show ∑ x ∈ C, (credit m c a).get 0 x = ∑ x ∈ C, w.egld.get 0 x + if _ then _ else _
        omega
      have e2 : ∑ x ∈ C, lsOf w' x = ∑ x ∈ C, lsOf w x := by rw [hw]; rfl
      have eS : supply w' = supply w := by rw [hw]; rfl
      have eR : reserve w' = reserve w := by rw [hw]; rfl
      simp only [Purse.afterAll, Purse.after, purse, List.foldl_cons, List.foldl_nil]
      ext <;> dsimp only <;> omega
  · have hd : w.dead ++ [Flight.whitelist p a c] ≠ w.dead := by simp
    have : ∀ X : List Deed, (if w.dead ++ [Flight.whitelist p a c] = w.dead then X else []) = [] := fun X => if_neg hd
    have hz : deeds w { arrive w i (.whitelist p a c) o with dead := w.dead ++ [Flight.whitelist p a c] } (.deliver i o) = [] := by
      cases o <;> simp only [deeds, hf, this]
    have e1 : ∑ x ∈ C, egldOf { arrive w i (.whitelist p a c) o with dead := w.dead ++ [Flight.whitelist p a c] } x = ∑ x ∈ C, egldOf w x := hsum
    refine Eq.trans ?_ (congrArg ((purse C w u).afterAll C) hz).symm
    show purse C _ u' = purse C w u
    unfold purse
    ext
    · rfl
    · rfl
    · rfl
    · dsimp only; rw [e3, e1]

theorem deed_deliver {i : Nat} {o : Outcome} (hr : Reachable w) (hs : step w (.deliver i o) = .ok w')
    (hself : w.self ∉ C) (hu : IsSum (unstakesIn C w) u) (hu' : IsSum (unstakesIn C w') u') :
    purse C w' u' = (purse C w u).afterAll C (deeds w w' (.deliver i o)) := by
  have hne : ∀ a ∈ C, a ≠ w.self := fun a ha e => hself (e ▸ ha)
  obtain ⟨f, hf, _⟩ := deliver_ok hs
  cases f with
  | whitelist p a c => exact deed_whitelisted hs hself hu hu' hf
  | claim ps =>
    obtain ⟨h1, h2⟩ := claim_moves hr hs hf
    have e1 : ∑ a ∈ C, egldOf w' a = ∑ a ∈ C, egldOf w a :=
      sum_same fun a ha => parts_step hr hs (.egld a) (by cases o <;> simp [touched, hf, callbackParts, hne a ha])
    have e2 : ∑ a ∈ C, lsOf w' a = ∑ a ∈ C, lsOf w a :=
      sum_same fun a ha => parts_step hr hs (.ls a) (by cases o <;> simp [touched, hf, callbackParts])
    have e3 := unstakes_same hs rfl hu hu'
    cases o <;> simp only [creditedBy, hf] at h2 <;>
      simp only [deeds, hf, Purse.afterAll, Purse.after, purse, List.foldl_cons, List.foldl_nil] <;> ext <;> dsimp only <;> omega
  | delegate p a =>
    have hz : deeds w w' (.deliver i o) = [] := by cases o <;> simp only [deeds, hf]
    rw [hz]
    refine purse_same hr hs hu hu' rfl (fun a ha => ?_) (fun a ha => ?_) ?_ ?_
    · have := hne a ha
      cases o <;> simp [touched, hf, callbackParts, this]
    all_goals cases o <;> simp [touched, hf, callbackParts]
  | undelegate p a =>
    have hz : deeds w w' (.deliver i o) = [] := by cases o <;> simp only [deeds, hf]
    rw [hz]
    refine purse_same hr hs hu hu' rfl (fun a ha => ?_) (fun a ha => ?_) ?_ ?_
    · have := hne a ha
      cases o <;> simp [touched, hf, callbackParts, this]
    all_goals cases o <;> simp [touched, hf, callbackParts]
  | withdraw p =>
    have hz : deeds w w' (.deliver i o) = [] := by cases o <;> simp only [deeds, hf]
    rw [hz]
    refine purse_same hr hs hu hu' rfl (fun a ha => ?_) (fun a ha => ?_) ?_ ?_
    · have := hne a ha
      cases o <;> simp [touched, hf, callbackParts, this]
    all_goals cases o <;> simp [touched, hf, callbackParts]

/-- Every transaction there is does to a purse what its deeds do. -/
theorem deeds_step (op : Op) (hr : Reachable w) (hs : step w op = .ok w') (hself : w.self ∉ C)
    (hu : IsSum (unstakesIn C w) u) (hu' : IsSum (unstakesIn C w') u') :
    purse C w' u' = (purse C w u).afterAll C (deeds w w' op) := by
  have hne : ∀ a ∈ C, a ≠ w.self := fun a ha e => hself (e ▸ ha)
  cases op with
  | delegate c v => exact deed_delegate hs hself hu hu'
  | unDelegate c v ps => exact deed_unDelegate hs hself hu hu'
  | withdraw c v ps => exact deed_withdraw hr hs hself hu hu'
  | claimFees c x => exact deed_claimFees hr hs hself hu hu'
  | whitelist c v p ad ts cap n apy =>
    obtain ⟨_, _, _, _, _, _, _, _, E, _, hEc, hEo, hw⟩ := whitelist_ok hs
    exact deed_give hr hs hself hu hu' rfl (by rw [hw]; exact hEc) (fun a h1 h2 => by rw [hw]; exact hEo a h2 h1) (by simp [touched])
      (by simp [touched]) (by simp [touched])
  | migrate c v o =>
    obtain ⟨_, h2, h6, h3, h4, _, h5, _⟩ := C39_migrate hr hs
    exact deed_join (unstakes_same hs rfl hu hu') (sum_same fun a _ => h5 a) h2 h6 h3 h4
  | migratePending c v =>
    obtain ⟨_, _, h1, _, h3, _⟩ := C39_migratePending hs
    exact deed_give hr hs hself hu hu' rfl h1 h3 (by simp [touched]) (by simp [touched]) (by simp [touched])
  | addRewards c v => exact deed_addRewards hs hself hu hu'
  | registerLsToken c v => exact deed_register hr hs (.inl rfl) hu hu'
  | registerUnstakeToken c v => exact deed_register hr hs (.inr rfl) hu hu'
  | issued i o => exact deed_issued hr hs hself hu hu'
  | deliver i o => exact deed_deliver hr hs hself hu hu'
  | transferEgld s d v => exact deed_transferEgld hr hs hu hu'
  | transferLs s d v => exact deed_transferLs hs hu hu'
  | transferNft s d n v => exact deed_transferNft hs hu hu'
  | fund a v =>
    refine deed_get hr hs hu hu' rfl ?_ (by simp [touched]) (by simp [touched]) (by simp [touched])
    obtain ⟨_, rfl⟩ := fund_ok.1 hs
    exact group_credit w.egld a v
  | giveEgld s v => exact deed_giveEgld hr hs hself hu hu'
  | giveLs s v => exact deed_giveLs hs hself (.inr rfl) hu hu'
  | giveUnstake s n v => exact deed_giveUnstake hs hself (.inr rfl) hu hu'
  | burnLs a v => exact deed_giveLs hs hself (.inl rfl) hu hu'
  | burnUnstake a n v => exact deed_giveUnstake hs hself (.inl rfl) hu hu'
  | owner c cmd =>
    exact purse_same hr hs hu hu' rfl (fun _ _ => by cases cmd <;> simp [touched, settingOf]) (fun _ _ => by cases cmd <;> simp [touched, settingOf])
      (by cases cmd <;> simp [touched, settingOf]) (by cases cmd <;> simp [touched, settingOf])
  | _ =>
    exact purse_same hr hs hu hu' rfl (fun a ha => by have := hne a ha; simp [touched, this]) (fun _ _ => by simp [touched])
      (by simp [touched]) (by simp [touched])

end

end LS
