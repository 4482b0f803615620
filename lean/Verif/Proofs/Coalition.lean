import Verif.Proofs.Economy
import Mathlib.Tactic.FieldSimp
import Mathlib.Tactic.Linarith
import Mathlib.Tactic.Positivity
import Mathlib.Tactic.Ring
import Mathlib.Algebra.Order.BigOperators.Group.Finset

/-! A group of accounts among themselves: what a transaction does to its EGLD, unstake tokens and LS tokens together. -/

namespace LS
open Spec

/-- What a closed transaction does to a group holding `e` EGLD, `u` unstake tokens and `l` LS tokens, at reserve `R` and supply `S`. -/
inductive Deal (e u l R S : Nat) (e' u' l' R' S' : Nat) : Prop
  | less (h : e' + u' ≤ e + u) (hl : l' ≤ l) (hR : R' = R) (hS : S' = S) : Deal e u l R S e' u' l' R' S'
  | deposit (a m : Nat) (he : e' + a = e) (hu : u' = u) (hl : l' = l + m) (hm : m = lsFor S R a) (h0 : 0 < m) (hR : R' = R + a)
      (hS : S' = S + m) : Deal e u l R S e' u' l' R' S'
  | redeem (x y : Nat) (he : e' + u' = e + u + y) (hl : l' + x = l) (hy : y = egldFor S R x) (hR : R' + y = R) (hS : S' + x = S) :
      Deal e u l R S e' u' l' R' S'
  | add (v : Nat) (he : e' + v = e) (hu : u' = u) (hl : l' = l) (hR : R' = R + v) (hS : S' = S) : Deal e u l R S e' u' l' R' S'

theorem deal_worth {e u l R S e' u' l' R' S' : Nat} (h : Deal e u l R S e' u' l' R' S') (hl : l ≤ S) (hp : 0 < S → 0 < R) :
    (e' : ℚ) + u' + l' * ((R' : ℚ) / S') ≤ (e : ℚ) + u + l * ((R : ℚ) / S) := by
  have hlq : (l : ℚ) ≤ S := by exact_mod_cast hl
  cases h with
  | less h hl' hR hS =>
    subst hR hS
    have h1 : (e' : ℚ) + u' ≤ (e : ℚ) + u := by exact_mod_cast h
    have h2 : (l' : ℚ) ≤ l := by exact_mod_cast hl'
    have h3 : (0 : ℚ) ≤ (R' : ℚ) / S' := by positivity
    have := mul_le_mul_of_nonneg_right h2 h3
    linarith
  | deposit a m he hu hl' hm h0 hR hS =>
    subst hu hl' hR hS he
    have hm0 : (0 : ℚ) < m := by exact_mod_cast h0
    push_cast
    rcases Nat.eq_zero_or_pos S with hS0 | hS0
    · subst hS0
      have hl0 : l = 0 := by omega
      subst hl0
      have hR0 : R = 0 := by
        rcases Nat.eq_zero_or_pos R with h | h
        · exact h
        · rw [lsFor, if_neg (by omega)] at hm; simp at hm; omega
      subst hR0
      rw [lsFor, if_pos rfl] at hm
      subst hm
      have : (m : ℚ) ≠ 0 := hm0.ne'
      simp only [Nat.cast_zero, zero_add, zero_mul]
      rw [div_self this]
      linarith
    · have hR0 := hp hS0
      rw [lsFor, if_neg (by omega)] at hm
      have hmR : m * R ≤ a * S := by rw [hm]; exact Nat.div_mul_le_self _ _
      have hq : (m : ℚ) * R ≤ a * S := by exact_mod_cast hmR
      have hSq : (0 : ℚ) < S := by exact_mod_cast hS0
      have hRq : (0 : ℚ) < R := by exact_mod_cast hR0
      have hlq0 : (0 : ℚ) ≤ l := by positivity
      set r : ℚ := (R : ℚ) / S with hr
      set r' : ℚ := ((R : ℚ) + a) / ((S : ℚ) + m) with hr'
      have e1 : r * S = R := by rw [hr]; field_simp
      have e2 : r' * (S + m) = R + a := by rw [hr']; field_simp
      have hge : r ≤ r' := by
        rw [hr, hr', div_le_div_iff₀ hSq (by linarith)]
        nlinarith
      nlinarith
  | redeem x y he hl' hy hR hS =>
    have hx : x ≤ S := by omega
    have heq : (e' : ℚ) + u' = (e : ℚ) + u + y := by exact_mod_cast he
    have hlq' : (l' : ℚ) = l - x := by
      have : (l' : ℚ) + x = l := by exact_mod_cast hl'
      linarith
    rcases Nat.eq_zero_or_pos S with hS0 | hS0
    · subst hS0
      have : y = 0 := by rw [hy, egldFor]; simp
      subst this
      have h1 : S' = 0 := by omega
      have h2 : l' = 0 := by omega
      subst h1 h2
      simp only [Nat.cast_zero, div_zero, mul_zero, add_zero] at *
      linarith
    · have hyS : y * S ≤ x * R := by rw [hy, egldFor]; exact Nat.div_mul_le_self _ _
      have hq : (y : ℚ) * S ≤ x * R := by exact_mod_cast hyS
      have hSq : (0 : ℚ) < S := by exact_mod_cast hS0
      set r : ℚ := (R : ℚ) / S with hr
      have e1 : r * S = R := by rw [hr]; field_simp
      have hy' : (y : ℚ) ≤ x * r := by
        have : (y : ℚ) * S ≤ (x * r) * S := by rw [mul_assoc, e1]; exact hq
        exact le_of_mul_le_mul_right this hSq
      rcases Nat.eq_zero_or_pos S' with h0 | h0
      · subst h0
        have hl0 : l' = 0 := by omega
        subst hl0
        have hxl : x = l := by omega
        subst hxl
        simp only [Nat.cast_zero, div_zero, mul_zero, add_zero]
        linarith
      · have hSq' : (0 : ℚ) < S' := by exact_mod_cast h0
        have hRq : (R' : ℚ) = R - y := by
          have : (R' : ℚ) + y = R := by exact_mod_cast hR
          linarith
        have hSq2 : (S' : ℚ) = S - x := by
          have : (S' : ℚ) + x = S := by exact_mod_cast hS
          linarith
        set r' : ℚ := (R' : ℚ) / S' with hr'
        have e2 : r' * S' = R' := by rw [hr']; field_simp
        have hge : r ≤ r' := by
          have : r * S' ≤ r' * S' := by rw [e2, hRq, hSq2]; nlinarith
          exact le_of_mul_le_mul_right this hSq'
        have hlS : (l' : ℚ) ≤ S' := by
          have : l' ≤ S' := by omega
          exact_mod_cast this
        have h1 := mul_le_mul_of_nonneg_right hlS (sub_nonneg.2 hge)
        rw [mul_sub, mul_sub, mul_comm (S' : ℚ) r', e2, mul_comm (S' : ℚ) r, hSq2, mul_sub, e1, hRq] at h1
        have h2 : (l' : ℚ) * r = l * r - x * r := by rw [hlq']; ring
        have h3 : r * x = x * r := mul_comm _ _
        linarith
  | add v he hu hl' hR hS =>
    subst hu hl' hR hS he
    push_cast
    rcases Nat.eq_zero_or_pos S' with h0 | h0
    · subst h0
      simp only [Nat.cast_zero, div_zero, mul_zero, add_zero]
      have : (0 : ℚ) ≤ v := by positivity
      linarith
    · have hSq : (0 : ℚ) < S' := by exact_mod_cast h0
      have hv : (0 : ℚ) ≤ v := by positivity
      have : (l' : ℚ) * (v / S') ≤ v := by
        rw [mul_div_assoc', div_le_iff₀ hSq]
        nlinarith
      rw [add_div, mul_add]
      linarith

/-! ### Sums over the group -/

theorem sum_same {C : Finset Addr} {f f' : Addr → Nat} (h : ∀ a ∈ C, f' a = f a) : ∑ a ∈ C, f' a = ∑ a ∈ C, f a :=
  Finset.sum_congr rfl h

theorem sum_le {C : Finset Addr} {f f' : Addr → Nat} (h : ∀ a ∈ C, f' a ≤ f a) : ∑ a ∈ C, f' a ≤ ∑ a ∈ C, f a :=
  Finset.sum_le_sum h

theorem sum_at {C : Finset Addr} {f f' : Addr → Nat} {c : Addr} (hc : c ∈ C) (h : ∀ a ∈ C, a ≠ c → f' a = f a) :
    (∑ a ∈ C, f' a) + f c = (∑ a ∈ C, f a) + f' c := by
  have h1 : ∑ a ∈ C.erase c, f' a = ∑ a ∈ C.erase c, f a :=
    Finset.sum_congr rfl (fun a ha => h a (Finset.mem_of_mem_erase ha) (Finset.ne_of_mem_erase ha))
  have h2 := Finset.add_sum_erase C f hc
  have h3 := Finset.add_sum_erase C f' hc
  omega

theorem isSum_ge {f : Addr → Nat} {s : Nat} (h : IsSum f s) (C : Finset Addr) : ∑ a ∈ C, f a ≤ s := by
  obtain ⟨S, h0, rfl⟩ := h
  classical
  calc ∑ a ∈ C, f a ≤ ∑ a ∈ C ∪ S, f a := Finset.sum_le_sum_of_subset Finset.subset_union_left
    _ = ∑ a ∈ S, f a := (Finset.sum_subset Finset.subset_union_right fun a _ ha => h0 a ha).symm

theorem isSum_restrict {f : Addr → Nat} (C : Finset Addr) : IsSum (fun a => if a ∈ C then f a else 0) (∑ a ∈ C, f a) :=
  ⟨C, fun _ h => if_neg h, Finset.sum_congr rfl fun _ h => if_pos h⟩

theorem sum_total (C : Finset Addr) (m : Map Addr Nat) : ∑ a ∈ C, m.get 0 a = m.total fun a => decide (a ∈ C) :=
  (isSum_restrict (f := fun a => m.get 0 a) C).unique ((isSum_total m fun a => decide (a ∈ C)).congr fun a => by simp)

theorem isSum_unstakesIn (C : Finset Addr) (w : World) : IsSum (unstakesIn C w) (w.nft.total fun p => decide (p.2 ∈ C)) := by
  refine (isSum_total w.nft (fun p => decide (p.2 ∈ C))).congr fun p => ?_
  unfold unstakesIn unstakeOf
  by_cases h : p.2 ∈ C <;> simp [h]

theorem isSum_atAccount {f : Nat → Nat} {x : Nat} (h : IsSum f x) (c : Addr) :
    IsSum (fun p : Nat × Addr => if p.2 = c then f p.1 else 0) x := by
  classical
  obtain ⟨S, h0, rfl⟩ := h
  refine ⟨S.image fun n => (n, c), fun p hp => ?_, ?_⟩
  · dsimp only
    by_cases e : p.2 = c
    · rw [if_pos e]
      refine h0 _ fun hS => hp (Finset.mem_image.2 ⟨p.1, hS, ?_⟩)
      rw [← e]
    · rw [if_neg e]
  · rw [Finset.sum_image (fun a _ b _ hab => by simpa using hab)]
    exact Finset.sum_congr rfl fun n _ => if_pos rfl

/-! ### One transaction -/

/-- A callback of a delegation, un-delegation or withdrawal leaves users, reserve and supply alone. -/
theorem runCallback_users {w w' : World} {f : Flight} {o : Outcome} (h : runCallback w f o = .ok w')
    (hf : ∃ p a, f = .delegate p a ∨ f = .undelegate p a ∨ f = .withdraw p) :
    w'.egld = w.egld ∧ w'.ls = w.ls ∧ w'.st.r.reserve = w.st.r.reserve ∧ w'.st.r.lsSupply = w.st.r.lsSupply := by
  obtain ⟨p, a, rfl | rfl | rfl⟩ := hf
  · cases o with
    | ok e r => obtain ⟨_, d, _, _, rfl⟩ := addLiquidityCb_true_ok.1 h; exact ⟨rfl, rfl, rfl, rfl⟩
    | err => obtain ⟨t, d, _, _, _, rfl⟩ := addLiquidityCb_false_ok.1 h; exact ⟨rfl, rfl, rfl, rfl⟩
  · cases o with
    | ok e r => obtain ⟨t, d, _, _, _, _, rfl⟩ := removeLiquidityCb_true_ok.1 h; exact ⟨rfl, rfl, rfl, rfl⟩
    | err => obtain ⟨t, d, _, _, _, rfl⟩ := removeLiquidityCb_false_ok.1 h; exact ⟨rfl, rfl, rfl, rfl⟩
  · cases o with
    | ok e r => rcases withdrawTokensCb_ok.1 h with ⟨_, rfl⟩ | ⟨_, t, d, _, _, _, _, rfl⟩ <;> exact ⟨rfl, rfl, rfl, rfl⟩
    | err => rcases withdrawTokensCb_ok.1 h with ⟨_, rfl⟩ | ⟨_, t, d, _, _, _, _, rfl⟩ <;> exact ⟨rfl, rfl, rfl, rfl⟩

/-- Unstake tokens of the group, when the transaction does not move any. -/
theorem unstakes_same {C : Finset Addr} {w w' : World} {op : Op} (hs : step w op = .ok w') (hm : movesNft op = false) {u u' : Nat}
    (hu : IsSum (unstakesIn C w) u) (hu' : IsSum (unstakesIn C w') u') : u' = u := by
  obtain ⟨hS, _⟩ := sameNft_step hs hm
  refine hu'.unique (hu.congr fun p => ?_)
  unfold unstakesIn unstakeOf
  rw [hS.nft]

theorem deal_step {C : Finset Addr} {w w' : World} (op : Op) (hr : Reachable w) (hs : step w op = .ok w') (hself : w.self ∉ C)
    (hc : Closed C w op) {u u' : Nat} (hu : IsSum (unstakesIn C w) u) (hu' : IsSum (unstakesIn C w') u') :
    Deal (∑ a ∈ C, egldOf w a) u (∑ a ∈ C, lsOf w a) (reserve w) (supply w)
      (∑ a ∈ C, egldOf w' a) u' (∑ a ∈ C, lsOf w' a) (reserve w') (supply w') := by
  have hne : ∀ a ∈ C, a ≠ w.self := fun a ha e => hself (e ▸ ha)
  have less : movesNft op = false → (∀ a ∈ C, egldOf w' a ≤ egldOf w a) → (∀ a ∈ C, lsOf w' a ≤ lsOf w a) → reserve w' = reserve w →
      supply w' = supply w → Deal (∑ a ∈ C, egldOf w a) u (∑ a ∈ C, lsOf w a) (reserve w) (supply w)
      (∑ a ∈ C, egldOf w' a) u' (∑ a ∈ C, lsOf w' a) (reserve w') (supply w') := by
    intro hm h1 h2 h3 h4
    have h5 := unstakes_same hs hm hu hu'
    have h6 := sum_le h1
    exact .less (by omega) (sum_le h2) h3 h4
  have same : movesNft op = false → w'.egld = w.egld → w'.ls = w.ls → w'.st.r = w.st.r → Deal (∑ a ∈ C, egldOf w a) u (∑ a ∈ C, lsOf w a) (reserve w) (supply w)
      (∑ a ∈ C, egldOf w' a) u' (∑ a ∈ C, lsOf w' a) (reserve w') (supply w') := by
    intro hm h1 h2 h3
    refine less hm (fun a _ => ?_) (fun a _ => ?_) ?_ ?_
    · unfold egldOf; rw [h1]
    · unfold lsOf; rw [h2]
    · unfold reserve; rw [h3]
    · unfold supply; rw [h3]
  have paid : ∀ {m : Map Addr Nat} {c : Addr} {v : Nat}, debit w.egld c v = .ok m → ∀ a ∈ C, (credit m w.self v).get 0 a ≤ w.egld.get 0 a := by
    intro m c v hm a ha
    rw [get_credit, if_neg (Ne.symm (hne a ha)), get_debit hm]
    split <;> omega
  cases op with
  | delegate c v =>
    obtain ⟨h1, h2, h3, h4, _, h5, h6, _⟩ := C01_delegate_mints_pro_rata hs
    obtain ⟨_, _, _, m, t, p, e, l, _, _, _, _, _, hq, _⟩ := delegate_ok.1 hs
    obtain ⟨hl0, hl⟩ := lsQuote_iff.1 hq
    have e1 := sum_at (f := egldOf w) (f' := egldOf w') hc (fun a ha hac => h5 a hac (hne a ha))
    have e2 := sum_at (f := lsOf w) (f' := lsOf w') hc (fun a ha hac => h6 a hac)
    have e3 := unstakes_same hs rfl hu hu'
    refine .deposit v (lsFor (supply w) (reserve w) v) (by omega) e3 (by omega) rfl ?_ h4 h3
    have : l = lsFor (supply w) (reserve w) v := hl
    omega
  | unDelegate c v ps =>
    obtain ⟨t, l, i, x, n, _, _, _, hcs, hiu, h1, hp, h3, h4, _, h5, h6, h7⟩ := C02_unDelegate_pays_pro_rata hs
    have e1 := sum_at (f := egldOf w) (f' := egldOf w') hc (fun a ha hac => h5 a hac (hne a ha))
    have e2 := sum_at (f := lsOf w) (f' := lsOf w') hc (fun a ha hac => h6 a hac)
    have e3 : u' = u + x := by
      refine hu'.unique ((hu.add (isSum_single (n, c) x)).congr fun p => ?_)
      obtain ⟨m, a⟩ := p
      unfold unstakesIn
      dsimp only
      by_cases ha : a ∈ C
      · rw [if_pos ha, if_pos ha]
        by_cases hac : a = c
        · subst hac
          by_cases hk : m = n
          · subst hk; rw [if_pos rfl, hp.2.1]
          · rw [if_neg (by simp [Ne.symm hk]), hp.2.2 m hk]; rfl
        · rw [if_neg (by simp [Ne.symm hac]), h7 m a hac (hne a ha)]; rfl
      · rw [if_neg ha, if_neg ha, if_neg]
        intro e; cases e; exact ha hc
    have := hp.1
    exact .redeem l (i + x) (by omega) (by omega) hiu (by omega) h3
  | withdraw c v ps =>
    obtain ⟨burned, x, _, hb, _, h1, h2, _, _, hst, h5, h6, h7⟩ := C11_withdraw_one_to_one hr hs
    have hR : reserve w' = reserve w := by unfold reserve; rw [hst]
    have hS : supply w' = supply w := by unfold supply; rw [hst]
    by_cases hcC : c ∈ C
    · have e1 := sum_at (f := egldOf w) (f' := egldOf w') hcC (fun a ha hac => h5 a hac (hne a ha))
      have e3 : u = u' + x := by
        refine hu.unique ((hu'.add (isSum_atAccount hb c)).congr fun p => ?_)
        obtain ⟨n, a⟩ := p
        unfold unstakesIn
        dsimp only
        by_cases hac : a = c
        · subst hac; rw [if_pos hcC, if_pos rfl, if_pos hcC]; exact h1 n
        · rw [if_neg hac, h6 n a hac]; rfl
      exact .less (by omega) (sum_le fun a _ => (h7 a).le) hR hS
    · have e3 : u' = u := by
        refine hu'.unique (hu.congr fun p => ?_)
        unfold unstakesIn
        by_cases ha : p.2 ∈ C
        · rw [if_pos ha, if_pos ha, h6 _ _ (fun e => hcC (e ▸ ha))]
        · rw [if_neg ha, if_neg ha]
      have e1 : ∑ a ∈ C, egldOf w' a = ∑ a ∈ C, egldOf w a := sum_same fun a ha => h5 a (fun e => hcC (e ▸ ha)) (hne a ha)
      exact .less (by omega) (sum_le fun a _ => (h7 a).le) hR hS
  | upgrade => simp only [step, Except.ok.injEq] at hs; subst hs; exact same rfl rfl rfl rfl
  | delegatePending c x =>
    obtain ⟨_, _, _, t, amt, sels, left, E, D, _, hb, hsum, _, _, hE, hE', _, hps, hf, rfl⟩ := delegatePending_ok hs
    exact less rfl (fun a ha => (hE' a (hne a ha)).le) (fun _ _ => Nat.le_refl _) rfl rfl
  | unDelegatePending c x =>
    obtain ⟨_, _, _, t, amt, sels, left, E, D, _, hb, hsum, _, _, hE, _, hps, hf, rfl⟩ := unDelegatePending_ok hs
    exact less rfl (fun a ha => (hE a).le) (fun _ _ => Nat.le_refl _) rfl rfl
  | withdrawPending c p =>
    obtain ⟨_, _, _, _, _, E, hE, rfl⟩ := withdrawPending_ok hs
    exact less rfl (fun a ha => (hE a).le) (fun _ _ => Nat.le_refl _) rfl rfl
  | claimRewards c =>
    obtain ⟨_, _, _, _, _, E, hE, rfl⟩ := claimRewards_ok hs
    exact less rfl (fun a ha => (hE a).le) (fun _ _ => Nat.le_refl _) rfl rfl
  | claimFees c x =>
    obtain ⟨_, _, _, _, _, m, hm, rfl⟩ := claimFees_ok hs
    refine less rfl (fun a ha => ?_) (fun _ _ => Nat.le_refl _) rfl rfl
    show (credit m w.st.accumulator w.st.r.fees).get 0 a ≤ w.egld.get 0 a
    rw [get_credit, if_neg (fun e : w.st.accumulator = a => hc (e ▸ ha)), get_debit hm, if_neg (Ne.symm (hne a ha))]
  | whitelist c v p ad ts cap n apy =>
    obtain ⟨hcs, _, _, _, hnone, _, _, _, E, hE, hEc, hEo, rfl⟩ := whitelist_ok hs
    refine less rfl (fun a ha => ?_) (fun _ _ => Nat.le_refl _) rfl rfl
    by_cases hac : a = c
    · show E.get 0 a ≤ w.egld.get 0 a
      rw [hac]; omega
    · exact (hEo a (hne a ha) hac).le
  | changeAdmin c p x => obtain ⟨_, _, d, hd, rfl⟩ := changeAdmin_ok.1 hs; exact same rfl rfl rfl rfl
  | changeParams c p ts cap n apy e => obtain ⟨_, _, d, hd, _, rfl⟩ := changeParams_ok.1 hs; exact same rfl rfl rfl rfl
  | migrate c v o => exact absurd hc id
  | migratePending c v =>
    obtain ⟨_, _, _, _, t, m, _, hm, rfl⟩ := migratePending_ok.1 hs
    exact less rfl (paid hm) (fun _ _ => Nat.le_refl _) rfl rfl
  | addRewards c v =>
    obtain ⟨_, t, m, _, hm, rfl⟩ := addRewards_ok.1 hs
    have hle := debit_le hm
    have e3 := unstakes_same hs rfl hu hu'
    have hcs := hne c hc
    have e1 := sum_at (f := egldOf w) (f' := fun a => (credit m w.self v).get 0 a) hc (fun a ha hac => by
      show (credit m w.self v).get 0 a = _
      rw [get_credit, if_neg (Ne.symm (hne a ha)), get_debit hm, if_neg (Ne.symm hac)]; rfl)
    simp only [get_credit, if_neg (Ne.symm hcs), get_debit hm, if_true] at e1
    refine .add v ?_ e3 rfl rfl rfl
    show (∑ a ∈ C, (credit m w.self v).get 0 a) + v = _
    simp only [get_credit, get_debit hm]
    unfold egldOf at e1 ⊢
    omega
  | setMigrationSc c x => obtain ⟨_, _, _, rfl⟩ := setMigrationSc_ok.1 hs; exact same rfl rfl rfl rfl
  | registerLsToken c v =>
    obtain ⟨_, _, _, _, m, hm, rfl⟩ := registerLsToken_ok.1 hs
    refine less rfl (fun a ha => ?_) (fun _ _ => Nat.le_refl _) rfl rfl
    show m.get 0 a ≤ w.egld.get 0 a
    rw [get_debit hm]; split <;> omega
  | registerUnstakeToken c v =>
    obtain ⟨_, _, _, _, m, hm, rfl⟩ := registerUnstakeToken_ok.1 hs
    refine less rfl (fun a ha => ?_) (fun _ _ => Nat.le_refl _) rfl rfl
    show m.get 0 a ≤ w.egld.get 0 a
    rw [get_debit hm]; split <;> omega
  | issued i o =>
    obtain ⟨x, E, hx, _, hE, rfl⟩ := issued_ok.1 hs
    cases o with
    | none => exact absurd rfl hc
    | some id =>
      rw [if_neg (by simp)] at hE
      subst hE
      exact less rfl (fun _ _ => Nat.le_refl _) (fun _ _ => Nat.le_refl _) (by cases x.kind <;> rfl) (by cases x.kind <;> rfl)
  | owner c cmd =>
    obtain ⟨_, _, st, h1, rfl⟩ := ownerCmd_ok.1 hs
    obtain ⟨s, fr, acc, mr, ma, ms, ub, mg, rfl⟩ := applyOwnerCmd_ok h1
    exact same rfl rfl rfl rfl
  | setScoringConfig c cfg => obtain ⟨_, _, _, rfl⟩ := setScoringConfig_ok.1 hs; exact same rfl rfl rfl rfl
  | viewLsValue l =>
    simp only [step, bind_ok, Prod.exists, Except.ok.injEq] at hs
    obtain ⟨e, w1, h1, rfl⟩ := hs
    obtain ⟨_, _, rfl⟩ := viewLsValue_ok.1 h1
    exact same rfl rfl rfl rfl
  | viewEgldPosition l =>
    simp only [step, bind_ok, Prod.exists, Except.ok.injEq] at hs
    obtain ⟨e, w1, h1, rfl⟩ := hs
    obtain ⟨_, _, rfl⟩ := viewEgldPosition_ok.1 h1
    exact same rfl rfl rfl rfl
  | deliver i o =>
    obtain ⟨f, hf, hcb⟩ := deliver_ok hs
    have hfl : ∃ p a, f = .delegate p a ∨ f = .undelegate p a ∨ f = .withdraw p := by
      obtain ⟨p, a, h⟩ := hc
      rw [hf] at h
      exact ⟨p, a, by simpa using h⟩
    have hcr : ∀ a ∈ C, (credit w.egld w.self (attached f o)).get 0 a ≤ w.egld.get 0 a := fun a ha => by
      rw [get_credit, if_neg (Ne.symm (hne a ha))]
    rcases hcb with hcb | ⟨_, rfl⟩
    · obtain ⟨h1, h2, h3, h4⟩ := runCallback_users hcb hfl
      refine less rfl (fun a ha => ?_) (fun a _ => ?_) h3 h4
      · unfold egldOf; rw [h1]; exact hcr a ha
      · unfold lsOf; rw [h2]; exact Nat.le_refl _
    · exact less rfl hcr (fun _ _ => Nat.le_refl _) rfl rfl
  | transferLs s d v =>
    obtain ⟨_, _, m, hm, rfl⟩ := transferLs_ok.1 hs
    have e3 := unstakes_same hs rfl hu hu'
    refine .less (Nat.le_of_eq (by rw [e3]; rfl)) ?_ rfl rfl
    show ∑ a ∈ C, (credit m d v).get 0 a ≤ ∑ a ∈ C, w.ls.get 0 a
    rw [sum_total, sum_total, total_credit]
    have := total_debit (fun a => decide (a ∈ C)) hm
    rcases hc with h | h
    · simp only [h, decide_true, if_true] at this
      split <;> omega
    · simp only [h, decide_false, Bool.false_eq_true, if_false]
      omega
  | transferNft s d n v =>
    obtain ⟨h1, h2, m, hm, rfl⟩ := transferNft_ok.1 hs
    have hle : u' ≤ u := by
      rw [hu'.unique (isSum_unstakesIn C _), hu.unique (isSum_unstakesIn C w)]
      show (credit m (n, d) v).total _ ≤ _
      rw [total_credit]
      have := total_debit (fun p : Nat × Addr => decide (p.2 ∈ C)) hm
      rcases hc with h | h
      · simp only [h, decide_true, if_true] at this
        split <;> omega
      · simp only [h, decide_false, Bool.false_eq_true, if_false]
        omega
    exact .less (Nat.add_le_add_left hle _) (Nat.le_refl _) rfl rfl
  | fund x v =>
    obtain ⟨h1, rfl⟩ := fund_ok.1 hs
    refine less rfl (fun a ha => ?_) (fun _ _ => Nat.le_refl _) rfl rfl
    show (credit w.egld x v).get 0 a ≤ w.egld.get 0 a
    rw [get_credit, if_neg (fun e : x = a => hc (e ▸ ha))]
  | advance e => obtain ⟨_, rfl⟩ := advance_ok.1 hs; exact same rfl rfl rfl rfl
  | changeOwner c d => obtain ⟨_, _, rfl⟩ := changeOwner_ok.1 hs; exact same rfl rfl rfl rfl
  | transferEgld s d v =>
    obtain ⟨_, _, m, hm, rfl⟩ := transferEgld_ok.1 hs
    have e3 := unstakes_same hs rfl hu hu'
    refine .less ?_ (Nat.le_refl _) rfl rfl
    rw [e3]
    refine Nat.add_le_add_right ?_ _
    show ∑ a ∈ C, (credit m d v).get 0 a ≤ ∑ a ∈ C, w.egld.get 0 a
    rw [sum_total, sum_total, total_credit]
    have := total_debit (fun a => decide (a ∈ C)) hm
    rcases hc with h | h
    · simp only [h, decide_true, if_true] at this
      split <;> omega
    · simp only [h, decide_false, Bool.false_eq_true, if_false]
      omega
  | giveEgld s v =>
    obtain ⟨_, _, m, hm, rfl⟩ := giveEgld_ok.1 hs
    refine less rfl (fun a ha => ?_) (fun _ _ => Nat.le_refl _) rfl rfl
    show (credit m w.self v).get 0 a ≤ w.egld.get 0 a
    rw [get_credit, if_neg (Ne.symm (hne a ha)), get_debit hm]; split <;> omega
  | giveLs s v =>
    obtain ⟨_, _, m, hm, rfl⟩ := giveLs_ok.1 hs
    refine less rfl (fun _ _ => Nat.le_refl _) (fun a ha => ?_) rfl rfl
    show (credit m w.self v).get 0 a ≤ w.ls.get 0 a
    rw [get_credit, if_neg (Ne.symm (hne a ha)), get_debit hm]; split <;> omega
  | giveUnstake s n v =>
    obtain ⟨h1, h2, m, hm, rfl⟩ := giveUnstake_ok.1 hs
    have hle : u' ≤ u := by
      rw [hu'.unique (isSum_unstakesIn C _), hu.unique (isSum_unstakesIn C w)]
      show (credit m (n, w.self) v).total _ ≤ _
      rw [total_credit]
      have := total_debit (fun p : Nat × Addr => decide (p.2 ∈ C)) hm
      have hself : w.self ∉ C := fun h => hne _ h rfl
      simp only [hself, decide_false, Bool.false_eq_true, if_false]
      omega
    exact .less (Nat.add_le_add_left hle _) (Nat.le_refl _) rfl rfl
  | burnLs x v =>
    obtain ⟨_, m, hm, rfl⟩ := holderBurnLs_ok.1 hs
    refine less rfl (fun _ _ => Nat.le_refl _) (fun a _ => ?_) rfl rfl
    show m.get 0 a ≤ w.ls.get 0 a
    rw [get_debit hm]; split <;> omega
  | burnUnstake x n v =>
    obtain ⟨_, m, hm, rfl⟩ := holderBurnNft_ok.1 hs
    have hle : u' ≤ u := by
      rw [hu'.unique (isSum_unstakesIn C _), hu.unique (isSum_unstakesIn C w)]
      show m.total _ ≤ _
      have := total_debit (fun p : Nat × Addr => decide (p.2 ∈ C)) hm
      omega
    exact .less (Nat.add_le_add_left hle _) (Nat.le_refl _) rfl rfl
  | starve i o =>
    obtain ⟨f, hf, rfl⟩ := starve_ok hs
    refine less rfl (fun a ha => ?_) (fun _ _ => Nat.le_refl _) rfl rfl
    show (credit w.egld w.self (attached f o)).get 0 a ≤ w.egld.get 0 a
    rw [get_credit, if_neg (Ne.symm (hne a ha))]

end LS
