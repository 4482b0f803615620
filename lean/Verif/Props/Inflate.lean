import Verif.Spec.Inflate
import Verif.Props.Economy
import Verif.Props.Flash
import Verif.Props.Callbacks

/-! Raising the rate so that others lose by rounding: C111. -/

namespace LS
open Spec Demo

/-! ### Arithmetic -/

theorem raise_deposit {l n R S a m : Nat} (hS : 0 < S) (hR : 0 < R) (hm : m = lsFor S R a) (hn : n + l ≤ S)
    (h : (R : ℚ) / S ≤ ((R + a : Nat) : ℚ) / ((S + m : Nat) : ℚ)) :
    (l : ℚ) * (((R + a : Nat) : ℚ) / ((S + m : Nat) : ℚ)) - l * ((R : ℚ) / S) ≤
      (R : ℚ) / S - n * (((R + a : Nat) : ℚ) / ((S + m : Nat) : ℚ) - (R : ℚ) / S) := by
  have qS : (0 : ℚ) < S := by exact_mod_cast hS
  have qR : (0 : ℚ) < R := by exact_mod_cast hR
  have qm : (0 : ℚ) ≤ m := by positivity
  have qn : (n : ℚ) + l ≤ S := by exact_mod_cast hn
  rw [lsFor, if_neg (by omega)] at hm
  have e2 : a * S < (m + 1) * R := by
    have := Nat.lt_mul_div_succ (a * S) hR
    rw [← hm, Nat.mul_comm R] at this; exact this
  have q2 : (a : ℚ) * S < (m + 1) * R := by exact_mod_cast e2
  have h2 : (a : ℚ) < m * ((R : ℚ) / S) + (R : ℚ) / S := by
    rw [← add_one_mul, ← mul_div_assoc, lt_div_iff₀ qS]; exact q2
  generalize hr' : ((R + a : Nat) : ℚ) / ((S + m : Nat) : ℚ) = r' at h ⊢
  generalize hr : (R : ℚ) / S = r at h h2 ⊢
  have f1 : r * S = R := by rw [← hr]; field_simp
  have f2 : r' * (S + m) = R + a := by
    rw [← hr']
    push_cast
    have : (S : ℚ) + m ≠ 0 := by positivity
    field_simp
  have f3 : (n + l : ℚ) * (r' - r) ≤ S * (r' - r) := mul_le_mul_of_nonneg_right qn (by linarith)
  have f4 : (m : ℚ) * r ≤ m * r' := mul_le_mul_of_nonneg_left h qm
  nlinarith

theorem raise_redeem {l n R S x y R' S' : Nat} (hS : 0 < S) (hS' : 0 < S') (hy : y = egldFor S R x) (hR : R' + y = R) (hx : S' + x = S)
    (hn : n + l ≤ S') (h : (R : ℚ) / S ≤ (R' : ℚ) / S') :
    (l : ℚ) * ((R' : ℚ) / S') - l * ((R : ℚ) / S) ≤ 1 - n * ((R' : ℚ) / S' - (R : ℚ) / S) := by
  have qS : (0 : ℚ) < S := by exact_mod_cast hS
  have qS' : (0 : ℚ) < S' := by exact_mod_cast hS'
  have qn : (n : ℚ) + l ≤ S' := by exact_mod_cast hn
  have e2 : x * R < S * (y + 1) := by rw [hy, egldFor]; exact Nat.lt_mul_div_succ _ hS
  have q2 : (x : ℚ) * R < S * (y + 1) := by exact_mod_cast e2
  have q3 : (R' : ℚ) + y = R := by exact_mod_cast hR
  have q4 : (S' : ℚ) + x = S := by exact_mod_cast hx
  have h2 : (x : ℚ) * ((R : ℚ) / S) < y + 1 := by
    rw [← mul_div_assoc, div_lt_iff₀ qS]; linarith
  generalize hr' : (R' : ℚ) / S' = r' at h ⊢
  generalize hr : (R : ℚ) / S = r at h h2 ⊢
  have f1 : r * S = R := by rw [← hr]; field_simp
  have f2 : r' * S' = R' := by rw [← hr']; field_simp
  have f3 : (n + l : ℚ) * (r' - r) ≤ S' * (r' - r) := mul_le_mul_of_nonneg_right qn (by linarith)
  nlinarith

theorem raise_deal {e u l R S e' u' l' R' S' n : Nat} (h : Deal e u l R S e' u' l' R' S') (hS : 0 < S) (hS' : 0 < S') (hn : n + l ≤ S)
    (hn' : n + l' ≤ S') (hup : (R : ℚ) / S ≤ (R' : ℚ) / S') :
    (e' : ℚ) + u' + l' * ((R' : ℚ) / S') ≤ (e : ℚ) + u + l * ((R : ℚ) / S) - n * ((R' : ℚ) / S' - (R : ℚ) / S) := by
  have hF : e' + u' + R' ≤ e + u + R := by cases h <;> omega
  have hm : S + l' ≤ S' + l := by cases h <;> omega
  have qS : (0 : ℚ) < S := by exact_mod_cast hS
  have qS' : (0 : ℚ) < S' := by exact_mod_cast hS'
  have qF : (e' : ℚ) + u' + R' ≤ e + u + R := by exact_mod_cast hF
  have qm : (S : ℚ) + l' ≤ S' + l := by exact_mod_cast hm
  have qn : (n : ℚ) + l ≤ S := by exact_mod_cast hn
  have hr0 : (0 : ℚ) ≤ (R' : ℚ) / S' := by positivity
  generalize hr' : (R' : ℚ) / S' = r' at hup hr0 ⊢
  generalize hr : (R : ℚ) / S = r at hup ⊢
  have f1 : r * S = R := by rw [← hr]; field_simp
  have f2 : r' * S' = R' := by rw [← hr']; field_simp
  have f3 : ((S : ℚ) - l) * r' ≤ (S' - l') * r' := mul_le_mul_of_nonneg_right (by linarith) hr0
  have f4 : (n : ℚ) * (r' - r) ≤ (S - l) * (r' - r) := mul_le_mul_of_nonneg_right (by linarith) (by linarith)
  nlinarith

/-! ### One transaction -/

/-- What others do to a group whose balances stay: its LS tokens are worth what the rate makes them. -/
theorem worth_kept {C : Finset Addr} {w w' : World} {u u' : Nat} (h1 : ∀ a ∈ C, egldOf w' a = egldOf w a) (h2 : ∀ a ∈ C, lsOf w' a = lsOf w a)
    (h3 : u' = u) : worth C w' u' = worth C w u + (((∑ a ∈ C, lsOf w a : Nat) : ℚ) * rate w' - ((∑ a ∈ C, lsOf w a : Nat) : ℚ) * rate w) := by
  unfold worth
  rw [sum_same h1, sum_same h2, h3]
  ring

theorem unstakes_kept {C : Finset Addr} {w w' : World} {u u' : Nat} (h : ∀ n, ∀ a ∈ C, unstakeOf w' n a = unstakeOf w n a)
    (hu : IsSum (unstakesIn C w) u) (hu' : IsSum (unstakesIn C w') u') : u' = u := by
  refine hu'.unique (hu.congr fun p => ?_)
  unfold unstakesIn
  split
  · next hp => exact (h p.1 p.2 hp).symm
  · rfl

theorem others_supply {C : Finset Addr} {n : Nat} {w : World} (hn : 0 < n) (h : OthersHold C n w) : 0 < supply w := by
  unfold OthersHold at h; omega

/-- A deposit of an outsider. -/
theorem raise_by_deposit {C : Finset Addr} {n : Nat} {w w' : World} {c : Addr} {a : Nat} (hr : Reachable w)
    (hs : step w (.delegate c a) = .ok w') (hself : w.self ∉ C) (hc : c ∉ C) (h : OthersHold C n w) (hS : 0 < supply w) (hup : rate w ≤ rate w')
    {u u' : Nat} (hu : IsSum (unstakesIn C w) u) (hu' : IsSum (unstakesIn C w') u') :
    worth C w' u' ≤ worth C w u + rate w - n * (rate w' - rate w) := by
  obtain ⟨_, _, h3, h4, _, h5, h6, h7⟩ := C01_delegate_mints_pro_rata hs
  have hne : ∀ x ∈ C, x ≠ c := fun x hx e => hc (e ▸ hx)
  have hns : ∀ x ∈ C, x ≠ w.self := fun x hx e => hself (e ▸ hx)
  rw [worth_kept (fun x hx => h5 x (hne x hx) (hns x hx)) (fun x hx => h6 x (hne x hx)) (unstakes_kept (fun m x _ => h7 m x) hu hu')]
  have hR : 0 < reserve w := (reachable_ainv hr).pos hS
  have := raise_deposit (l := ∑ x ∈ C, lsOf w x) (n := n) (a := a) hS hR rfl h
    (by rw [← h3, ← h4]; exact hup)
  rw [← h3, ← h4] at this
  unfold rate
  linarith

/-- A redemption of an outsider. -/
theorem raise_by_redeem {C : Finset Addr} {n : Nat} {w w' : World} {c : Addr} {v : Nat} {ps : List Payment}
    (hs : step w (.unDelegate c v ps) = .ok w') (hself : w.self ∉ C) (hc : c ∉ C) (h' : OthersHold C n w') (hS : 0 < supply w) (hS' : 0 < supply w')
    (hup : rate w ≤ rate w') {u u' : Nat} (hu : IsSum (unstakesIn C w) u) (hu' : IsSum (unstakesIn C w') u') :
    worth C w' u' ≤ worth C w u + 1 - n * (rate w' - rate w) := by
  obtain ⟨t, l, i, y, m, _, _, _, _, e1, _, _, e2, e3, _, e4, e5, e6⟩ := C02_unDelegate_pays_pro_rata hs
  have hne : ∀ x ∈ C, x ≠ c := fun x hx e => hc (e ▸ hx)
  have hns : ∀ x ∈ C, x ≠ w.self := fun x hx e => hself (e ▸ hx)
  have hls : ∀ x ∈ C, lsOf w' x = lsOf w x := fun x hx => e5 x (hne x hx)
  rw [worth_kept (fun x hx => e4 x (hne x hx) (hns x hx)) hls (unstakes_kept (fun m x hx => e6 m x (hne x hx) (hns x hx)) hu hu')]
  unfold OthersHold at h'
  rw [sum_same hls] at h'
  have := raise_redeem (l := ∑ x ∈ C, lsOf w x) (n := n) hS hS' e1 e3 e2 h' hup
  unfold rate
  linarith

/-- The answer to an outsider's whitelisting. -/
theorem raise_by_join {C : Finset Addr} {n : Nat} {w w' : World} {i : Nat} {o : Outcome} {p : Addr} {x : Nat} {v : Addr} (hr : Reachable w)
    (hs : step w (.deliver i o) = .ok w') (hf : w.flights[i]? = some (.whitelist p x v)) (hself : w.self ∉ C) (hv : v ∉ C)
    (h : OthersHold C n w) (hS : 0 < supply w) (hup : rate w ≤ rate w') {u u' : Nat} (hu : IsSum (unstakesIn C w) u)
    (hu' : IsSum (unstakesIn C w') u') : worth C w' u' ≤ worth C w u + rate w - n * (rate w' - rate w) := by
  have hne : ∀ y ∈ C, y ≠ v := fun y hy e => hv (e ▸ hy)
  have hns : ∀ y ∈ C, y ≠ w.self := fun y hy e => hself (e ▸ hy)
  have k1 : ∀ y ∈ C, egldOf w' y = egldOf w y := fun y hy => C64_only_its_parts hr hs (.egld y) (by
    have := hne y hy
    have := hns y hy
    cases o with
    | ok g r => simp [touched, hf, callbackParts, *]
    | err => simp only [touched, hf, callbackParts]; split_ifs <;> simp [*])
  have k2 : ∀ y ∈ C, lsOf w' y = lsOf w y := fun y hy => C64_only_its_parts hr hs (.ls y) (by
    have := hne y hy
    cases o with
    | ok g r => simp [touched, hf, callbackParts, *]
    | err => simp only [touched, hf, callbackParts]; split_ifs <;> simp)
  rw [worth_kept k1 k2 (unstakes_same hs rfl hu hu')]
  have hpos : (0 : ℚ) ≤ rate w := by unfold rate; positivity
  have still : supply w' = supply w → reserve w' = reserve w → worth C w u + (((∑ a ∈ C, lsOf w a : Nat) : ℚ) * rate w' -
      ((∑ a ∈ C, lsOf w a : Nat) : ℚ) * rate w) ≤ worth C w u + rate w - n * (rate w' - rate w) := by
    intro e1 e2
    have : rate w' = rate w := by unfold rate; rw [e1, e2]
    rw [this]
    linarith
  obtain ⟨f, hf', hcb⟩ := deliver_ok hs
  rw [hf] at hf'
  cases hf'
  rcases hcb with hcb | ⟨_, rfl⟩
  swap
  · exact still rfl rfl
  cases o with
  | err =>
    obtain ⟨_, _, _, rfl⟩ := whitelistCb_false_ok.1 hcb
    exact still rfl rfl
  | ok g r =>
    obtain ⟨t, d, l, _, _, hq, rfl⟩ := whitelistCb_true_ok.1 hcb
    obtain ⟨_, hl1⟩ := lsQuote_iff.1 hq
    have hl1' : l = lsFor (supply w) (reserve w) x := hl1
    have := raise_deposit (l := ∑ y ∈ C, lsOf w y) (n := n) (a := x) hS ((reachable_ainv hr).pos hS) hl1' h hup
    unfold rate
    have k : (((∑ a ∈ C, lsOf w a : Nat) : ℚ) * (((reserve w + x : Nat) : ℚ) / ((supply w + l : Nat) : ℚ)) -
      ((∑ a ∈ C, lsOf w a : Nat) : ℚ) * ((reserve w : ℚ) / supply w)) ≤ (reserve w : ℚ) / supply w -
      n * (((reserve w + x : Nat) : ℚ) / ((supply w + l : Nat) : ℚ) - (reserve w : ℚ) / supply w) := this
    show worth C w u + (((∑ a ∈ C, lsOf w a : Nat) : ℚ) * (((reserve w + x : Nat) : ℚ) / ((supply w + l : Nat) : ℚ)) -
      ((∑ a ∈ C, lsOf w a : Nat) : ℚ) * ((reserve w : ℚ) / supply w)) ≤ worth C w u + (reserve w : ℚ) / supply w -
      n * (((reserve w + x : Nat) : ℚ) / ((supply w + l : Nat) : ℚ) - (reserve w : ℚ) / supply w)
    linarith

/-! ### Histories -/

/-- **C111.** A group of accounts may raise the rate as it likes, by donations or otherwise, so that others lose by rounding.  After any such
history, with `k` deposits and `j` redemptions of others while at every moment others held at least `n ≥ 1` units of LS token: what the group
owns has grown by its share `g` in rewards from outside, by at most the value of one unit of LS token for each deposit and one unit of EGLD for
each redemption; and it has paid `n` times the rise of the rate that did not come from such rewards. -/
theorem C111_dealings {C : Finset Addr} {n k j : Nat} {g q : ℚ} {w w' : World} (hr : Reachable w) (hself : w.self ∉ C) (hn : 0 < n)
    (h : Dealings C n w w' k j g q) {u u' : Nat} (hu : IsSum (unstakesIn C w) u) (hu' : IsSum (unstakesIn C w') u') :
    0 ≤ rate w' - rate w - q ∧
    worth C w' u' ≤ worth C w u + g + k * rate w' + j - n * (rate w' - rate w - q) := by
  suffices H : Reachable w' ∧ w'.self = w.self ∧ OthersHold C n w' ∧ 0 ≤ rate w' - rate w - q ∧ ∀ u', IsSum (unstakesIn C w') u' →
      worth C w' u' ≤ worth C w u + g + k * rate w' + j - n * (rate w' - rate w - q) from ⟨H.2.2.2.1, H.2.2.2.2 u' hu'⟩
  clear hu'
  have next : ∀ {w1 w2 : World} {op : Op}, Reachable w1 → w1.self = w.self → OthersHold C n w1 → step w1 op = .ok w2 → OthersHold C n w2 →
      Reachable w2 ∧ w2.self = w.self ∧ 0 < supply w1 ∧ 0 < supply w2 ∧
      rate w1 + (creditedBy w1 op : ℚ) / (supply w1 : ℚ) ≤ rate w2 ∧ rate w1 ≤ rate w2 := by
    intro w1 w2 op hr1 e1 o1 hs o2
    have s1 := others_supply hn o1
    have s2 := others_supply hn o2
    have hc := (C72_only_rewards hr1 hs s1 s2).1
    have : (0 : ℚ) ≤ (creditedBy w1 op : ℚ) / (supply w1 : ℚ) := by positivity
    exact ⟨.step op hr1 hs, (frame_step op (reachable_regInv hr1) (reachable_issInv hr1) hs).self.trans e1, s1, s2, hc, by linarith⟩
  induction h with
  | nil h0 => exact ⟨hr, rfl, h0, by simp, fun v hv => by rw [hv.unique hu]; simp⟩
  | @own w1 w2 k j g q op _ hs hc ho ih =>
    obtain ⟨hr1, e1, o1, i1, i2⟩ := ih
    obtain ⟨hr2, e2, s1, s2, _, up⟩ := next hr1 e1 o1 hs ho
    refine ⟨hr2, e2, ho, by linarith, fun v hv => ?_⟩
    have h1 := isSum_unstakesIn C w1
    have h2 := i2 _ h1
    have h3 := raise_deal (deal_step op hr1 hs (by rw [e1]; exact hself) hc h1 hv) s1 s2 o1 ho up
    have h4 : worth C w2 v ≤ worth C w1 _ - n * (rate w2 - rate w1) := h3
    have h5 : (k : ℚ) * rate w1 ≤ k * rate w2 := mul_le_mul_of_nonneg_left up (by positivity)
    linarith
  | @deposit w1 w2 k j g q c a _ hs hc ho ih =>
    obtain ⟨hr1, e1, o1, i1, i2⟩ := ih
    obtain ⟨hr2, e2, s1, s2, _, up⟩ := next hr1 e1 o1 hs ho
    refine ⟨hr2, e2, ho, by linarith, fun v hv => ?_⟩
    have h1 := isSum_unstakesIn C w1
    have h2 := i2 _ h1
    have h3 := raise_by_deposit hr1 hs (by rw [e1]; exact hself) hc o1 s1 up h1 hv
    have h5 : (k : ℚ) * rate w1 ≤ k * rate w2 := mul_le_mul_of_nonneg_left up (by positivity)
    push_cast
    linarith
  | @joins w1 w2 k j g q i o p x v0 _ hs hf hc ho ih =>
    obtain ⟨hr1, e1, o1, i1, i2⟩ := ih
    obtain ⟨hr2, e2, s1, s2, _, up⟩ := next hr1 e1 o1 hs ho
    refine ⟨hr2, e2, ho, by linarith, fun v hv => ?_⟩
    have h1 := isSum_unstakesIn C w1
    have h2 := i2 _ h1
    have h3 := raise_by_join hr1 hs hf (by rw [e1]; exact hself) hc o1 s1 up h1 hv
    have h5 : (k : ℚ) * rate w1 ≤ k * rate w2 := mul_le_mul_of_nonneg_left up (by positivity)
    push_cast
    linarith
  | @redeem w1 w2 k j g q c v0 ps _ hs hc ho ih =>
    obtain ⟨hr1, e1, o1, i1, i2⟩ := ih
    obtain ⟨hr2, e2, s1, s2, _, up⟩ := next hr1 e1 o1 hs ho
    refine ⟨hr2, e2, ho, by linarith, fun v hv => ?_⟩
    have h1 := isSum_unstakesIn C w1
    have h2 := i2 _ h1
    have h3 := raise_by_redeem hs (by rw [e1]; exact hself) hc ho s1 s2 up h1 hv
    have h5 : (k : ℚ) * rate w1 ≤ k * rate w2 := mul_le_mul_of_nonneg_left up (by positivity)
    push_cast
    linarith
  | @reward w1 w2 k j g q op _ hs hc ho ih =>
    obtain ⟨hr1, e1, o1, i1, i2⟩ := ih
    obtain ⟨hr2, e2, s1, s2, gain, up⟩ := next hr1 e1 o1 hs ho
    refine ⟨hr2, e2, ho, by linarith, fun v hv => ?_⟩
    have h1 := isSum_unstakesIn C w1
    have h2 := i2 _ h1
    have hor : OnlyRewards C w1 op := by
      rcases hc with ⟨c, a, rfl, _⟩ | ⟨i, o, ps, rfl, hf⟩
      · trivial
      · exact .inl ⟨ps, hf⟩
    have h3 := reward_worth hr1 hs (by rw [e1]; exact hself) hor h1 hv
    have h5 : (k : ℚ) * rate w1 ≤ k * rate w2 := mul_le_mul_of_nonneg_left up (by positivity)
    have h6 : rate w2 = rate w1 + (creditedBy w1 op : ℚ) / (supply w1 : ℚ) := by
      have key : supply w2 = supply w1 ∧ reserve w2 = reserve w1 + creditedBy w1 op := by
        rcases hc with ⟨c, a, rfl, _⟩ | ⟨i, o, ps, rfl, hf⟩
        · obtain ⟨_, t, m, _, hm, rfl⟩ := addRewards_ok.1 hs
          exact ⟨rfl, rfl⟩
        · exact claim_moves hr1 hs hf
      unfold rate
      rw [key.1, key.2]
      push_cast
      ring
    unfold shareOf
    have h7 : (n : ℚ) * (rate w2 - rate w - (q + (creditedBy w1 op : ℚ) / (supply w1 : ℚ))) = n * (rate w1 - rate w - q) := by rw [h6]; ring
    rw [h7]
    linarith

/-- **C111**, so it does not pay: as long as others hold at least as many units of LS token as they make deposits, the group gains beyond its
share in rewards at most the value of one unit of LS token, at the rate before all of this, for each deposit, and one unit of EGLD for each
redemption. -/
theorem C111_does_not_pay {C : Finset Addr} {n k j : Nat} {g q : ℚ} {w w' : World} (hr : Reachable w) (hself : w.self ∉ C) (hn : 0 < n)
    (hk : k ≤ n) (h : Dealings C n w w' k j g q) {u u' : Nat} (hu : IsSum (unstakesIn C w) u) (hu' : IsSum (unstakesIn C w') u') :
    worth C w' u' ≤ worth C w u + g + k * (rate w + q) + j := by
  obtain ⟨h1, h2⟩ := C111_dealings hr hself hn h hu hu'
  have hq : (k : ℚ) ≤ n := by exact_mod_cast hk
  have := mul_le_mul_of_nonneg_right hq h1
  linarith

/-- Non-vacuity: 11 donates 10 EGLD to raise the rate, 12 deposits and redeems, rewards arrive, and others hold more than one LS token
throughout. -/
example : ∃ (w w' : World) (g q : ℚ), Reachable w ∧ w.self ∉ ({11} : Finset Addr) ∧ Dealings {11} (E 1) w w' 1 1 g q ∧ 1 ≤ E 1 ∧
    egldOf w' 11 + E 10 = egldOf w 11 ∧ 0 < g := by
  let w1 := exec claiming (.addRewards 11 (E 10))
  let w2 := exec w1 (.delegate 12 (E 5))
  let w3 := exec w2 (.deliver 0 (.ok (E 7) (E 7)))
  let w4 := exec w3 (.unDelegate 12 0 [⟨500, 0, E 2⟩])
  have f : w2.flights[0]? = some (.claim [21, 22]) := by decide +kernel
  have d0 : Dealings {11} (E 1) claiming claiming 0 0 0 0 := .nil (by unfold OthersHold; decide +kernel)
  have d1 : Dealings {11} (E 1) claiming w1 0 0 0 0 :=
    d0.own (.addRewards 11 (E 10)) (step_exec (by decide +kernel)) (by simp [Closed]) (by unfold OthersHold; decide +kernel)
  have d2 : Dealings {11} (E 1) claiming w2 1 0 0 0 :=
    d1.deposit 12 (E 5) (step_exec (by decide +kernel)) (by simp) (by unfold OthersHold; decide +kernel)
  have d3 := d2.reward (w2 := w3) (.deliver 0 (.ok (E 7) (E 7))) (step_exec (by decide +kernel)) (.inr ⟨0, _, _, rfl, f⟩)
    (by unfold OthersHold; decide +kernel)
  have d4 := d3.redeem (w2 := w4) 12 0 [⟨500, 0, E 2⟩] (step_exec (by decide +kernel)) (by simp) (by unfold OthersHold; decide +kernel)
  refine ⟨claiming, w4, _, _, claiming_reachable, by decide +kernel, d4, by decide +kernel, by decide +kernel, ?_⟩
  have p : 0 < creditedBy w2 (.deliver 0 (.ok (E 7) (E 7))) := by decide +kernel
  have s : 0 < supply w2 := by decide +kernel
  have l : 0 < lsOf w2 11 := by decide +kernel
  have p' : (0 : ℚ) < (creditedBy w2 (.deliver 0 (.ok (E 7) (E 7))) : ℚ) := by exact_mod_cast p
  have s' : (0 : ℚ) < (supply w2 : ℚ) := by exact_mod_cast s
  have l' : (0 : ℚ) < (lsOf w2 11 : ℚ) := by exact_mod_cast l
  unfold shareOf
  rw [Finset.sum_singleton, zero_add]
  exact div_pos (mul_pos p' l') s'

end LS
