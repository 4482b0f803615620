import Verif.Spec.Gains
import Verif.Proofs.Coalition
import Verif.Proofs.Rewards
import Verif.Props.Accounting

/-! The account of one transaction: what a group of accounts owns afterwards. -/

namespace LS
open Spec

/-! ### Arithmetic -/

theorem member_deposit {l R S a m : Nat} (hm : m = lsFor S R a) (h0 : 0 < m) (hl : l ≤ S) (hp : 0 < S → 0 < R) :
    -(max ((R : ℚ) / S) 1) ≤ ((l + m : Nat) : ℚ) * (((R + a : Nat) : ℚ) / ((S + m : Nat) : ℚ)) - l * ((R : ℚ) / S) - a ∧
    ((l + m : Nat) : ℚ) * (((R + a : Nat) : ℚ) / ((S + m : Nat) : ℚ)) - l * ((R : ℚ) / S) - a ≤ 0 := by
  have up := deal_worth (.deposit a m (e := a) (u := 0) (l := l) (R := R) (S := S) (e' := 0) (u' := 0) (by omega) rfl rfl hm h0 rfl rfl) hl hp
  refine ⟨?_, by simp only [Nat.cast_zero] at up; linarith⟩
  rcases Nat.eq_zero_or_pos S with hS | hS
  · subst hS
    have hl0 : l = 0 := by omega
    subst hl0
    have hR : R = 0 := by
      by_contra hR
      rw [lsFor, if_neg hR, Nat.mul_zero, Nat.zero_div] at hm
      omega
    subst hR
    rw [lsFor, if_pos rfl] at hm
    subst hm
    have hmq : (m : ℚ) ≠ 0 := by exact_mod_cast (by omega : m ≠ 0)
    simp only [Nat.zero_add, Nat.cast_zero, zero_div, mul_zero, sub_zero]
    rw [div_self hmq, mul_one, sub_self]
    have : (0 : ℚ) ≤ max 0 1 := le_max_left _ _
    linarith
  · have hR := hp hS
    have qR : (0 : ℚ) < R := by exact_mod_cast hR
    have qS : (0 : ℚ) < S := by exact_mod_cast hS
    have qm : (0 : ℚ) ≤ m := by positivity
    rw [lsFor, if_neg (by omega)] at hm
    have e1 : m * R ≤ a * S := by rw [hm]; exact Nat.div_mul_le_self _ _
    have e2 : a * S < (m + 1) * R := by
      have := Nat.lt_mul_div_succ (a * S) hR
      rw [← hm, Nat.mul_comm R] at this; exact this
    have q1 : (m : ℚ) * R ≤ a * S := by exact_mod_cast e1
    have q2 : (a : ℚ) * S < (m + 1) * R := by exact_mod_cast e2
    push_cast
    have hrate : (R : ℚ) / S ≤ (R + a) / (S + m) := by
      rw [div_le_div_iff₀ qS (by positivity)]
      nlinarith
    have h1 : ((l : ℚ) + m) * ((R : ℚ) / S) ≤ (l + m) * ((R + a) / (S + m)) := mul_le_mul_of_nonneg_left hrate (by positivity)
    have h2 : (a : ℚ) < m * ((R : ℚ) / S) + (R : ℚ) / S := by
      rw [← add_one_mul, ← mul_div_assoc, lt_div_iff₀ qS]; exact q2
    have h3 := le_max_left ((R : ℚ) / S) 1
    linarith

theorem member_redeem {l x y R S R' S' : Nat} (hy : y = egldFor S R x) (hR : R' + y = R) (hS : S' + x = S) (hx : x ≤ l) (hl : l ≤ S)
    (hp : 0 < S → 0 < R) :
    -(max ((R : ℚ) / S) 1) ≤ (y : ℚ) + ((l - x : Nat) : ℚ) * ((R' : ℚ) / S') - l * ((R : ℚ) / S) ∧
    (y : ℚ) + ((l - x : Nat) : ℚ) * ((R' : ℚ) / S') - l * ((R : ℚ) / S) ≤ 0 := by
  have up := deal_worth (.redeem x y (e := 0) (u := 0) (l := l) (R := R) (S := S) (e' := y) (u' := 0) (l' := l - x) (by omega) (by omega) hy hR hS) hl hp
  refine ⟨?_, by simp only [Nat.cast_zero] at up; linarith⟩
  have m1 := le_max_right ((R : ℚ) / S) 1
  rcases Nat.eq_zero_or_pos S' with h0 | h0
  · subst h0
    have hx' : x = S := by omega
    have hl' : l = S := by omega
    subst hl'
    rw [hx']
    rcases Nat.eq_zero_or_pos l with hS0 | hS0
    · subst hS0
      simp only [Nat.cast_zero, zero_mul, Nat.sub_self, sub_zero, add_zero]
      have : (0 : ℚ) ≤ y := by positivity
      simp only [Nat.cast_zero, div_zero] at m1 ⊢
      linarith
    · have : y = R := by
        rw [hy, egldFor, hx']; exact Nat.mul_div_cancel_left R hS0
      rw [this, Nat.sub_self]
      have q : (l : ℚ) ≠ 0 := by exact_mod_cast hS0.ne'
      have e : (l : ℚ) * ((R : ℚ) / l) = R := by field_simp
      rw [e]
      simp only [Nat.cast_zero, zero_mul]
      linarith
  · have hS0 : 0 < S := by omega
    have qS : (0 : ℚ) < S := by exact_mod_cast hS0
    have qS' : (0 : ℚ) < S' := by exact_mod_cast h0
    have e1 : y * S ≤ x * R := by rw [hy, egldFor]; exact Nat.div_mul_le_self _ _
    have e2 : x * R < (y + 1) * S := by
      have := Nat.lt_mul_div_succ (x * R) hS0
      rw [show x * R / S = y from hy.symm, Nat.mul_comm S] at this; exact this
    have q1 : (y : ℚ) * S ≤ x * R := by exact_mod_cast e1
    have q2 : (x : ℚ) * R < (y + 1) * S := by exact_mod_cast e2
    have qR : (R' : ℚ) = R - y := by
      have : (R' : ℚ) + y = R := by exact_mod_cast hR
      linarith
    have qS2 : (S' : ℚ) = S - x := by
      have : (S' : ℚ) + x = S := by exact_mod_cast hS
      linarith
    have hrate : (R : ℚ) / S ≤ (R' : ℚ) / S' := by
      rw [div_le_div_iff₀ qS qS', qR, qS2]
      nlinarith
    have h1 := mul_le_mul_of_nonneg_left hrate (show (0 : ℚ) ≤ ((l - x : Nat) : ℚ) by positivity)
    have h2 : (x : ℚ) * ((R : ℚ) / S) < y + 1 := by
      rw [← mul_div_assoc, div_lt_iff₀ qS]; exact q2
    have h3 : ((l - x : Nat) : ℚ) = (l : ℚ) - x := Nat.cast_sub hx
    rw [h3] at h1 ⊢
    have h4 : ((l : ℚ) - x) * ((R : ℚ) / S) = l * ((R : ℚ) / S) - x * ((R : ℚ) / S) := by ring
    linarith

/-! ### One transaction -/

/-- What a group owns after a transaction, beyond what the account explains. -/
def residue (C : Finset Addr) (w w' : World) (op : Op) (u u' : Nat) : ℚ :=
  worth C w' u' - (worth C w u + handed C w w' op - spent C w op + shareOf C w op)

/-- The residue is rounding. -/
def Explained (C : Finset Addr) (w w' : World) (op : Op) (u u' : Nat) : Prop :=
  -(roundingLoss C w op) ≤ residue C w w' op u u' ∧ residue C w w' op u u' ≤ roundingGain C w w' op

section
variable {C : Finset Addr} {w w' : World} {op : Op} {u u' : Nat}

private theorem share_zero (hc : creditedBy w op = 0) : shareOf C w op = 0 := by
  unfold shareOf; rw [hc]; simp

/-- Things change hands at the current rate. -/
theorem explained_flat {i o li lo : Nat} (h1 : ∑ a ∈ C, egldOf w' a + u' + o = ∑ a ∈ C, egldOf w a + u + i)
    (h2 : ∑ a ∈ C, lsOf w' a + lo = ∑ a ∈ C, lsOf w a + li) (hR : reserve w' = reserve w) (hS : supply w' = supply w)
    (hd : dealer w op = none) (hc : creditedBy w op = 0) (hh : handed C w w' op = i + li * rate w)
    (hs : spent C w op = o + lo * rate w) : Explained C w w' op u u' := by
  have q1 : ((∑ a ∈ C, egldOf w' a : Nat) : ℚ) + u' + o = ((∑ a ∈ C, egldOf w a : Nat) : ℚ) + u + i := by exact_mod_cast h1
  have q2 : ((∑ a ∈ C, lsOf w' a : Nat) : ℚ) + lo = ((∑ a ∈ C, lsOf w a : Nat) : ℚ) + li := by exact_mod_cast h2
  have hr : rate w' = rate w := by unfold rate; rw [hR, hS]
  have e : residue C w w' op u u' = 0 := by
    unfold residue worth
    rw [hr, hh, hs, share_zero hc]
    have : ((∑ a ∈ C, lsOf w' a : Nat) : ℚ) = ((∑ a ∈ C, lsOf w a : Nat) : ℚ) + li - lo := by linarith
    rw [this, sub_mul, add_mul]
    linarith
  unfold Explained roundingLoss roundingGain
  rw [e, hd]
  exact ⟨by simp, by simp⟩

/-- A transaction of no concern to the group. -/
theorem explained_aside (hr : Reachable w) (hs : step w op = .ok w') (hu : IsSum (unstakesIn C w) u) (hu' : IsSum (unstakesIn C w') u')
    (hm : movesNft op = false) (h1 : ∀ a ∈ C, Part.egld a ∉ touched w op) (h2 : ∀ a ∈ C, Part.ls a ∉ touched w op)
    (hR : Part.reserve ∉ touched w op) (hS : Part.supply ∉ touched w op) (hd : dealer w op = none) (hc : creditedBy w op = 0)
    (hh : handed C w w' op = 0) (hsp : spent C w op = 0) : Explained C w w' op u u' := by
  have e1 : ∑ a ∈ C, egldOf w' a = ∑ a ∈ C, egldOf w a := sum_same fun a ha => parts_step hr hs (.egld a) (h1 a ha)
  have e2 : ∑ a ∈ C, lsOf w' a = ∑ a ∈ C, lsOf w a := sum_same fun a ha => parts_step hr hs (.ls a) (h2 a ha)
  have e3 := unstakes_same hs hm hu hu'
  exact explained_flat (i := 0) (o := 0) (li := 0) (lo := 0) (by omega) (by omega) (parts_step hr hs .reserve hR) (parts_step hr hs .supply hS)
    hd hc (by rw [hh]; simp) (by rw [hsp]; simp)

/-- A transaction that moves EGLD only. -/
theorem explained_egld (hr : Reachable w) (hs : step w op = .ok w') (hu : IsSum (unstakesIn C w) u) (hu' : IsSum (unstakesIn C w') u')
    (hm : movesNft op = false) {i o : Nat} (h1 : ∑ a ∈ C, egldOf w' a + o = ∑ a ∈ C, egldOf w a + i) (h2 : ∀ a ∈ C, Part.ls a ∉ touched w op)
    (hR : Part.reserve ∉ touched w op) (hS : Part.supply ∉ touched w op) (hd : dealer w op = none) (hc : creditedBy w op = 0)
    (hh : handed C w w' op = i) (hsp : spent C w op = o) : Explained C w w' op u u' := by
  have e2 : ∑ a ∈ C, lsOf w' a = ∑ a ∈ C, lsOf w a := sum_same fun a ha => parts_step hr hs (.ls a) (h2 a ha)
  have e3 := unstakes_same hs hm hu hu'
  exact explained_flat (i := i) (o := o) (li := 0) (lo := 0) (by omega) (by omega) (parts_step hr hs .reserve hR) (parts_step hr hs .supply hS)
    hd hc (by rw [hh]; simp) (by rw [hsp]; simp)

/-- Something is credited to all LS tokens. -/
theorem explained_credit {o : Nat} (h1 : ∑ a ∈ C, egldOf w' a + o = ∑ a ∈ C, egldOf w a) (hu : u' = u)
    (h2 : ∑ a ∈ C, lsOf w' a = ∑ a ∈ C, lsOf w a) (hR : reserve w' = reserve w + creditedBy w op) (hS : supply w' = supply w)
    (hd : dealer w op = none) (hh : handed C w w' op = 0) (hsp : spent C w op = o) : Explained C w w' op u u' := by
  have q1 : ((∑ a ∈ C, egldOf w' a : Nat) : ℚ) + o = ((∑ a ∈ C, egldOf w a : Nat) : ℚ) := by exact_mod_cast h1
  have e : residue C w w' op u u' = 0 := by
    unfold residue worth shareOf rate
    rw [hh, hsp, hu, h2, hR, hS, Nat.cast_add (reserve w), add_div, mul_add, ← mul_div_assoc, mul_comm (creditedBy w op : ℚ)]
    rw [mul_div_assoc _ (creditedBy w op : ℚ)]
    linarith
  unfold Explained roundingLoss roundingGain
  rw [e, hd]
  exact ⟨by simp, by simp⟩

/-- An outsider deals with the pool. -/
theorem explained_outsider (hr : Reachable w) (hs : step w op = .ok w') {c : Addr} (hd : dealer w op = some c) (hcC : c ∉ C)
    (h1 : ∀ a ∈ C, egldOf w' a = egldOf w a) (h2 : ∀ a ∈ C, lsOf w' a = lsOf w a) (hu : u' = u) (hc : creditedBy w op = 0)
    (hh : handed C w w' op = 0) (hsp : spent C w op = 0) : Explained C w w' op u u' := by
  have e2 : ∑ a ∈ C, lsOf w' a = ∑ a ∈ C, lsOf w a := sum_same h2
  have e : residue C w w' op u u' = ((∑ a ∈ C, lsOf w a : Nat) : ℚ) * (rate w' - rate w) := by
    unfold residue worth
    rw [hh, hsp, hu, share_zero hc, sum_same h1, e2, mul_sub]
    linarith
  have hl : ∑ a ∈ C, lsOf w a ≤ supply w := by
    obtain ⟨s, hs1, hs2⟩ := C05_supply_is_total hr
    exact Nat.le_trans (isSum_ge hs1 C) (by omega)
  have hl' : ∑ a ∈ C, lsOf w a ≤ supply w' := by
    obtain ⟨s, hs1, hs2⟩ := C05_supply_is_total (.step op hr hs)
    rw [← e2]
    exact Nat.le_trans (isSum_ge hs1 C) (by omega)
  unfold Explained roundingLoss roundingGain
  rw [e, hd]
  simp only [hcC, if_false, neg_zero]
  rcases Nat.eq_zero_or_pos (∑ a ∈ C, lsOf w a) with h0 | h0
  · rw [h0]; simp
  · obtain ⟨r1, r2⟩ := rate_step op hr hs (by omega) (by omega)
    rw [hc] at r1 r2
    simp only [Nat.cast_zero, zero_div, add_zero] at r1 r2
    have hq : (0 : ℚ) ≤ ((∑ a ∈ C, lsOf w a : Nat) : ℚ) := by positivity
    refine ⟨mul_nonneg hq (by linarith), ?_⟩
    calc ((∑ a ∈ C, lsOf w a : Nat) : ℚ) * (rate w' - rate w) ≤ ((∑ a ∈ C, lsOf w a : Nat) : ℚ) * (max (rate w) 1 / (supply w' : ℚ)) :=
          mul_le_mul_of_nonneg_left (by linarith) hq
      _ = max (rate w) 1 * (((∑ a ∈ C, lsOf w a : Nat) : ℚ) / (supply w' : ℚ)) := by ring

/-- A member gets LS tokens for `a` EGLD, paid now or handed to it. -/
theorem explained_deposit (hr : Reachable w) {c : Addr} (hd : dealer w op = some c) (hcC : c ∈ C) {a m : Nat}
    (hm : m = lsFor (supply w) (reserve w) a) (h0 : 0 < m)
    (h1 : ((∑ x ∈ C, egldOf w' x : Nat) : ℚ) + a = ((∑ x ∈ C, egldOf w x : Nat) : ℚ) + handed C w w' op)
    (h2 : ∑ x ∈ C, lsOf w' x = ∑ x ∈ C, lsOf w x + m) (hu : u' = u) (hR : reserve w' = reserve w + a) (hS : supply w' = supply w + m)
    (hc : creditedBy w op = 0) (hsp : spent C w op = 0) : Explained C w w' op u u' := by
  have hl : ∑ a ∈ C, lsOf w a ≤ supply w := by
    obtain ⟨s, hs1, hs2⟩ := C05_supply_is_total hr
    exact Nat.le_trans (isSum_ge hs1 C) (by omega)
  have e : residue C w w' op u u' = ((∑ x ∈ C, lsOf w x + m : Nat) : ℚ) * (((reserve w + a : Nat) : ℚ) / ((supply w + m : Nat) : ℚ)) -
      ((∑ x ∈ C, lsOf w x : Nat) : ℚ) * ((reserve w : ℚ) / (supply w : ℚ)) - a := by
    unfold residue worth rate
    rw [hsp, hu, share_zero hc, h2, hR, hS]
    linarith
  unfold Explained roundingLoss roundingGain
  rw [e, hd]
  simp only [hcC, if_true]
  exact member_deposit hm h0 hl (reachable_ainv hr).pos

/-- A member redeems. -/
theorem explained_redeem (hr : Reachable w) {c : Addr} (hd : dealer w op = some c) (hcC : c ∈ C) {x y : Nat}
    (hy : y = egldFor (supply w) (reserve w) x) (h1 : ∑ a ∈ C, egldOf w' a + u' = ∑ a ∈ C, egldOf w a + u + y)
    (h2 : ∑ a ∈ C, lsOf w' a + x = ∑ a ∈ C, lsOf w a) (hR : reserve w' + y = reserve w) (hS : supply w' + x = supply w)
    (hc : creditedBy w op = 0) (hh : handed C w w' op = 0) (hsp : spent C w op = 0) : Explained C w w' op u u' := by
  have hl : ∑ a ∈ C, lsOf w a ≤ supply w := by
    obtain ⟨s, hs1, hs2⟩ := C05_supply_is_total hr
    exact Nat.le_trans (isSum_ge hs1 C) (by omega)
  have q1 : ((∑ a ∈ C, egldOf w' a : Nat) : ℚ) + u' = ((∑ a ∈ C, egldOf w a : Nat) : ℚ) + u + y := by exact_mod_cast h1
  have e : residue C w w' op u u' = (y : ℚ) + ((∑ a ∈ C, lsOf w a - x : Nat) : ℚ) * ((reserve w' : ℚ) / (supply w' : ℚ)) -
      ((∑ a ∈ C, lsOf w a : Nat) : ℚ) * ((reserve w : ℚ) / (supply w : ℚ)) := by
    unfold residue worth rate
    rw [hh, hsp, share_zero hc, show ∑ a ∈ C, lsOf w' a = ∑ a ∈ C, lsOf w a - x by omega]
    linarith
  unfold Explained roundingLoss roundingGain
  rw [e, hd]
  simp only [hcC, if_true]
  exact member_redeem hy hR hS (by omega) hl (reachable_ainv hr).pos

end

end LS
