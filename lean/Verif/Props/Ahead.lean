import Verif.Props.Rewards
import Verif.Props.Config

/-! What others do just before a deposit or a redemption: C94. -/

namespace LS
open Spec Demo

/-- A history of `n` transactions that credit no rewards, with at least `s` units of LS token in existence after each. -/
inductive Spec.Unrewarded (w : World) (s : Nat) : Nat → World → Prop
  | nil : Unrewarded w s 0 w
  | snoc {w1 w2 : World} {n : Nat} (op : Op) : Unrewarded w s n w1 → step w1 op = .ok w2 → creditedBy w1 op = 0 → s ≤ supply w2 →
      Unrewarded w s (n + 1) w2

private theorem rate_pos {w : World} (hr : Reachable w) (h : 0 < supply w) : 0 < rate w ∧ 1 ≤ rate w := by
  have h1 := (C48_at_least_one hr).1
  have q : (0 : ℚ) < supply w := by exact_mod_cast h
  have : 1 ≤ rate w := by
    unfold rate
    rw [le_div_iff₀ q, one_mul]
    exact_mod_cast h1
  exact ⟨by linarith, this⟩

/-- **C94**, the rate: `n` transactions that credit no rewards leave it or raise it, and by no more than about `n` parts in `s`. -/
theorem C94_rate {w w' : World} {s n : Nat} (hr : Reachable w) (h0 : 0 < s) (hS : s ≤ supply w) (h : Unrewarded w s n w') :
    rate w ≤ rate w' ∧ rate w' * (1 - (n : ℚ) / (s : ℚ)) ≤ rate w := by
  have q0 : (0 : ℚ) < s := by exact_mod_cast h0
  have key : Reachable w' ∧ s ≤ supply w' ∧ rate w ≤ rate w' ∧ rate w' * (1 - (n : ℚ) / (s : ℚ)) ≤ rate w := by
    induction h with
    | nil => exact ⟨hr, hS, le_refl _, by simp⟩
    | @snoc w1 w2 n op _ hs hc hs2 ih =>
      obtain ⟨hr1, hS1, i1, i2⟩ := ih
      have p1 : 0 < supply w1 := by omega
      have p2 : 0 < supply w2 := by omega
      obtain ⟨j1, j2⟩ := C72_only_rewards hr1 hs p1 p2
      obtain ⟨r1, r1'⟩ := rate_pos hr1 p1
      have hr2 : Reachable w2 := .step op hr1 hs
      obtain ⟨r2, _⟩ := rate_pos hr2 p2
      rw [hc, max_eq_left r1'] at j2
      rw [hc] at j1
      simp only [Nat.cast_zero, zero_div, add_zero] at j1 j2
      refine ⟨hr2, hs2, i1.trans j1, ?_⟩
      have e1 : rate w1 / (supply w2 : ℚ) ≤ rate w1 / (s : ℚ) := by
        apply div_le_div_of_nonneg_left (le_of_lt r1) q0
        exact_mod_cast hs2
      have e2 : rate w2 ≤ rate w1 * (1 + 1 / (s : ℚ)) := by
        have : rate w1 * (1 + 1 / (s : ℚ)) = rate w1 + rate w1 / (s : ℚ) := by ring
        rw [this]; linarith
      have hx : (0 : ℚ) < 1 / (s : ℚ) := by positivity
      have hn : ((n + 1 : Nat) : ℚ) / (s : ℚ) = (n : ℚ) / (s : ℚ) + 1 / (s : ℚ) := by push_cast; ring
      have hy : (0 : ℚ) ≤ (n : ℚ) / (s : ℚ) := by positivity
      rw [hn]
      generalize (n : ℚ) / (s : ℚ) = y at i2 hy ⊢
      generalize 1 / (s : ℚ) = x at e2 hx ⊢
      by_cases hy1 : y + x ≤ 1
      · have a1 : rate w2 * (1 - (y + x)) ≤ rate w1 * (1 + x) * (1 - (y + x)) :=
          mul_le_mul_of_nonneg_right e2 (by linarith)
        have a2 : rate w1 * (1 + x) * (1 - (y + x)) ≤ rate w1 * (1 - y) := by
          have : rate w1 * (1 - y) - rate w1 * (1 + x) * (1 - (y + x)) = rate w1 * (x * (y + x)) := by ring
          have : 0 ≤ rate w1 * (x * (y + x)) := by positivity
          linarith
        linarith
      · have : rate w2 * (1 - (y + x)) ≤ 0 := mul_nonpos_of_nonneg_of_nonpos (le_of_lt r2) (by linarith)
        have := (rate_pos hr (by omega : 0 < supply w)).1
        linarith
  exact key.2.2

private theorem unrewarded_end {w w' : World} {s n : Nat} (hr : Reachable w) (hS : s ≤ supply w) (h : Unrewarded w s n w') :
    Reachable w' ∧ s ≤ supply w' := by
  induction h with
  | nil => exact ⟨hr, hS⟩
  | snoc op _ hs _ h2 ih => exact ⟨.step op ih.1 hs, h2⟩

private theorem value_floor (w : World) (l : Nat) (h : 0 < supply w) :
    (egldFor (supply w) (reserve w) l : ℚ) ≤ l * rate w ∧ (l : ℚ) * rate w < egldFor (supply w) (reserve w) l + 1 := by
  have q : (0 : ℚ) < supply w := by exact_mod_cast h
  have e : (l : ℚ) * rate w = ((l * reserve w : Nat) : ℚ) / (supply w : ℚ) := by unfold rate; push_cast; ring
  rw [e]
  unfold egldFor
  constructor
  · rw [le_div_iff₀ q]
    exact_mod_cast Nat.div_mul_le_self (l * reserve w) (supply w)
  · rw [div_lt_iff₀ q]
    have := Nat.lt_div_mul_add (a := l * reserve w) h
    have h2 : l * reserve w < (l * reserve w / supply w + 1) * supply w := by rw [Nat.add_mul, Nat.one_mul]; exact this
    exact_mod_cast h2

private theorem two_units {s n x y : Nat} (h0 : 0 < s) (h : x * s ≤ (y + 1) * s + n * x) (hn : n * x ≤ s) : x ≤ y + 2 := by
  have : x * s ≤ (y + 2) * s := by
    have : (y + 2) * s = (y + 1) * s + s := by ring
    omega
  exact Nat.le_of_mul_le_mul_right this h0

/-- **C94**, redemptions: what `l` LS tokens bring after `n` transactions of others without rewards is not less than before, and more by
rounding only: by at most two units (10⁻¹⁸ EGLD) as long as `n` times the amount does not exceed the LS tokens in existence. -/
theorem C94_redemption {w w' : World} {s n : Nat} (hr : Reachable w) (h0 : 0 < s) (hS : s ≤ supply w) (h : Unrewarded w s n w') (l : Nat)
    {e e' : Nat} (he : e = egldFor (supply w) (reserve w) l) (he' : e' = egldFor (supply w') (reserve w') l) :
    e ≤ e' ∧ e' * s ≤ (e + 1) * s + n * e' ∧ (n * e' ≤ s → e' ≤ e + 2) := by
  obtain ⟨hr', hS'⟩ := unrewarded_end hr hS h
  obtain ⟨h1, h2⟩ := C94_rate hr h0 hS h
  have p : 0 < supply w := by omega
  have p' : 0 < supply w' := by omega
  obtain ⟨a1, a2⟩ := value_floor w l p
  obtain ⟨b1, b2⟩ := value_floor w' l p'
  rw [← he] at a1 a2
  rw [← he'] at b1 b2
  have ql : (0 : ℚ) ≤ l := by positivity
  have q0 : (0 : ℚ) < s := by exact_mod_cast h0
  constructor
  · have : (e : ℚ) < e' + 1 := by nlinarith
    have : e < e' + 1 := by exact_mod_cast this
    omega
  · suffices hk : e' * s ≤ (e + 1) * s + n * e' from ⟨hk, two_units h0 hk⟩
    have hy : (0 : ℚ) ≤ (n : ℚ) / (s : ℚ) := by positivity
    have qe : (0 : ℚ) ≤ e' := by positivity
    have k : (e' : ℚ) * (1 - (n : ℚ) / s) ≤ e + 1 := by
      by_cases hn : (n : ℚ) / s ≤ 1
      · have c1 : (e' : ℚ) * (1 - (n : ℚ) / s) ≤ l * rate w' * (1 - (n : ℚ) / s) := mul_le_mul_of_nonneg_right b1 (by linarith)
        have c2 : (l : ℚ) * (rate w' * (1 - (n : ℚ) / s)) ≤ l * rate w := mul_le_mul_of_nonneg_left h2 ql
        have c3 : (l : ℚ) * rate w' * (1 - (n : ℚ) / s) = l * (rate w' * (1 - (n : ℚ) / s)) := by ring
        linarith
      · have : (e' : ℚ) * (1 - (n : ℚ) / s) ≤ 0 := mul_nonpos_of_nonneg_of_nonpos qe (by linarith)
        have : (0 : ℚ) ≤ e := by positivity
        linarith
    have k2 : (e' : ℚ) * s ≤ (e + 1) * s + n * e' := by
      have c := mul_le_mul_of_nonneg_right k (le_of_lt q0)
      have : (e' : ℚ) * (1 - (n : ℚ) / s) * s = e' * s - n * e' := by field_simp
      rw [this] at c
      linarith
    exact_mod_cast k2

private theorem mint_floor (w : World) (a : Nat) (h : 0 < supply w) (hR : 0 < reserve w) :
    (lsFor (supply w) (reserve w) a : ℚ) * rate w ≤ a ∧ (a : ℚ) < (lsFor (supply w) (reserve w) a + 1) * rate w := by
  have q : (0 : ℚ) < supply w := by exact_mod_cast h
  unfold rate lsFor
  rw [if_neg (Nat.pos_iff_ne_zero.1 hR)]
  constructor
  · rw [mul_div_assoc', div_le_iff₀ q]
    exact_mod_cast Nat.div_mul_le_self (a * supply w) (reserve w)
  · rw [mul_div_assoc', lt_div_iff₀ q]
    have := Nat.lt_div_mul_add (a := a * supply w) hR
    have h2 : a * supply w < (a * supply w / reserve w + 1) * reserve w := by rw [Nat.add_mul, Nat.one_mul]; exact this
    exact_mod_cast h2

/-- **C94**, deposits: a deposit made after `n` transactions of others without rewards brings no more LS tokens than before them, and
fewer by rounding only: by at most two units as long as `n` times the amount does not exceed the LS tokens in existence. -/
theorem C94_deposit {w w' v v' : World} {s n : Nat} (hr : Reachable w) (h0 : 0 < s) (hS : s ≤ supply w) (h : Unrewarded w s n w')
    {c c' : Addr} {a g g' : Nat} (hd : step w (.delegate c a) = .ok v) (hd' : step w' (.delegate c' a) = .ok v')
    (hg : lsOf v c = lsOf w c + g) (hg' : lsOf v' c' = lsOf w' c' + g') : 
    g' ≤ g ∧ g * s ≤ (g' + 1) * s + n * g ∧ (n * g ≤ s → g ≤ g' + 2) := by
  obtain ⟨hr', hS'⟩ := unrewarded_end hr hS h
  obtain ⟨h1, h2⟩ := C94_rate hr h0 hS h
  have p : 0 < supply w := by omega
  have p' : 0 < supply w' := by omega
  have he : g = lsFor (supply w) (reserve w) a := by have := (C01_delegate_mints_pro_rata hd).2.1; omega
  have he' : g' = lsFor (supply w') (reserve w') a := by have := (C01_delegate_mints_pro_rata hd').2.1; omega
  obtain ⟨a1, a2⟩ := mint_floor w a p ((C06_reserve_positive hr).2 p)
  obtain ⟨b1, b2⟩ := mint_floor w' a p' ((C06_reserve_positive hr').2 p')
  rw [← he] at a1 a2
  rw [← he'] at b1 b2
  obtain ⟨r1, _⟩ := rate_pos hr p
  obtain ⟨r2, _⟩ := rate_pos hr' p'
  have q0 : (0 : ℚ) < s := by exact_mod_cast h0
  have qg : (0 : ℚ) ≤ g := by positivity
  have qg' : (0 : ℚ) ≤ g' := by positivity
  constructor
  · have c1 : (g' : ℚ) * rate w ≤ g' * rate w' := mul_le_mul_of_nonneg_left h1 qg'
    have c2 : (g' : ℚ) * rate w < (g + 1) * rate w := by linarith
    have c3 : (g' : ℚ) < g + 1 := lt_of_mul_lt_mul_right c2 (le_of_lt r1)
    have : g' < g + 1 := by exact_mod_cast c3
    omega
  · suffices hk : g * s ≤ (g' + 1) * s + n * g from ⟨hk, two_units h0 hk⟩
    have k : (g : ℚ) * (1 - (n : ℚ) / s) ≤ g' + 1 := by
      have c1 : (g : ℚ) * (rate w' * (1 - (n : ℚ) / s)) ≤ g * rate w := mul_le_mul_of_nonneg_left h2 qg
      have c2 : (g * (1 - (n : ℚ) / s)) * rate w' ≤ (g' + 1) * rate w' := by
        have : (g * (1 - (n : ℚ) / s)) * rate w' = g * (rate w' * (1 - (n : ℚ) / s)) := by ring
        rw [this]; linarith
      exact le_of_mul_le_mul_right c2 r2
    have k2 : (g : ℚ) * s ≤ (g' + 1) * s + n * g := by
      have c := mul_le_mul_of_nonneg_right k (le_of_lt q0)
      have : (g : ℚ) * (1 - (n : ℚ) / s) * s = g * s - n * g := by field_simp
      rw [this] at c
      linarith
    exact_mod_cast k2

/-- 152 LS tokens in existence at a rate of 159/152. -/
def Spec.rewarded : World := run deposited [.addRewards 13 (E 7)]

private theorem rewarded_reachable : Reachable rewarded := reachable_run deposited_reachable _

/-- A deposit and a redemption of others come first. -/
def Spec.overtaken : World := run rewarded [.delegate 12 (E 3 + 1), .unDelegate 11 0 [⟨500, 0, E 2⟩]]

private theorem overtaken_unrewarded : Unrewarded rewarded (E 152) 2 overtaken := by
  have h1 : step rewarded (.delegate 12 (E 3 + 1)) = .ok (exec rewarded (.delegate 12 (E 3 + 1))) := step_exec (by decide +kernel)
  have h2 : step (exec rewarded (.delegate 12 (E 3 + 1))) (.unDelegate 11 0 [⟨500, 0, E 2⟩]) = .ok overtaken :=
    step_exec (by decide +kernel)
  exact .snoc _ (.snoc _ .nil h1 rfl (by decide +kernel)) h2 rfl (by decide +kernel)

/-- A deposit of 1.59 EGLD brings one unit less (of 1.52 LS tokens) after the other two transactions. -/
example : Reachable rewarded ∧ Unrewarded rewarded (E 152) 2 overtaken ∧ E 152 ≤ supply rewarded ∧
    works rewarded (.delegate 13 1590000000000000000) = true ∧ works overtaken (.delegate 13 1590000000000000000) = true ∧
    lsOf (exec rewarded (.delegate 13 1590000000000000000)) 13 = lsOf rewarded 13 + 1520000000000000000 ∧
    lsOf (exec overtaken (.delegate 13 1590000000000000000)) 13 = lsOf overtaken 13 + 1519999999999999999 ∧
    2 * 1520000000000000000 ≤ E 152 :=
  ⟨rewarded_reachable, overtaken_unrewarded, by decide +kernel, by decide +kernel, by decide +kernel, by decide +kernel,
    by decide +kernel, by decide +kernel⟩

/-- A redemption worth 1.59 EGLD. -/
example : egldFor (supply rewarded) (reserve rewarded) 1520000000000000000 = 1590000000000000000 ∧
    egldFor (supply overtaken) (reserve overtaken) 1520000000000000000 ≤ 1590000000000000002 :=
  ⟨by decide +kernel, ((C94_redemption rewarded_reachable (by decide +kernel) (by decide +kernel) overtaken_unrewarded 1520000000000000000
    rfl rfl).2.2 (by decide +kernel)).trans (by decide +kernel)⟩

/-- **C94**, without rewards it must be: with rewards of 152 EGLD ahead, the same deposit brings about half. -/
theorem C94_rewards_ahead : ∃ w w' : World, Reachable w ∧ step w (.addRewards 12 (E 152)) = .ok w' ∧ supply w = E 152 ∧
    works w (.delegate 13 1590000000000000000) = true ∧ works w' (.delegate 13 1590000000000000000) = true ∧
    lsOf (exec w (.delegate 13 1590000000000000000)) 13 = lsOf w 13 + 1520000000000000000 ∧
    lsOf (exec w' (.delegate 13 1590000000000000000)) 13 = lsOf w' 13 + 777106109324758842 :=
  ⟨rewarded, exec rewarded (.addRewards 12 (E 152)), rewarded_reachable, step_exec (by decide +kernel), by decide +kernel,
    by decide +kernel, by decide +kernel, by decide +kernel, by decide +kernel⟩

end LS
