import Mathlib.Tactic.FieldSimp
import Mathlib.Tactic.Positivity
import Mathlib.Tactic.Linarith
import Verif.Spec.Rewards
import Verif.Props.Parts
import Verif.Props.Pool

/-! How the rate moves in one transaction. -/

namespace LS
open Spec

/-- The three ways supply and reserve move: a credit, a deposit, a redemption. -/
inductive Moved (w w' : World) (x : Nat) : Prop
  | credit (h1 : supply w' = supply w) (h2 : reserve w' = reserve w + x)
  | deposit (a : Nat) (hx : x = 0) (h1 : supply w' = supply w + lsFor (supply w) (reserve w) a) (h2 : reserve w' = reserve w + a)
  | redeem (l e : Nat) (hx : x = 0) (he : e = egldFor (supply w) (reserve w) l) (h1 : supply w' + l = supply w) (h2 : reserve w' + e = reserve w)

theorem moved_same {w w' : World} (op : Op) (hr : Reachable w) (hs : step w op = .ok w') (h1 : Part.supply ∉ touched w op)
    (h2 : Part.reserve ∉ touched w op) : Moved w w' 0 :=
  .credit (parts_step hr hs _ h1) (parts_step hr hs _ h2)

theorem claim_moves {w w' : World} {i : Nat} {o : Outcome} {ps : List Addr} (hr : Reachable w) (hs : step w (.deliver i o) = .ok w')
    (hf : w.flights[i]? = some (.claim ps)) : supply w' = supply w ∧ reserve w' = reserve w + creditedBy w (.deliver i o) := by
  cases o with
  | err =>
    exact ⟨parts_step hr hs .supply (by simp [touched, hf, callbackParts]), parts_step hr hs .reserve (by simp [touched, hf, callbackParts])⟩
  | ok g r =>
    obtain ⟨f, hf', hcb⟩ := deliver_ok hs
    obtain rfl : f = .claim ps := by rw [hf] at hf'; exact (Option.some.inj hf').symm
    simp only [creditedBy, hf]
    rcases hcb with hcb | ⟨⟨e, hcb⟩, rfl⟩
    · rcases claimRewardsCb_ok.1 hcb with ⟨rfl, rfl⟩ | ⟨h0, t, fee, ht, rfl, hle, rfl⟩
      · exact ⟨rfl, by simp [reserve, arrive]⟩
      · exact ⟨rfl, rfl⟩
    · refine ⟨rfl, ?_⟩
      have hlt : ¬ r * w.st.feeRate / 10000 ≤ r := fun hle => by
        have ht : ∃ t, w.st.lsToken = some t := by
          refine Option.ne_none_iff_exists'.1 fun hn => ?_
          obtain ⟨p, v, u, h⟩ := reachable_noFlights hr hn _ (List.mem_of_getElem? hf)
          cases h
        obtain ⟨t, ht⟩ := ht
        rcases Nat.eq_zero_or_pos r with h0 | h0
        · have := claimRewardsCb_ok (w := arrive w i (.claim ps) (.ok g r)) (total := r).2 (.inl ⟨h0, rfl⟩)
          rw [show runCallback (arrive w i (.claim ps) (.ok g r)) (.claim ps) (.ok g r) =
            claimRewardsCb (arrive w i (.claim ps) (.ok g r)) (some r) from rfl, this] at hcb
          cases hcb
        · have := claimRewardsCb_ok (w := arrive w i (.claim ps) (.ok g r)) (total := r).2 (.inr ⟨h0, t, _, ht, rfl, hle, rfl⟩)
          rw [show runCallback (arrive w i (.claim ps) (.ok g r)) (.claim ps) (.ok g r) =
            claimRewardsCb (arrive w i (.claim ps) (.ok g r)) (some r) from rfl, this] at hcb
          cases hcb
      show w.st.r.reserve = w.st.r.reserve + _
      omega

theorem moved_deliver {w w' : World} {i : Nat} {o : Outcome} (hr : Reachable w) (hs : step w (.deliver i o) = .ok w') :
    Moved w w' (creditedBy w (.deliver i o)) := by
  have key : ∀ f, w.flights[i]? = some f → (Part.supply ∉ callbackParts w f o) → (Part.reserve ∉ callbackParts w f o) → Moved w w' 0 := by
    intro f hf h1 h2
    refine moved_same (.deliver i o) hr hs ?_ ?_ <;> simp only [touched, hf] <;> assumption
  obtain ⟨f, hf, hcb⟩ := deliver_ok hs
  cases o with
  | err =>
    have h := key f hf (by cases f <;> simp [callbackParts]; split <;> simp) (by cases f <;> simp [callbackParts]; split <;> simp)
    exact h
  | ok g r =>
    cases f with
    | claim ps =>
      obtain ⟨h1, h2⟩ := claim_moves hr hs hf
      exact .credit h1 h2
    | whitelist p x u =>
      have e0 : creditedBy w (.deliver i (.ok g r)) = 0 := by simp [creditedBy, hf]
      rw [e0]
      rcases hcb with hcb | ⟨_, rfl⟩
      · obtain ⟨t, d, l, _, _, hq, rfl⟩ := whitelistCb_true_ok.1 hcb
        have hL : l = lsFor (supply w) (reserve w) x := (lsQuote_iff.1 hq).2
        exact .deposit x rfl (by rw [← hL]; rfl) rfl
      · exact .credit rfl rfl
    | _ =>
      have e0 : creditedBy w (.deliver i (.ok g r)) = 0 := by simp [creditedBy, hf]
      rw [e0]
      exact key _ hf (by simp [callbackParts]) (by simp [callbackParts])

theorem moved_step {w w' : World} (op : Op) (hr : Reachable w) (hs : step w op = .ok w') : Moved w w' (creditedBy w op) := by
  cases op with
  | delegate c a =>
    obtain ⟨_, _, h1, h2, _⟩ := C01_delegate_mints_pro_rata hs
    exact .deposit a rfl h1 h2
  | unDelegate c v ps =>
    obtain ⟨t, l, i, u, n, _, _, _, _, he, _, _, h1, h2, _⟩ := C02_unDelegate_pays_pro_rata hs
    exact .redeem l (i + u) rfl he h1 h2
  | migrate c v o =>
    obtain ⟨_, _, _, h1, h2, _⟩ := C39_migrate hr hs
    exact .deposit v rfl h1 h2
  | addRewards c v =>
    obtain ⟨hc, t, m, _, hm, rfl⟩ := addRewards_ok.1 hs
    exact .credit rfl rfl
  | deliver i o => exact moved_deliver hr hs
  | owner c cmd => exact moved_same _ hr hs (by cases cmd <;> simp [touched, settingOf]) (by cases cmd <;> simp [touched, settingOf])
  | issued i o =>
    refine moved_same _ hr hs ?_ ?_ <;> simp only [touched] <;> split <;> simp <;> split <;> simp
  | _ => exact moved_same _ hr hs (by simp [touched]) (by simp [touched])


theorem rate_bounds {R S R' S' x : Nat} (hR : 0 < R) (hS : 0 < S) (hS' : 0 < S')
    (h : (S' = S ∧ R' = R + x) ∨ (x = 0 ∧ ∃ a, S' = S + a * S / R ∧ R' = R + a) ∨
      (x = 0 ∧ ∃ l, S' + l = S ∧ R' + l * R / S = R)) :
    (R : ℚ) / S + (x : ℚ) / S ≤ (R' : ℚ) / S' ∧ (R' : ℚ) / S' ≤ (R : ℚ) / S + (x : ℚ) / S + max ((R : ℚ) / S) 1 / S' := by
  have qR : (0 : ℚ) < R := by exact_mod_cast hR
  have qS : (0 : ℚ) < S := by exact_mod_cast hS
  have qS' : (0 : ℚ) < S' := by exact_mod_cast hS'
  have hm1 : (R : ℚ) / S / S' ≤ max ((R : ℚ) / S) 1 / S' := div_le_div_of_nonneg_right (le_max_left _ _) qS'.le
  have hm2 : (1 : ℚ) / S' ≤ max ((R : ℚ) / S) 1 / S' := div_le_div_of_nonneg_right (le_max_right _ _) qS'.le
  have hm0 : (0 : ℚ) < 1 / S' := by positivity
  rcases h with ⟨rfl, rfl⟩ | ⟨rfl, a, e1, e2⟩ | ⟨rfl, l, e1, e2⟩
  · have : ((R + x : Nat) : ℚ) / S' = (R : ℚ) / S' + (x : ℚ) / S' := by push_cast; rw [add_div]
    rw [this]
    exact ⟨le_refl _, by linarith⟩
  · generalize hk : a * S / R = k at *
    have k1 : k * R ≤ a * S := by rw [← hk]; exact Nat.div_mul_le_self _ _
    have k2 : a * S < k * R + R := by rw [← hk]; have := Nat.lt_div_mul_add (a := a * S) hR; omega
    have q1 : (k : ℚ) * R ≤ a * S := by exact_mod_cast k1
    have q2 : (a : ℚ) * S ≤ k * R + R := by exact_mod_cast k2.le
    have qe1 : (S' : ℚ) = S + k := by rw [e1]; push_cast; ring
    have qe2 : (R' : ℚ) = R + a := by rw [e2]; push_cast; ring
    have d : (R' : ℚ) / S' = (R : ℚ) / S + (a * S - k * R) / (S * S') := by
      field_simp
      rw [qe1, qe2]; ring
    have d2 : (R : ℚ) / S / S' = R / (S * S') := by rw [div_div]
    have p1 : 0 ≤ ((a : ℚ) * S - k * R) / (S * S') := div_nonneg (by linarith) (by positivity)
    have p2 : ((a : ℚ) * S - k * R) / (S * S') ≤ R / (S * S') := div_le_div_of_nonneg_right (by linarith) (by positivity)
    rw [d]
    simp only [Nat.cast_zero, zero_div, add_zero]
    exact ⟨by linarith, by linarith⟩
  · generalize hk : l * R / S = k at *
    have k1 : k * S ≤ l * R := by rw [← hk]; exact Nat.div_mul_le_self _ _
    have k2 : l * R < k * S + S := by rw [← hk]; have := Nat.lt_div_mul_add (a := l * R) hS; omega
    have q1 : (k : ℚ) * S ≤ l * R := by exact_mod_cast k1
    have q2 : (l : ℚ) * R ≤ k * S + S := by exact_mod_cast k2.le
    have qe1 : (S : ℚ) = S' + l := by rw [← e1]; push_cast; ring
    have qe2 : (R : ℚ) = R' + k := by rw [← e2]; push_cast; ring
    have d : (R' : ℚ) / S' = (R : ℚ) / S + (l * R - k * S) / (S * S') := by
      have a1 : (S' : ℚ) = S - l := by linarith
      have a2 : (R' : ℚ) = R - k := by linarith
      field_simp
      rw [a1, a2]; ring
    have d2 : (1 : ℚ) / S' = S / (S * S') := by field_simp
    have p1 : 0 ≤ ((l : ℚ) * R - k * S) / (S * S') := div_nonneg (by linarith) (by positivity)
    have p2 : ((l : ℚ) * R - k * S) / (S * S') ≤ S / (S * S') := div_le_div_of_nonneg_right (by linarith) (by positivity)
    rw [d]
    simp only [Nat.cast_zero, zero_div, add_zero]
    exact ⟨by linarith, by linarith⟩

theorem rate_step {w w' : World} (op : Op) (hr : Reachable w) (hs : step w op = .ok w') (hS : 0 < supply w) (hS' : 0 < supply w') :
    rate w + (creditedBy w op : ℚ) / (supply w : ℚ) ≤ rate w' ∧
    rate w' ≤ rate w + (creditedBy w op : ℚ) / (supply w : ℚ) + max (rate w) 1 / (supply w' : ℚ) := by
  have hR : 0 < reserve w := (reachable_ainv hr).pos hS
  refine rate_bounds hR hS hS' ?_
  cases moved_step op hr hs with
  | credit h1 h2 => exact .inl ⟨h1, h2⟩
  | deposit a hx h1 h2 =>
    rw [lsFor, if_neg (by omega)] at h1
    exact .inr (.inl ⟨hx, a, h1, h2⟩)
  | redeem l e hx he h1 h2 =>
    subst he
    exact .inr (.inr ⟨hx, l, h1, h2⟩)

/-- Rounding down twice: the gain of a holder is within one unit of its share. -/
theorem gain_near (l R S x : Nat) (hS : 0 < S) :
    (l * x : ℚ) / S - 1 < (((l * (R + x) / S : Nat) : ℚ) - ((l * R / S : Nat) : ℚ)) ∧
    (((l * (R + x) / S : Nat) : ℚ) - ((l * R / S : Nat) : ℚ)) < (l * x : ℚ) / S + 1 := by
  have qS : (0 : ℚ) < S := by exact_mod_cast hS
  have f : ∀ n : Nat, ((n / S : Nat) : ℚ) ≤ (n : ℚ) / S ∧ (n : ℚ) / S < ((n / S : Nat) : ℚ) + 1 := by
    intro n
    have h1 : n / S * S ≤ n := Nat.div_mul_le_self _ _
    have h2 : n < (n / S + 1) * S := by have := Nat.lt_div_mul_add (a := n) hS; rw [Nat.add_mul]; omega
    exact ⟨by rw [le_div_iff₀ qS]; exact_mod_cast h1, by rw [div_lt_iff₀ qS]; exact_mod_cast h2⟩
  obtain ⟨a1, a2⟩ := f (l * (R + x))
  obtain ⟨b1, b2⟩ := f (l * R)
  have e : ((l * (R + x) : Nat) : ℚ) / S = ((l * R : Nat) : ℚ) / S + (l * x : ℚ) / S := by push_cast; ring
  constructor <;> linarith

end LS
