import Mathlib.Tactic.LinearCombination
import Verif.Proofs.Coalition

/-! Who can gain or lose: C60–C63. -/

namespace LS
open Spec Demo

/-! ### C60 -/

/-- **C60.** A transaction takes nothing from an account that did not send it. -/
theorem C60_others_take_nothing {w w' : World} {op : Op} {a : Addr} (hr : Reachable w) (hs : step w op = .ok w') (ha : a ≠ w.self)
    (ho : senderOf op ≠ some a) :
    egldOf w a ≤ egldOf w' a ∧ lsOf w a ≤ lsOf w' a ∧ ∀ n, unstakeOf w n a ≤ unstakeOf w' n a := by
  obtain ⟨h1, h2⟩ := others_egld_ls op hr hs ha ho
  refine ⟨h1, h2, fun n => Nat.le_of_not_lt fun h => ?_⟩
  rcases C13_users_never_burned hr hs ha h with ⟨v, ps, rfl⟩ | ⟨d, v, rfl⟩ | ⟨v, rfl⟩ | ⟨v, rfl⟩ <;> exact ho rfl

/-- **C60**, over any history in which `a` sends nothing: `a` keeps its EGLD, its LS tokens, its unstake tokens with their maturities, and
what the LS tokens are worth never falls. -/
theorem C60_position_safe {w w' : World} {a : Addr} (hr : Reachable w) (ha : a ≠ w.self)
    (ht : Trace (fun _ op _ => senderOf op ≠ some a) w w') :
    egldOf w a ≤ egldOf w' a ∧ lsOf w a ≤ lsOf w' a ∧ (∀ n, unstakeOf w n a ≤ unstakeOf w' n a) ∧
    (∀ n e, maturityOf w n = some e → maturityOf w' n = some e) ∧
    egldFor (supply w) (reserve w) (lsOf w a) ≤ egldFor (supply w') (reserve w') (lsOf w a) := by
  have key : w'.self = w.self ∧ egldOf w a ≤ egldOf w' a ∧ lsOf w a ≤ lsOf w' a ∧ (∀ n, unstakeOf w n a ≤ unstakeOf w' n a) ∧
      (0 < lsOf w a → reserve w * supply w' ≤ reserve w' * supply w) := by
    induction ht with
    | nil => exact ⟨rfl, Nat.le_refl _, Nat.le_refl _, fun _ => Nat.le_refl _, fun _ => Nat.le_refl _⟩
    | @snoc w1 w2 op ht hs hp ih =>
      obtain ⟨i0, i1, i2, i3, i4⟩ := ih
      have hr1 : Reachable w1 := reachable_trace hr ht
      obtain ⟨h1, h2, h3⟩ := C60_others_take_nothing hr1 hs (by rw [i0]; exact ha) hp
      refine ⟨(frame_step op (reachable_regInv hr1) (reachable_issInv hr1) hs).self.trans i0, by omega, by omega,
        fun n => Nat.le_trans (i3 n) (h3 n), fun h0 => ?_⟩
      have hS : 0 < supply w1 := Nat.lt_of_lt_of_le (Nat.lt_of_lt_of_le h0 i2) (ls_le_supply hr1 a)
      exact rate_trans hS (i4 h0) ((acct_step op (reachable_regInv hr1) (reachable_issInv hr1) hs).rate (reachable_ainv hr1) hS)
  obtain ⟨_, h1, h2, h3, h4⟩ := key
  refine ⟨h1, h2, h3, fun n e hm => maturity_kept hr (trace_mono (fun _ _ _ _ => trivial) ht) hm, ?_⟩
  rcases Nat.eq_zero_or_pos (lsOf w a) with h0 | h0
  · rw [h0]; unfold egldFor; simp
  · have hr' := reachable_trace hr ht
    have hS : 0 < supply w := Nat.lt_of_lt_of_le h0 (ls_le_supply hr a)
    have hS' : 0 < supply w' := Nat.lt_of_lt_of_le (Nat.lt_of_lt_of_le h0 h2) (ls_le_supply hr' a)
    exact egldFor_mono _ hS hS' (h4 h0)

/-- A list of operations each of which is allowed in any state. -/
theorem trace_ops {P : World → Op → World → Prop} (q : Op → Bool) (hq : ∀ op, q op = true → ∀ v v', P v op v') (ops : List Op) (w : World)
    (h : ops.all q = true) : Trace P w (run w ops) := by
  refine trace_of_run (fun _ ops => ops.all q) (fun v op ops h => ?_) ops w h
  rw [List.all_cons, Bool.and_eq_true] at h
  exact ⟨h.2, fun v' _ => hq op h.1 v v'⟩

/-- Non-vacuity: user 12 holds LS tokens while user 11 deposits, gives and redeems, and a manager queues stake. -/
example : ∃ w w' : World, Reachable w ∧ (12 : Addr) ≠ w.self ∧ 0 < lsOf w 12 ∧
    Trace (fun _ op _ => senderOf op ≠ some 12) w w' ∧ reserve w < reserve w' := by
  refine ⟨run active [.delegate 12 (E 5)],
    run (run active [.delegate 12 (E 5)]) [.delegate 11 (E 2), .addRewards 11 (E 100), .unDelegate 11 0 [⟨500, 0, E 2⟩]],
    reachable_run active_reachable _, by decide +kernel, by decide +kernel,
    trace_ops (fun op => decide (senderOf op ≠ some 12)) (fun op h v v' => of_decide_eq_true h) _ _ (by decide +kernel), by decide +kernel⟩

/-! ### C61 -/

/-- The attack: one unit of LS token left, then a donation. -/
def inflated : World := run active [.delegate 11 (E 2), .unDelegate 11 0 [⟨500, 0, E 2 - 1⟩], .addRewards 11 (E 100)]

/-- **C61 is false of the code**: at an inflated rate a deposit of 200 EGLD redeemed at once returns 150. -/
theorem C61_false : ∃ (w w1 w2 : World) (c : Addr) (a l i u n : Nat) (t : TokenId), Reachable w ∧ step w (.delegate c a) = .ok w1 ∧
    lsOf w1 c = lsOf w c + l ∧ step w1 (.unDelegate c 0 [⟨t, 0, l⟩]) = .ok w2 ∧ PaidOut w1 w2 c i u n ∧
    a = 200 * oneEgld ∧ i + u ≤ 150 * oneEgld := by
  refine ⟨inflated, exec inflated (.delegate 12 (E 200)), exec (exec inflated (.delegate 12 (E 200))) (.unDelegate 12 0 [⟨500, 0, 1⟩]),
    12, E 200, 1, E 150, 0, 0, 500, reachable_run active_reachable _, step_exec (by decide +kernel), by decide +kernel,
    step_exec (by decide +kernel), ⟨by decide +kernel, by decide +kernel, ?_⟩, by decide +kernel, by decide +kernel⟩
  intro m _
  have h : (exec (exec inflated (.delegate 12 (E 200))) (.unDelegate 12 0 [⟨500, 0, 1⟩])).nft = (exec inflated (.delegate 12 (E 200))).nft := by
    decide +kernel
  unfold unstakeOf; rw [h]

/-- The attack, then deposit and redemption of user 12, then user 11 redeems their last unit. -/
def robbery : List Op := [.delegate 11 (E 2), .unDelegate 11 0 [⟨500, 0, E 2 - 1⟩], .addRewards 11 (E 100), .delegate 12 (E 200),
  .unDelegate 12 0 [⟨500, 0, 1⟩], .unDelegate 11 0 [⟨500, 0, 1⟩]]

/-- **C61**, who gains: in a history of calls of users 11 and 12 only, without any rewards, 11 ends with 50 EGLD more (one of them
an unstake token) and 12 with 50 EGLD less. -/
theorem C61_profit : ∃ w w' : World, Reachable w ∧
    Trace (fun _ op _ => senderOf op = some 11 ∨ senderOf op = some 12) w w' ∧ lsOf w 11 = 0 ∧ lsOf w 12 = 0 ∧ lsOf w' 11 = 0 ∧
    lsOf w' 12 = 0 ∧ unstakeOf w 1 11 = 0 ∧
    egldOf w' 11 + unstakeOf w' 1 11 = egldOf w 11 + 50 * oneEgld ∧
    egldOf w' 12 + 50 * oneEgld = egldOf w 12 ∧ ∀ n, unstakeOf w' n 12 = 0 := by
  refine ⟨active, run active robbery, active_reachable,
    trace_ops (fun op => decide (senderOf op = some 11 ∨ senderOf op = some 12)) (fun op h v v' => of_decide_eq_true h) _ _ (by decide +kernel),
    by decide +kernel, by decide +kernel, by decide +kernel, by decide +kernel, by decide +kernel, by decide +kernel, by decide +kernel,
    fun n => ?_⟩
  have h : (run active robbery).nft = [((1, 1000), 1), ((1, 11), oneEgld)] := by decide +kernel
  unfold unstakeOf; rw [h]
  simp [Map.get]

/-- **C61, what does hold.**  The full claim is refuted by `C61_false`.  True is: the first deposit is returned in full, and later ones
lose less than the value of one unit of LS token (rounded up): when one unit is worth no more than a thousandth of the
deposit, at least 99.9% comes back. -/
theorem C61_partial {w w1 w2 : World} {c : Addr} {a l : Nat} {t : TokenId} (hr : Reachable w)
    (h1 : step w (.delegate c a) = .ok w1) (hl : lsOf w1 c = lsOf w c + l)
    (h2 : step w1 (.unDelegate c 0 [⟨t, 0, l⟩]) = .ok w2) :
    ∃ i u n, PaidOut w1 w2 c i u n ∧ i + u ≤ a ∧ (supply w = 0 → i + u = a) ∧
      (0 < supply w → (a - (i + u)) * supply w < reserve w + supply w) ∧
      (reserve w * 1000 ≤ a * supply w → (a - (i + u)) * 1000 < a + 1000) := by
  rcases Nat.eq_zero_or_pos (supply w) with h0 | h0
  · obtain ⟨_, d1, d2, d3, _⟩ := C01_delegate_mints_pro_rata h1
    obtain ⟨t', l', i, u, n, _, hps, _, _, hiu, _, hp, _⟩ := C02_unDelegate_pays_pro_rata h2
    simp only [List.cons.injEq, Payment.mk.injEq, and_true, true_and] at hps
    obtain ⟨rfl, rfl⟩ := hps
    obtain ⟨_, _, _, m, t, p, e, l', _, _, _, _, _, hq, _⟩ := delegate_ok.1 h1
    obtain ⟨hl0, hl'⟩ := lsQuote_iff.1 hq
    have hR : reserve w = 0 := by
      rcases Nat.eq_zero_or_pos (reserve w) with h | h
      · exact h
      · exfalso
        have : l' = lsFor (supply w) (reserve w) a := hl'
        rw [lsFor, if_neg (by omega), h0, Nat.mul_zero, Nat.zero_div] at this
        omega
    have hla : lsFor (supply w) (reserve w) a = a := by rw [lsFor, if_pos hR]
    have ha : 0 < a := by
      have : l' = lsFor (supply w) (reserve w) a := hl'
      omega
    have hl2 : l = a := by omega
    have e : i + u = a := by
      rw [hiu, d2, d3, hla, h0, hR, hl2, egldFor, Nat.zero_add, Nat.mul_div_cancel _ ha]
    exact ⟨i, u, n, hp, by omega, fun _ => e, fun h => by omega, fun _ => by omega⟩
  · obtain ⟨i, u, n, hp, hle, hb⟩ := C04_round_trip hr h0 h1 hl h2
    refine ⟨i, u, n, hp, hle, fun h => by omega, fun _ => hb, fun hk => ?_⟩
    have h3 : (a - (i + u)) * 1000 * supply w < (a + 1000) * supply w := by
      rw [Nat.mul_right_comm, Nat.add_mul]
      generalize (a - (i + u)) * supply w = x at *
      generalize a * supply w = y at *
      omega
    exact Nat.lt_of_mul_lt_mul_right h3

/-- Non-vacuity: deposit and redemption of 10 EGLD where one LS token is worth a little more than one EGLD. -/
example : ∃ w w1 w2 : World, Reachable w ∧ step w (.delegate 11 (E 10)) = .ok w1 ∧
    step w1 (.unDelegate 11 0 [⟨500, 0, lsOf w1 11 - lsOf w 11⟩]) = .ok w2 ∧ reserve w * 1000 ≤ E 10 * supply w ∧ supply w < reserve w := by
  refine ⟨run active [.delegate 12 (E 5), .addRewards 12 (E 1)], _, _, reachable_run active_reachable _, step_exec (by decide +kernel),
    step_exec (by decide +kernel), by decide +kernel, by decide +kernel⟩

/-! ### C62 -/

theorem deposits_in_turn {c : Addr} {as : List Nat} {w w' : World} (h : InTurn (.delegate c) as w w') (hr : Reachable w) :
    ∃ m, lsOf w' c = lsOf w c + m ∧ supply w' = supply w + m ∧ reserve w' = reserve w + as.sum ∧ Reachable w' ∧
      (0 < supply w → m * reserve w ≤ as.sum * supply w) := by
  induction h with
  | nil => exact ⟨0, rfl, rfl, by simp, hr, fun _ => by simp⟩
  | @cons a as w w1 w2 hs _ ih =>
    obtain ⟨_, d1, d2, d3, _⟩ := C01_delegate_mints_pro_rata hs
    have hr1 := Reachable.step _ hr hs
    obtain ⟨m, i1, i2, i3, i4, i5⟩ := ih hr1
    refine ⟨lsFor (supply w) (reserve w) a + m, by omega, by omega, by rw [List.sum_cons]; omega, i4, fun h0 => ?_⟩
    have hR : 0 < reserve w := (reachable_ainv hr).pos h0
    have hS1 : 0 < supply w1 := by omega
    have e1 : lsFor (supply w) (reserve w) a * reserve w ≤ a * supply w := by
      rw [lsFor, if_neg (by omega)]; exact Nat.div_mul_le_self _ _
    have e2 := i5 hS1
    have hrate := (acct_step _ (reachable_regInv hr) (reachable_issInv hr) hs).rate (reachable_ainv hr) h0
    have hrate : reserve w * supply w1 ≤ reserve w1 * supply w := hrate
    have e3 : m * reserve w ≤ as.sum * supply w := by
      apply Nat.le_of_mul_le_mul_right _ hS1
      calc m * reserve w * supply w1 = m * (reserve w * supply w1) := Nat.mul_assoc _ _ _
        _ ≤ m * (reserve w1 * supply w) := Nat.mul_le_mul_left _ hrate
        _ = m * reserve w1 * supply w := (Nat.mul_assoc _ _ _).symm
        _ ≤ as.sum * supply w1 * supply w := Nat.mul_le_mul_right _ e2
        _ = as.sum * supply w * supply w1 := Nat.mul_right_comm _ _ _
    rw [List.sum_cons, Nat.add_mul, Nat.add_mul]
    omega

/-- **C62**, deposits: a deposit in parts never mints more LS tokens than the same deposit at once. -/
theorem C62_deposit_parts {w w' w1 : World} {c : Addr} {as : List Nat} (hr : Reachable w) (h : InTurn (.delegate c) as w w')
    (h1 : step w (.delegate c as.sum) = .ok w1) : lsOf w' c ≤ lsOf w1 c := by
  obtain ⟨_, d1, _⟩ := C01_delegate_mints_pro_rata h1
  obtain ⟨m, i1, i2, i3, i4, i5⟩ := deposits_in_turn h hr
  have hle : m ≤ lsFor (supply w) (reserve w) as.sum := by
    rcases Nat.eq_zero_or_pos (supply w) with h0 | h0
    · obtain ⟨_, _, _, _, t, p, e, l', _, _, _, _, _, hq, _⟩ := delegate_ok.1 h1
      obtain ⟨hl0, hl'⟩ := lsQuote_iff.1 hq
      have hl' : l' = lsFor (supply w) (reserve w) as.sum := hl'
      have hR : reserve w = 0 := by
        rcases Nat.eq_zero_or_pos (reserve w) with h | h
        · exact h
        · rw [lsFor, if_neg (by omega), h0, Nat.mul_zero, Nat.zero_div] at hl'
          omega
      rw [lsFor, if_pos hR]
      cases h with
      | nil => omega
      | @cons a as _ w2 _ hs hrest =>
        obtain ⟨_, f1, f2, f3, _⟩ := C01_delegate_mints_pro_rata hs
        have hla : lsFor (supply w) (reserve w) a = a := by rw [lsFor, if_pos hR]
        obtain ⟨m2, j1, j2, j3, j4, j5⟩ := deposits_in_turn hrest (.step _ hr hs)
        obtain ⟨_, _, _, _, _, _, _, l2, _, _, _, _, _, hq2, _⟩ := delegate_ok.1 hs
        obtain ⟨hl2, hl2'⟩ := lsQuote_iff.1 hq2
        have hl2' : l2 = lsFor (supply w) (reserve w) a := hl2'
        have ha : 0 < a := by omega
        have e1 : supply w2 = a := by omega
        have e2 : reserve w2 = a := by omega
        rw [e1, e2] at j5
        have := Nat.le_of_mul_le_mul_right (j5 ha) ha
        rw [List.sum_cons]; omega
    · have hR := (reachable_ainv hr).pos h0
      have hR : 0 < reserve w := hR
      rw [lsFor, if_neg (by omega)]
      exact (Nat.le_div_iff_mul_le hR).2 (i5 h0)
  omega

/-- Non-vacuity: at a rate of 101 EGLD for one unit of LS token and less, two deposits against one. -/
example : ∃ w w' w1 : World, Reachable w ∧ InTurn (.delegate 12) [E 150, E 150] w w' ∧ step w (.delegate 12 ([E 150, E 150].sum)) = .ok w1 ∧
    lsOf w' 12 = 2 ∧ lsOf w1 12 = 2 ∧ 0 < supply w := by
  refine ⟨inflated, exec (exec inflated (.delegate 12 (E 150))) (.delegate 12 (E 150)), exec inflated (.delegate 12 ([E 150, E 150].sum)),
    reachable_run active_reachable _, .cons (step_exec (by decide +kernel)) (.cons (step_exec (by decide +kernel)) .nil),
    step_exec (by decide +kernel), by decide +kernel, by decide +kernel, by decide +kernel⟩

theorem paidOut_unstakes {w w' : World} {c : Addr} {i u n U : Nat} (h : PaidOut w w' c i u n) (hU : IsSum (unstakesIn {c} w) U) :
    IsSum (unstakesIn {c} w') (U + u) := by
  refine (hU.add (isSum_single (n, c) u)).congr fun p => ?_
  obtain ⟨m, x⟩ := p
  unfold unstakesIn
  simp only [Finset.mem_singleton]
  by_cases hx : x = c
  · subst hx
    rw [if_pos rfl, if_pos rfl]
    by_cases hm : n = m
    · subst hm; rw [if_pos rfl]; exact h.2.1.symm
    · rw [if_neg (fun e : (n, x) = (m, x) => hm (Prod.mk.inj e).1), h.2.2 m (fun e => hm e.symm)]; rfl
  · rw [if_neg hx, if_neg hx, if_neg (fun e : (n, c) = (m, x) => hx (Prod.mk.inj e).2.symm)]

theorem redeem_parts_le {S1 R1 l m x1 x2 : Nat} (h1 : x1 * (S1 + l) ≤ l * (R1 + x1)) (h2 : x2 * S1 ≤ m * R1) (hm : m ≤ S1)
    (h0 : m = 0 → x2 = 0) : (x1 + x2) * (S1 + l) ≤ (l + m) * (R1 + x1) := by
  rcases Nat.eq_zero_or_pos S1 with hS | hS
  · have : m = 0 := by omega
    rw [h0 this, this]; exact h1
  · apply Nat.le_of_mul_le_mul_right _ hS
    have h3 : x1 * S1 ≤ l * R1 := by
      rw [Nat.mul_add, Nat.mul_add, Nat.mul_comm l x1] at h1; omega
    obtain ⟨d, rfl⟩ := Nat.exists_eq_add_of_le hm
    obtain ⟨e, he⟩ := Nat.exists_eq_add_of_le h3
    obtain ⟨f, hf⟩ := Nat.exists_eq_add_of_le h2
    have e1 : (l + m) * (R1 + x1) * (m + d) = (x1 + x2) * (m + d + l) * (m + d) + (e * d + f * (m + d + l)) := by
      zify at he hf ⊢
      linear_combination (d : ℤ) * he + ((m : ℤ) + d + l) * hf
    omega

theorem redemptions_in_turn {c : Addr} {t : TokenId} {ls : List Nat} {w w' : World}
    (h : InTurn (fun l => .unDelegate c 0 [⟨t, 0, l⟩]) ls w w') :
    ∀ {U : Nat}, IsSum (unstakesIn {c} w) U → ∃ x U', IsSum (unstakesIn {c} w') U' ∧ egldOf w' c + U' = egldOf w c + U + x ∧
      ls.sum ≤ supply w ∧ x * supply w ≤ ls.sum * reserve w ∧ (ls.sum = 0 → x = 0) := by
  induction h with
  | nil => exact fun {U} hU => ⟨0, U, hU, rfl, by simp, by simp, fun _ => rfl⟩
  | @cons l ls w w1 w2 hs _ ih =>
    intro U hU
    obtain ⟨t', l', i, u, n, _, hps, _, _, hiu, _, hp, hS, hR, _⟩ := C02_unDelegate_pays_pro_rata hs
    simp only [List.cons.injEq, Payment.mk.injEq, and_true, true_and] at hps
    obtain ⟨rfl, rfl⟩ := hps
    obtain ⟨x, U', j1, j2, j3, j4, j5⟩ := ih (paidOut_unstakes hp hU)
    have hx1 : (i + u) * supply w ≤ l * reserve w := by rw [hiu, egldFor]; exact Nat.div_mul_le_self _ _
    refine ⟨i + u + x, U', j1, by have := hp.1; omega, by rw [List.sum_cons]; omega, ?_, fun h => ?_⟩
    · rw [List.sum_cons, ← hS, ← hR]
      rw [← hS, ← hR] at hx1
      exact redeem_parts_le hx1 j4 j3 j5
    · rw [List.sum_cons] at h
      have hl : l = 0 := by omega
      rw [hiu, hl, egldFor, Nat.zero_mul, Nat.zero_div, j5 (by omega)]

/-- **C62**, redemptions: a redemption in parts never pays more (EGLD and unstake tokens together) than the same redemption at once. -/
theorem C62_redemption_parts {w w' w1 : World} {c : Addr} {t : TokenId} {ls : List Nat}
    (h : InTurn (fun l => .unDelegate c 0 [⟨t, 0, l⟩]) ls w w') (h1 : step w (.unDelegate c 0 [⟨t, 0, ls.sum⟩]) = .ok w1) {u' u1 : Nat}
    (hu' : IsSum (unstakesIn {c} w') u') (hu1 : IsSum (unstakesIn {c} w1) u1) : egldOf w' c + u' ≤ egldOf w1 c + u1 := by
  have hU := isSum_unstakesIn {c} w
  obtain ⟨x, U', j1, j2, j3, j4, j5⟩ := redemptions_in_turn h hU
  obtain ⟨t', l', i, u, n, _, hps, _, _, hiu, _, hp, hS, hR, _⟩ := C02_unDelegate_pays_pro_rata h1
  simp only [List.cons.injEq, Payment.mk.injEq, and_true, true_and] at hps
  obtain ⟨rfl, rfl⟩ := hps
  have e1 := hu1.unique (paidOut_unstakes hp hU)
  have e2 := hu'.unique j1
  have hx : x ≤ i + u := by
    rcases Nat.eq_zero_or_pos (supply w) with h0 | h0
    · rw [j5 (by omega)]; omega
    · rw [hiu, egldFor]; exact (Nat.le_div_iff_mul_le h0).2 j4
  have := hp.1
  omega

/-- Non-vacuity: redeeming 4 EGLD of LS tokens at once and in two parts. -/
example : ∃ w w' w1 : World, Reachable w ∧ InTurn (fun l => .unDelegate 11 0 [⟨500, 0, l⟩]) [E 1, E 2] w w' ∧
    step w (.unDelegate 11 0 [⟨500, 0, [E 1, E 2].sum⟩]) = .ok w1 := by
  refine ⟨run active [.delegate 11 (E 7)], _, _, reachable_run active_reachable _,
    .cons (step_exec (by decide +kernel)) (.cons (step_exec (by decide +kernel)) .nil), step_exec (by decide +kernel)⟩

/-! ### C63 -/

/-- **C63.** A group of accounts cannot gain by dealing with the contract among themselves, whatever managers and providers do meanwhile: as
long as no rewards arrive and nobody outside the group deposits, redeems or gives, what the group owns never grows. -/
theorem C63_no_profit {C : Finset Addr} {w w' : World} (hr : Reachable w) (hself : w.self ∉ C)
    (ht : Trace (fun v op _ => Closed C v op) w w') {u u' : Nat} (hu : IsSum (unstakesIn C w) u) (hu' : IsSum (unstakesIn C w') u') :
    worth C w' u' ≤ worth C w u := by
  suffices H : w'.self = w.self ∧ ∀ u', IsSum (unstakesIn C w') u' → worth C w' u' ≤ worth C w u from H.2 u' hu'
  clear hu'
  induction ht with
  | nil => exact ⟨rfl, fun v hv => by rw [hv.unique hu]⟩
  | @snoc w1 w2 op ht hs hp ih =>
    obtain ⟨i0, i1⟩ := ih
    have hr1 : Reachable w1 := reachable_trace hr ht
    refine ⟨(frame_step op (reachable_regInv hr1) (reachable_issInv hr1) hs).self.trans i0, fun v hv => ?_⟩
    have h1 := isSum_unstakesIn C w1
    refine le_trans ?_ (i1 _ h1)
    obtain ⟨s, hs1, hs2⟩ := C05_supply_is_total hr1
    exact deal_worth (deal_step op hr1 hs (by rw [i0]; exact hself) hp h1 hv) (Nat.le_trans (isSum_ge hs1 C) (by omega)) (reachable_ainv hr1).pos

/-- Non-vacuity: user 11 deposits, gives to everyone, redeems; most of the gift is lost. -/
example : ∃ w w' : World, Reachable w ∧ w.self ∉ ({11} : Finset Addr) ∧ Trace (fun v op _ => Closed {11} v op) w w' ∧
    lsOf w' 11 = 0 ∧ egldOf w' 11 + unstakeOf w' 1 11 < egldOf w 11 := by
  refine ⟨run active [.delegate 12 (E 5)],
    run (run active [.delegate 12 (E 5)]) [.delegate 11 (E 2), .addRewards 11 (E 100), .unDelegate 11 0 [⟨500, 0, E 2⟩]],
    reachable_run active_reachable _, by decide +kernel, trace_ops (fun op => decide (senderOf op = some 11) && (match op with
      | .delegate .. | .addRewards .. | .unDelegate .. => true
      | _ => false)) (fun op h v v' => ?_) _ _ (by decide +kernel), by decide +kernel, by decide +kernel⟩
  rw [Bool.and_eq_true, decide_eq_true_eq] at h
  obtain ⟨h1, h2⟩ := h
  cases op <;> simp_all [senderOf, Closed]

/-- The sums exist. -/
theorem C63_sums (C : Finset Addr) (w : World) : ∃ u, IsSum (unstakesIn C w) u := ⟨_, isSum_unstakesIn C w⟩

end LS
