import Verif.Props.Flash
import Verif.Props.Live
import Verif.Props.Callbacks
import Verif.Props.Parts

/-! C76: the deposit of a moment is open to everybody, in every state with a claim in flight. -/

namespace LS
open Spec Demo

/-- What the one who deposits `a` for `l` LS tokens and redeems them after a reward of `x` is short of: one unit in each division. -/
theorem snipe_least {S R a l x m : Nat} (hl : l = lsFor S R a) (hRS : R = 0 → S = 0) (h0 : 0 < l)
    (hm : m = egldFor (S + l) (R + a + x) l) : a * (S + l) + x * l < (m + 1) * (S + l) + R := by
  have h1 : l * (R + a + x) < (m + 1) * (S + l) := by
    rw [hm, egldFor, Nat.mul_comm (_ + 1)]
    exact Nat.lt_mul_div_succ _ (by omega)
  have h2 : a * S ≤ l * R + R := by
    rcases Nat.eq_zero_or_pos R with hR | hR
    · rw [hRS hR]; omega
    · have := Nat.lt_mul_div_succ (a * S) hR
      rw [hl, lsFor, if_neg (by omega)]
      have e : R * (a * S / R + 1) = a * S / R * R + R := by ring
      omega
  have e1 : l * (R + a + x) = l * R + a * l + x * l := by ring
  have e2 : a * (S + l) = a * S + a * l := by ring
  omega

/-- **C76**, how far it fails.  Wherever a claim is in flight, anybody with the EGLD can deposit before its answer and redeem after it in
the same epoch: nothing in the contract stops either, and the one who does gets back the deposit with its full share of the reward, up to
one unit of rounding in each of the two quotes.  It leaves with more than it brought as soon as its share of the reward is worth those two
units. -/
theorem C76_open {w : World} {i r a l : Nat} {c : Addr} {t : TokenId} {ps : List Addr} (hr : ReachableBy HonestManager w)
    (hact : w.st.state = .active) (ht : w.st.lsToken = some t) (hu : w.st.unstakeToken ≠ none)
    (hf : w.flights[i]? = some (.claim ps)) (h0 : 0 < r) (hfee : w.st.feeRate ≤ 10000) (hc : c ≠ w.self) (ha : a ≤ egldOf w c)
    (h1 : oneEgld ≤ a) (hl : l = lsFor (supply w) (reserve w) a) (hl0 : 0 < l) {x : Nat} (hx : x = r - r * w.st.feeRate / 10000)
    (h2 : oneEgld ≤ egldFor (supply w + l) (reserve w + a + x) l) :
    ∃ w1 w2 w3 k u n, step w (.delegate c a) = .ok w1 ∧ step w1 (.deliver i (.ok r r)) = .ok w2 ∧
      step w2 (.unDelegate c 0 [⟨t, 0, l⟩]) = .ok w3 ∧ w3.epoch = w.epoch ∧ lsOf w3 c = lsOf w c ∧
      egldOf w1 c + a = egldOf w c ∧ egldOf w2 c = egldOf w1 c ∧ PaidOut w2 w3 c k u n ∧
      k + u = egldFor (supply w + l) (reserve w + a + x) l ∧
      a * (supply w + l) + x * l < (k + u + 1) * (supply w + l) + reserve w ∧
      (supply w + l + reserve w ≤ x * l → a < k + u) := by
  have hR := reachableBy_reachable hr
  obtain ⟨w1, s1⟩ := C15_deposit_accepted hact (by rw [ht]; simp) hc ha h1 (by rw [← hl]; exact hl0)
  have hR1 : Reachable w1 := .step _ hR s1
  obtain ⟨d1, d2, d3, d4, _⟩ := C01_delegate_mints_pro_rata s1
  have p1 : ∀ y, y ∉ touched w (.delegate c a) → Same w w1 y := C64_only_its_parts hR s1
  have e1 : w1.st.state = w.st.state := p1 .switch (by simp [touched])
  have e2 : w1.st.lsToken = w.st.lsToken := (p1 .lsSlot (by simp [touched])).1
  have e3 : w1.st.unstakeToken = w.st.unstakeToken := (p1 .unstakeSlot (by simp [touched])).1
  have e4 : w1.st.feeRate = w.st.feeRate := p1 .feeRate (by simp [touched])
  have e5 : w1.epoch = w.epoch := p1 .clock (by simp [touched])
  have e6 : w1.flights = w.flights := p1 .calls (by simp [touched])
  have e7 : w1.self = w.self := (p1 .identity (by simp [touched])).1
  have hf1 : w1.flights[i]? = some (.claim ps) := by rw [e6]; exact hf
  obtain ⟨w2, s2, _, _, g1, _, _, g2, g3, _⟩ := C23_rewards_split hR1 (g := r) hf1 h0 (by rw [e4]; exact hfee)
  have p2 : ∀ y, y ∉ touched w1 (.deliver i (.ok r r)) → Same w1 w2 y := C64_only_its_parts hR1 s2
  have hx1 : r - r * w1.st.feeRate / 10000 = x := by rw [e4]; exact hx.symm
  have f1 : w2.st.state = .active := by rw [g1]; exact e1.trans hact
  have f2 : w2.st.lsToken = some t := by rw [g1]; exact e2.trans ht
  have f3 : w2.st.unstakeToken ≠ none := by rw [g1]; exact fun h => hu (e3.symm.trans h)
  have f4 : supply w2 = supply w + l := by rw [hl, ← d3, supply, supply, g1]
  have f5 : reserve w2 = reserve w + a + x := by rw [← d4, ← hx1]; unfold reserve; rw [g1]; rfl
  have f6 : lsOf w2 c = lsOf w c + l := by rw [hl, ← d2, lsOf, lsOf, g3]
  have f7 : w2.epoch = w1.epoch := p2 .clock (by simp [touched, hf1, callbackParts])
  have f8 : w2.self = w1.self := (p2 .identity (by simp [touched, hf1, callbackParts])).1
  have hr2 : ReachableBy HonestManager w2 := by
    obtain ⟨w0, hi, htr⟩ := hr
    exact ⟨w0, hi, .snoc _ (.snoc _ htr s1 trivial) s2 (fun _ _ => Nat.le_refl r)⟩
  have hc2 : c ≠ w2.self := by rw [f8, e7]; exact hc
  obtain ⟨w3, s3⟩ := C16_redemption_accepted hr2 f1 f2 f3 hc2 (l := l) (by omega) (by rw [f4, f5]; exact h2)
  have hR2 : Reachable w2 := .step _ hR1 s2
  have p3 : ∀ y, y ∉ touched w2 (.unDelegate c 0 [⟨t, 0, l⟩]) → Same w2 w3 y := C64_only_its_parts hR2 s3
  obtain ⟨t', l', k, u, n, _, hps, _, _, hku, hl3, hp, _⟩ := C02_unDelegate_pays_pro_rata s3
  simp only [List.cons.injEq, Payment.mk.injEq, and_true, true_and] at hps
  obtain ⟨rfl, rfl⟩ := hps
  rw [f4, f5] at hku
  have least := snipe_least hl (fun h => by
    rcases Nat.eq_zero_or_pos (supply w) with h' | h'
    · exact h'
    · have := (C06_reserve_positive hR).2 h'; omega) hl0 hku
  refine ⟨w1, w2, w3, k, u, n, s1, s2, s3, ?_, ?_, d1, ?_, hp, hku, least, ?_⟩
  · have : w3.epoch = w2.epoch := p3 .clock (by unfold touched positionParts; simp only; split_ifs <;> simp)
    rw [this, f7, e5]
  · omega
  · exact p2 (.egld c) (by simp [touched, hf1, callbackParts, e7, hc])
  · intro h
    have e : (k + u + 1) * (supply w + l) = (k + u) * (supply w + l) + (supply w + l) := by ring
    exact Nat.lt_of_mul_lt_mul_right (a := supply w + l) (by omega)

/-- As `waiting`, in one history. -/
def sniping : List Op := [
  .registerLsToken 1 0, .issued 0 (some 500), .registerUnstakeToken 1 0, .issued 0 (some 501), .owner 1 .stateActive,
  .setScoringConfig 1 ScoringConfig.default, .whitelist 1 (E 1) 21 41 (E 1000) (E 1500) 10 800, .deliver 0 (.ok 0 0),
  .whitelist 1 (E 1) 22 42 (E 1000) 0 20 900, .deliver 0 (.ok 0 0), .delegate 11 (E 100), .delegate 12 (E 50), .claimRewards 1,
  .fund 77 (E 2000)]

/-- Non-vacuity: a claim is in flight over a pool of 152 EGLD, 77 has 2000 EGLD, and 7 EGLD of rewards arrive. -/
example : ∃ w, ReachableBy HonestManager w ∧ w.st.state = .active ∧ w.st.lsToken = some 500 ∧ w.st.unstakeToken ≠ none ∧
    w.flights[0]? = some (.claim [21, 22]) ∧ w.st.feeRate ≤ 10000 ∧ 77 ≠ w.self ∧ E 1368 ≤ egldOf w 77 ∧
    0 < lsFor (supply w) (reserve w) (E 1368) ∧
    oneEgld ≤ egldFor (supply w + lsFor (supply w) (reserve w) (E 1368)) (reserve w + E 1368 + (E 7 - E 7 * w.st.feeRate / 10000))
      (lsFor (supply w) (reserve w) (E 1368)) ∧
    supply w + lsFor (supply w) (reserve w) (E 1368) + reserve w ≤
      (E 7 - E 7 * w.st.feeRate / 10000) * lsFor (supply w) (reserve w) (E 1368) :=
  ⟨run fresh sniping, reachableBy_honest (by decide +kernel), by decide +kernel, by decide +kernel, by decide +kernel, by decide +kernel,
    by decide +kernel, by decide +kernel, by decide +kernel, by decide +kernel, by decide +kernel, by decide +kernel⟩

end LS
