import Verif.Proofs.Invariants
import Verif.Demo
import Mathlib.Tactic.Ring

/-! Deposits, redemptions, quotes and migration: C01, C02, C04, C14, C28, C39. -/

namespace LS
open Spec Demo

theorem minEgld_eq : MIN_EGLD = oneEgld := rfl

theorem lsQuote_iff {r : Reserves} {a l : Nat} : LsQuote r a l ↔ 0 < l ∧ l = lsFor r.lsSupply r.reserve a := by
  unfold LsQuote lsFor
  by_cases h : r.reserve = 0
  · simp [h]
  · simp [h, Nat.pos_of_ne_zero h]

theorem split_exists (queue payment : Nat) : ∃ i u, getActionAmount queue payment = .ok (i, u) ∧ IsSplit queue payment i u := by
  have key : ∀ mn, 0 < mn → ∀ r : Nat × Nat, r = (
      if queue = payment ∨ (payment ≤ queue ∧ mn ≤ queue - payment) then (payment, 0)
      else if queue < payment ∧ mn ≤ payment - queue then (queue, payment - queue)
      else if mn < queue ∧ mn < payment then
        (min (payment - mn) (queue - mn), payment - min (payment - mn) (queue - mn))
      else (0, payment)) →
      r.1 + r.2 = payment ∧ r.1 ≤ queue ∧ (0 < r.1 → (queue - r.1 = 0 ∨ mn ≤ queue - r.1) ∧ (r.2 = 0 ∨ mn ≤ r.2)) ∧
      ∀ j, j ≤ queue → j ≤ payment → (queue - j = 0 ∨ mn ≤ queue - j) → (payment - j = 0 ∨ mn ≤ payment - j) → j ≤ r.1 := by
    intro mn hmn r hr
    split at hr
    · subst hr; dsimp only; exact ⟨by omega, by omega, by omega, by omega⟩
    · split at hr
      · subst hr; dsimp only; exact ⟨by omega, by omega, by omega, by omega⟩
      · split at hr
        · subst hr; dsimp only; exact ⟨by omega, by omega, by omega, by omega⟩
        · subst hr; dsimp only; exact ⟨by omega, by omega, by omega, by omega⟩
  have hpos : 0 < oneEgld := MIN_EGLD_pos
  obtain ⟨h1, h2, h3, h4⟩ := key MIN_EGLD MIN_EGLD_pos _ rfl
  exact ⟨_, _, getActionAmount_eq queue payment, h1, h2, h3, h4⟩

theorem split_of {queue payment i u : Nat} (h : getActionAmount queue payment = .ok (i, u)) : IsSplit queue payment i u := by
  obtain ⟨i', u', h', hs⟩ := split_exists queue payment
  rw [h] at h'
  simp only [Except.ok.injEq, Prod.mk.injEq] at h'
  obtain ⟨rfl, rfl⟩ := h'
  exact hs

/-- **C01.** A successful `delegate` of `a` EGLD mints exactly the pro-rata amount to the caller and touches nobody else. -/
theorem C01_delegate_mints_pro_rata {w w' : World} {c : Addr} {a : Nat} (h : step w (.delegate c a) = .ok w') :
    egldOf w' c + a = egldOf w c ∧
    lsOf w' c = lsOf w c + lsFor (supply w) (reserve w) a ∧
    supply w' = supply w + lsFor (supply w) (reserve w) a ∧
    reserve w' = reserve w + a ∧
    egldOf w' w.self = egldOf w w.self + a ∧
    (∀ x, x ≠ c → x ≠ w.self → egldOf w' x = egldOf w x) ∧
    (∀ x, x ≠ c → lsOf w' x = lsOf w x) ∧
    (∀ n x, unstakeOf w' n x = unstakeOf w n x) := by
  obtain ⟨hc, hv, _, m, t, p, e, l, hm, _, hpe, _, _, hq, rfl⟩ := delegate_ok.1 h
  obtain ⟨_, hl⟩ := lsQuote_iff.1 hq
  have hle := debit_le hm
  have hs := getActionAmount_sum hpe
  have hL : l = lsFor (supply w) (reserve w) a := hl
  rw [← hL]
  refine ⟨?_, ?_, rfl, ?_, ?_, ?_, ?_, fun _ _ => rfl⟩
  · show (credit m w.self a).get 0 c + a = w.egld.get 0 c
    rw [get_credit, if_neg (Ne.symm hc), get_debit hm, if_pos rfl]; omega
  · show (mintTo w.ls w.self c l).get 0 c = _
    rw [get_mintTo, if_pos rfl]; rfl
  · show w.st.r.reserve + (p + e) = w.st.r.reserve + a
    rw [hs.1]
  · show (credit m w.self a).get 0 w.self = _
    rw [get_credit, if_pos rfl, get_debit hm, if_neg hc]; rfl
  · intro x h1 h2
    show (credit m w.self a).get 0 x = _
    rw [get_credit, if_neg (Ne.symm h2), get_debit hm, if_neg (Ne.symm h1)]; rfl
  · intro x h1
    show (mintTo w.ls w.self c l).get 0 x = _
    rw [get_mintTo, if_neg (Ne.symm h1)]; rfl

/-- A deposit at a price above one: 50 EGLD buy fewer than 50 LS tokens. -/
example : Reachable staked ∧ works staked (.delegate 13 (E 50)) = true ∧ lsFor (supply staked) (reserve staked) (E 50) < E 50 :=
  ⟨staked_reachable, by decide +kernel, by decide +kernel⟩

/-- A top-up, a fresh nonce or a clean-up moves no user's unstake tokens but the recipient's. -/
theorem minted_paid {w w3 : World} {a : Attrs} {v n : Nat} {u cur : UInt64} {m : Map (Nat × Addr) Nat} {c : Addr}
    (hc : c ≠ w.self) (hM : MintedUnstake w a v u cur w3 n) (hm : debit w3.nft (n, w3.self) v = .ok m) :
    ((credit m (n, c) v).get 0 (n, c) = w.nft.get 0 (n, c) + v) ∧
    ∀ k x, x ≠ w.self → ¬ (k = n ∧ x = c) → (credit m (n, c) v).get 0 (k, x) = w.nft.get 0 (k, x) := by
  have hself : w3.self = w.self := by cases hM <;> rfl
  have hother : ∀ k x, x ≠ w.self → w3.nft.get 0 (k, x) = w.nft.get 0 (k, x) := by
    intro k x hx
    cases hM with
    | topUp n hn h0 hb => dsimp only; rw [get_credit, if_neg (by simp [Ne.symm hx])]
    | fresh h0 hcl => dsimp only; rw [get_credit, if_neg (by simp [Ne.symm hx])]
    | freshClean a' h0 hl ha hlt hb =>
      dsimp only
      rw [Map.get_set, if_neg (by simp [Ne.symm hx]), get_credit, if_neg (by simp [Ne.symm hx])]
  constructor
  · rw [get_credit, if_pos rfl, get_debit hm, if_neg (by simp [hself, Ne.symm hc]), hother _ _ hc]
  · intro k x hx hne
    rw [get_credit, if_neg (by simp only [Prod.mk.injEq]; rintro ⟨rfl, rfl⟩; exact hne ⟨rfl, rfl⟩), get_debit hm,
      if_neg (by simp [hself, Ne.symm hx]), hother _ _ hx]

/-- **C02.** A successful `unDelegate` burns the `l` LS tokens paid in and gives the caller instant EGLD and unstake tokens
whose sum is exactly the pro-rata value; nobody else is touched. -/
theorem C02_unDelegate_pays_pro_rata {w w' : World} {c : Addr} {v : Nat} {ps : List Payment}
    (h : step w (.unDelegate c v ps) = .ok w') :
    ∃ t l i u n, w.st.lsToken = some t ∧ ps = [⟨t, 0, l⟩] ∧ v = 0 ∧ c ≠ w.self ∧
      i + u = egldFor (supply w) (reserve w) l ∧
      lsOf w' c + l = lsOf w c ∧
      PaidOut w w' c i u n ∧
      supply w' + l = supply w ∧
      reserve w' + (i + u) = reserve w ∧
      egldOf w' w.self + i = egldOf w w.self ∧
      (∀ x, x ≠ c → x ≠ w.self → egldOf w' x = egldOf w x) ∧
      (∀ x, x ≠ c → lsOf w' x = lsOf w x) ∧
      (∀ m x, x ≠ c → x ≠ w.self → unstakeOf w' m x = unstakeOf w m x) := by
  obtain ⟨hc, hv, _, l, t, m0, m1, m2, e, i, u, w1, w2, hps, ht, hl, hm0, _, hm1, hm2, hq, hiu, hi, _, hw1, hw2, rfl⟩ :=
    unDelegate_ok h
  have hs := getActionAmount_sum hiu
  have hle1 := debit_le hm1
  have hqle := hq.le
  have he : i + u = egldFor (supply w) (reserve w) l := by rw [hs.1]; exact hq.2.2.2
  -- LS balances
  have hls : ∀ x, m2.get 0 x = if x = c then w.ls.get 0 x - l else w.ls.get 0 x := by
    intro x
    rw [get_debit hm2, get_credit, get_debit hm1]
    by_cases hx : w.self = x
    · subst hx; simp [hc, Ne.symm hc]
    · by_cases hxc : x = c
      · subst hxc; simp [hx]
      · simp [hx, hxc, Ne.symm hxc]
  -- the world after the instant part
  have h1 : w1.self = w.self ∧ w1.nft = w.nft ∧ w1.ls = m2 ∧ egldOf w1 c = egldOf w c + i ∧
      egldOf w1 w.self + i = egldOf w w.self ∧ ∀ x, x ≠ c → x ≠ w.self → egldOf w1 x = egldOf w x := by
    rcases hw1 with ⟨rfl, rfl⟩ | ⟨_, m, hm, rfl⟩
    · exact ⟨rfl, rfl, rfl, hm0 _, hm0 _, fun x _ _ => hm0 x⟩
    · have hle := debit_le hm
      refine ⟨rfl, rfl, rfl, ?_, ?_, ?_⟩
      · show (credit m c i).get 0 c = _
        rw [get_credit, if_pos rfl, get_debit hm, if_neg (Ne.symm hc), hm0]; rfl
      · show (credit m c i).get 0 w.self + i = w.egld.get 0 w.self
        rw [get_credit, if_neg hc, get_debit hm, if_pos rfl]; rw [hm0] at hle ⊢; omega
      · intro x hx1 hx2
        show (credit m c i).get 0 x = w.egld.get 0 x
        rw [get_credit, if_neg (Ne.symm hx1), get_debit hm, if_neg (Ne.symm hx2), hm0]
  obtain ⟨hself, hnft, hls1, a1, a2, a3⟩ := h1
  -- the world after the deferred part
  have h2 : w2.ls = m2 ∧ w2.egld = w1.egld ∧ ∃ n, (w2.nft.get 0 (n, c) = w.nft.get 0 (n, c) + u) ∧
      ∀ k x, x ≠ w.self → ¬ (k = n ∧ x = c) → w2.nft.get 0 (k, x) = w.nft.get 0 (k, x) := by
    rcases hw2 with ⟨rfl, rfl⟩ | ⟨_, _, _, w3, n, m, hM, hm, rfl⟩
    · exact ⟨hls1, rfl, 0, by rw [hnft]; rfl, fun k x _ _ => by rw [hnft]⟩
    · have hp := minted_paid (by rw [hself]; exact hc) hM hm
      rw [hself, hnft] at hp
      exact ⟨by rw [← hls1]; cases hM <;> rfl, by cases hM <;> rfl, n, hp.1, hp.2⟩
  obtain ⟨b1, b2, n, b3, b4⟩ := h2
  refine ⟨t, l, i, u, n, ht, hps, hv, hc, he, ?_, ⟨?_, b3, ?_⟩, ?_, ?_, ?_, ?_, ?_, ?_⟩
  · show w2.ls.get 0 c + l = w.ls.get 0 c
    rw [b1, hls, if_pos rfl]; omega
  · show w2.egld.get 0 c = _
    rw [b2]; exact a1
  · intro k hk; exact b4 k c hc (fun hx => hk hx.1)
  · show w.st.r.lsSupply - l + l = w.st.r.lsSupply
    have := hq.1; omega
  · show w.st.r.reserve - e + (i + u) = w.st.r.reserve
    omega
  · show w2.egld.get 0 w.self + i = _
    rw [b2]; exact a2
  · intro x hx1 hx2
    show w2.egld.get 0 x = _
    rw [b2]; exact a3 x hx1 hx2
  · intro x hx
    show w2.ls.get 0 x = w.ls.get 0 x
    rw [b1, hls, if_neg hx]
  · intro k x hx1 hx2
    exact b4 k x hx2 (fun hx => hx1 hx.2)

/-- A redemption paid partly at once and partly in unstake tokens (10 EGLD wait in the pending queue). -/
example : let w := run settled [.delegate 13 (E 10)]
    Reachable w ∧ works w (.unDelegate 11 0 [⟨500, 0, E 40⟩]) = true ∧
    0 < egldOf (exec w (.unDelegate 11 0 [⟨500, 0, E 40⟩])) 11 - egldOf w 11 ∧
    0 < unstakeOf (exec w (.unDelegate 11 0 [⟨500, 0, E 40⟩])) 1 11 :=
  ⟨reachable_run settled_reachable _, by decide +kernel, by decide +kernel, by decide +kernel⟩

theorem roundTrip_arith {S R a l e : Nat} (hR : 0 < R) (hS : 0 < S) (hl : l = a * S / R) (he : e = l * (R + a) / (S + l)) :
    e ≤ a ∧ (a - e) * S < R + S := by
  have h1 : R * l ≤ a * S := by rw [hl]; exact Nat.mul_div_le _ _
  have h2 : a * S < R * (l + 1) := by
    rw [hl]; exact Nat.lt_mul_div_succ _ hR
  have hpos : 0 < S + l := by omega
  have h3 : (S + l) * e ≤ l * (R + a) := by rw [he]; exact Nat.mul_div_le _ _
  have h4 : l * (R + a) < (S + l) * (e + 1) := by
    rw [he]; exact Nat.lt_mul_div_succ _ hpos
  have hle : e ≤ a := by
    by_contra hc
    have : (S + l) * (a + 1) ≤ (S + l) * e := Nat.mul_le_mul_left _ (by omega)
    have e1 : (S + l) * (a + 1) = a * S + l * a + (S + l) := by ring
    have e2 : l * (R + a) = R * l + l * a := by ring
    omega
  refine ⟨hle, ?_⟩
  obtain ⟨k, rfl⟩ := Nat.exists_eq_add_of_le hle
  rw [Nat.add_sub_cancel_left]
  rcases Nat.eq_zero_or_pos k with rfl | hk
  · simp; omega
  · obtain ⟨j, rfl⟩ := Nat.exists_eq_succ_of_ne_zero (Nat.pos_iff_ne_zero.1 hk)
    -- (e + j + 1) S < R (l + 1),  l (R + e + j + 1) < (S + l)(e + 1)
    have e1 : (e + (j + 1)) * S = e * S + j * S + S := by ring
    have e2 : R * (l + 1) = R * l + R := by ring
    have e3 : l * (R + (e + (j + 1))) = R * l + l * e + l * j + l := by ring
    have e4 : (S + l) * (e + 1) = e * S + l * e + S + l := by ring
    have e5 : (j + 1) * S = j * S + S := by ring
    simp only [Nat.succ_eq_add_one] at *
    rw [e1, e2] at h2
    rw [e3, e4] at h4
    rw [e5]
    omega

/-- **C04.** Depositing `a` and redeeming everything it minted, with nothing in between, gives back at most `a`, and the
loss `x` satisfies `x < R/S + 1` (price of one LS unit before the deposit, plus one), here multiplied out. -/
theorem C04_round_trip {w w1 w2 : World} {c : Addr} {a l : Nat} {t : TokenId} (hr : Reachable w) (hS : 0 < supply w)
    (h1 : step w (.delegate c a) = .ok w1) (hl : lsOf w1 c = lsOf w c + l)
    (h2 : step w1 (.unDelegate c 0 [⟨t, 0, l⟩]) = .ok w2) :
    ∃ i u n, PaidOut w1 w2 c i u n ∧ i + u ≤ a ∧ (a - (i + u)) * supply w < reserve w + supply w := by
  obtain ⟨_, d1, d2, d3, _⟩ := C01_delegate_mints_pro_rata h1
  obtain ⟨t', l', i, u, n, _, hps, _, _, hiu, _, hp, _⟩ := C02_unDelegate_pays_pro_rata h2
  simp only [List.cons.injEq, Payment.mk.injEq, and_true, true_and] at hps
  obtain ⟨rfl, rfl⟩ := hps
  have hR : 0 < reserve w := (reachable_ainv hr).pos hS
  have hl' : l = a * supply w / reserve w := by
    have : l = lsFor (supply w) (reserve w) a := by omega
    rw [this, lsFor, if_neg (by omega)]
  have he : i + u = l * (reserve w + a) / (supply w + l) := by
    have : l = lsFor (supply w) (reserve w) a := by omega
    rw [hiu, d2, d3, ← this]; rfl
  obtain ⟨g1, g2⟩ := roundTrip_arith hR hS hl' he
  exact ⟨i, u, n, hp, g1, g2⟩

/-- A round trip that loses something: 1000000000000000001 wei buy 956521739130434783 LS units, worth 10^18 wei. -/
example : let w1 := exec settled (.delegate 13 (E 1 + 1))
    Reachable settled ∧ 0 < supply settled ∧ works settled (.delegate 13 (E 1 + 1)) = true ∧
    works w1 (.unDelegate 13 0 [⟨500, 0, lsOf w1 13⟩]) = true :=
  ⟨settled_reachable, by decide +kernel, by decide +kernel, by decide +kernel⟩

/-- **C14**, for deposits: the instant part comes out of the un-delegation queue, the deferred part goes to pending, and a
deferred part is accepted only if at least one EGLD is then pending. -/
theorem C14_delegate_split {w w' : World} {c : Addr} {a : Nat} (h : step w (.delegate c a) = .ok w') :
    ∃ i u, IsSplit (toUndelegate w) a i u ∧ toUndelegate w' + i = toUndelegate w ∧
      withdrawable w' = withdrawable w + i ∧ pendingEgld w' = pendingEgld w + u ∧
      (0 < u → oneEgld ≤ pendingEgld w') := by
  obtain ⟨_, _, _, m, t, p, e, l, _, _, hpe, _, hmin, _, rfl⟩ := delegate_ok.1 h
  have hs := split_of hpe
  refine ⟨p, e, hs, ?_, rfl, rfl, hmin⟩
  show w.st.r.toUnstake - p + p = w.st.r.toUnstake
  have := hs.fits
  exact Nat.sub_add_cancel this

/-- **C14**, for redemptions: the instant part comes out of pending, the deferred part joins the un-delegation queue, and is
accepted only if at least one EGLD is then queued. -/
theorem C14_unDelegate_split {w w' : World} {c : Addr} {v : Nat} {t : TokenId} {n l : Nat}
    (h : step w (.unDelegate c v [⟨t, n, l⟩]) = .ok w') :
    ∃ i u k, IsSplit (pendingEgld w) (egldFor (supply w) (reserve w) l) i u ∧ PaidOut w w' c i u k ∧
      pendingEgld w' + i = pendingEgld w ∧ toUndelegate w' = toUndelegate w + u ∧ withdrawable w' = withdrawable w ∧
      (0 < u → oneEgld ≤ toUndelegate w') := by
  obtain ⟨t', l', i, u, k, ht, hps, hv, hc, hiu, _, hp, _, _, hself, _⟩ := C02_unDelegate_pays_pro_rata h
  obtain ⟨_, _, _, l2, t2, m0, m1, m2, e, i2, u2, w1, w2, hps2, _, hl, hm0, _, hm1, hm2, hq, hiu2, hi, _, hw1, hw2, rfl⟩ :=
    unDelegate_ok h
  simp only [List.cons.injEq, Payment.mk.injEq, and_true] at hps hps2
  obtain ⟨rfl, rfl, rfl⟩ := hps
  obtain ⟨rfl, _, rfl⟩ := hps2
  have hs := split_of hiu2
  have he : e = egldFor (supply w) (reserve w) l := hq.2.2.2
  -- the contract's balance identifies the instant part
  have hi2 : i2 = i := by
    have hb : w2.egld.get 0 w.self + i2 = w.egld.get 0 w.self := by
      have e2 : w2.egld = w1.egld := by
        rcases hw2 with ⟨_, rfl⟩ | ⟨_, _, _, w3, n, m, hM, hm, rfl⟩
        · rfl
        · cases hM <;> rfl
      rw [e2]
      rcases hw1 with ⟨rfl, rfl⟩ | ⟨_, m, hm, rfl⟩
      · exact hm0 _
      · have hle := debit_le hm
        show (credit m c i2).get 0 w.self + i2 = _
        rw [get_credit, if_neg hc, get_debit hm, if_pos rfl]; rw [hm0] at hle ⊢; omega
    have hb' : w2.egld.get 0 w.self + i = w.egld.get 0 w.self := hself
    omega
  subst hi2
  have : u2 = u := by have := hs.sum; omega
  subst this
  refine ⟨i2, u2, k, he ▸ hs, hp, ?_, rfl, rfl, ?_⟩
  swap
  · intro hu
    rcases hw2 with ⟨h0, _⟩ | ⟨_, hmin, _⟩
    · omega
    · exact hmin
  show w.st.r.pending - i2 + i2 = w.st.r.pending
  exact Nat.sub_add_cancel hi

/-- The split is a function of queue and payment: there is exactly one. -/
theorem Spec.IsSplit.unique {q p i u i' u' : Nat} (h : IsSplit q p i u) (h' : IsSplit q p i' u') : i = i' ∧ u = u' := by
  obtain ⟨a1, a2, a3, a4⟩ := h
  obtain ⟨b1, b2, b3, b4⟩ := h'
  have e : i = i' := by
    rcases Nat.eq_zero_or_pos i with hi | hi
    · rcases Nat.eq_zero_or_pos i' with hi' | hi'
      · omega
      · have hu : u' = p - i' := by omega
        have := a4 i' b2 (by omega) (b3 hi').1 (hu ▸ (b3 hi').2)
        omega
    · have hu : u = p - i := by omega
      have h1 := b4 i a2 (by omega) (a3 hi).1 (hu ▸ (a3 hi).2)
      have hu' : u' = p - i' := by omega
      have h2 := a4 i' b2 (by omega) (b3 (by omega)).1 (hu' ▸ (b3 (by omega)).2)
      omega
  exact ⟨e, by omega⟩

/-- All four regimes occur: fully instant, fully redeem the queue, partial, nothing. -/
example : IsSplit (E 5) (E 3) (E 3) 0 ∧ IsSplit (E 5) (E 9) (E 5) (E 4) ∧ IsSplit (E 5) (E 5 + 7) (E 4) (E 1 + 7) ∧
    IsSplit (E 1) (E 1 + 7) 0 (E 1 + 7) := by
  refine ⟨⟨?_, ?_, ?_, ?_⟩, ⟨?_, ?_, ?_, ?_⟩, ⟨?_, ?_, ?_, ?_⟩, ⟨?_, ?_, ?_, ?_⟩⟩ <;> unfold E <;>
    (try unfold Whole) <;> (try unfold oneEgld) <;> omega

/-- **C28**: what the view quotes is what `delegate` mints. -/
theorem C28_deposit_quote {w w' : World} {c : Addr} {a : Nat} (h : step w (.delegate c a) = .ok w') :
    ∃ l, viewEgldPosition w a = .ok (l, w) ∧ lsOf w' c = lsOf w c + l := by
  obtain ⟨_, _, _, m, t, p, e, l, _, ht, _, _, _, hq, _⟩ := delegate_ok.1 h
  refine ⟨l, viewEgldPosition_ok.2 ⟨by simp [ht], hq, rfl⟩, ?_⟩
  rw [(C01_delegate_mints_pro_rata h).2.1, (lsQuote_iff.1 hq).2]; rfl

/-- **C28**: what the view quotes is what `unDelegate` pays. -/
theorem C28_redemption_quote {w w' : World} {c : Addr} {v : Nat} {t : TokenId} {n l : Nat}
    (h : step w (.unDelegate c v [⟨t, n, l⟩]) = .ok w') :
    ∃ e i u k, viewLsValue w l = .ok (e, w) ∧ PaidOut w w' c i u k ∧ i + u = e := by
  obtain ⟨t', l', i, u, k, ht, hps, hv, hc, hiu, _, hp, _⟩ := C02_unDelegate_pays_pro_rata h
  obtain ⟨_, _, _, l2, t2, m0, m1, m2, e, i2, u2, w1, w2, hps2, _, _, _, _, _, _, hq, _⟩ := unDelegate_ok h
  simp only [List.cons.injEq, Payment.mk.injEq, and_true] at hps hps2
  obtain ⟨rfl, rfl, rfl⟩ := hps
  obtain ⟨rfl, _, rfl⟩ := hps2
  refine ⟨e, i, u, k, viewLsValue_ok.2 ⟨by simp [ht], hq, rfl⟩, hp, ?_⟩
  rw [hiu, hq.2.2.2]; rfl

/-- **C28**: the two views that go through the cache leave the world as it was, although they commit the cache. -/
theorem C28_views_change_nothing {w w' : World} {x y : Nat} :
    (viewLsValue w x = .ok (y, w') → w' = w) ∧ (viewEgldPosition w x = .ok (y, w') → w' = w) ∧
    (step w (.viewLsValue x) = .ok w' → w' = w) ∧ (step w (.viewEgldPosition x) = .ok w' → w' = w) := by
  refine ⟨fun h => (viewLsValue_ok.1 h).2.2, fun h => (viewEgldPosition_ok.1 h).2.2, fun h => ?_, fun h => ?_⟩
  · simp only [step, bind_ok, Prod.exists, Except.ok.injEq] at h
    obtain ⟨e, w1, h1, rfl⟩ := h
    exact (viewLsValue_ok.1 h1).2.2
  · simp only [step, bind_ok, Prod.exists, Except.ok.injEq] at h
    obtain ⟨e, w1, h1, rfl⟩ := h
    exact (viewEgldPosition_ok.1 h1).2.2

/-- Deposit, redemption and both views answer on a pool with a price above one. -/
example : works settled (.delegate 13 (E 23)) = true ∧ works settled (.unDelegate 11 0 [⟨500, 0, E 22⟩]) = true ∧
    works settled (.viewLsValue (E 22)) = true := ⟨by decide +kernel, by decide +kernel, by decide +kernel⟩

/-- **C39**: `migrate` mints at the current price to the migration contract only, and never lowers the redemption value. -/
theorem C39_migrate {w w' : World} {c : Addr} {v : Nat} {o : Addr} (hr : Reachable w) (h : step w (.migrate c v o) = .ok w') :
    w.st.migrationSc = some c ∧
    lsOf w' c = lsOf w c + lsFor (supply w) (reserve w) v ∧ (∀ x, x ≠ c → lsOf w' x = lsOf w x) ∧
    supply w' = supply w + lsFor (supply w) (reserve w) v ∧ reserve w' = reserve w + v ∧
    (0 < supply w → reserve w * supply w' ≤ reserve w' * supply w) ∧
    (∀ x, egldOf w' x = egldOf w x) ∧ (∀ n x, unstakeOf w' n x = unstakeOf w n x) ∧
    pendingEgld w' = pendingEgld w ∧ toUndelegate w' = toUndelegate w ∧ unbonding w' = unbonding w ∧
    withdrawable w' = withdrawable w ∧ feesReserve w' = feesReserve w := by
  have hrate := (acct_step (.migrate c v o) (reachable_regInv hr) (reachable_issInv hr) h).rate (reachable_ainv hr)
  obtain ⟨_, hm, _, _, t, l, _, hq, rfl⟩ := migrate_ok.1 h
  have hL : l = lsFor (supply w) (reserve w) v := (lsQuote_iff.1 hq).2
  rw [← hL]
  refine ⟨hm, ?_, ?_, rfl, rfl, fun hS => ?_, fun _ => rfl, fun _ _ => rfl, rfl, rfl, rfl, rfl, rfl⟩
  · show (mintTo w.ls w.self c l).get 0 c = _
    rw [get_mintTo, if_pos rfl]; rfl
  · intro x hx
    show (mintTo w.ls w.self c l).get 0 x = _
    rw [get_mintTo, if_neg (Ne.symm hx)]; rfl
  · exact hrate hS

/-- **C39**: `migratePending` only adds the received EGLD to pending EGLD. -/
theorem C39_migratePending {w w' : World} {c : Addr} {v : Nat} (h : step w (.migratePending c v) = .ok w') :
    w.st.migrationSc = some c ∧
    w'.st = { w.st with r := { w.st.r with pending := w.st.r.pending + v } } ∧
    egldOf w' c + v = egldOf w c ∧ egldOf w' w.self = egldOf w w.self + v ∧
    (∀ x, x ≠ c → x ≠ w.self → egldOf w' x = egldOf w x) ∧
    (∀ x, lsOf w' x = lsOf w x) ∧ (∀ n x, unstakeOf w' n x = unstakeOf w n x) := by
  obtain ⟨hc, hm, _, _, t, m, _, hd, rfl⟩ := migratePending_ok.1 h
  have hle := debit_le hd
  refine ⟨hm, rfl, ?_, ?_, ?_, fun _ => rfl, fun _ _ => rfl⟩
  · show (credit m w.self v).get 0 c + v = w.egld.get 0 c
    rw [get_credit, if_neg (Ne.symm hc), get_debit hd, if_pos rfl]; omega
  · show (credit m w.self v).get 0 w.self = _
    rw [get_credit, if_pos rfl, get_debit hd, if_neg hc]; rfl
  · intro x h1 h2
    show (credit m w.self v).get 0 x = _
    rw [get_credit, if_neg (Ne.symm h2), get_debit hd, if_neg (Ne.symm h1)]; rfl

/-- Both succeed on a running pool once the migration contract is configured. -/
example : let w := run settled [.setMigrationSc 1 3]
    Reachable w ∧ 0 < supply w ∧ works w (.migrate 3 (E 70) 77) = true ∧ works w (.migratePending 3 (E 70)) = true :=
  ⟨reachable_run settled_reachable _, by decide +kernel, by decide +kernel, by decide +kernel⟩

end LS
