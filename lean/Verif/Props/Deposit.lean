import Verif.Props.Economy
import Verif.Props.Payout
import Verif.Props.Live

/-! The life of a deposit, from the EGLD paid in to the EGLD paid out: C80. -/

namespace LS
open Spec Demo

/-- Tokens once issued stay. -/
theorem tokens_kept {P : World → Op → World → Prop} {w w' : World} (hr : Reachable w) (h : Trace P w w') :
    w'.self = w.self ∧ (∀ t, w.st.lsToken = some t → w'.st.lsToken = some t) ∧
      ∀ t, w.st.unstakeToken = some t → w'.st.unstakeToken = some t := by
  induction h with
  | nil => exact ⟨rfl, fun _ h => h, fun _ h => h⟩
  | @snoc w1 w2 op ht hs _ ih =>
    have hr1 : Reachable w1 := reachable_trace hr ht
    have hf := frame_step op (reachable_regInv hr1) (reachable_issInv hr1) hs
    refine ⟨hf.self.trans ih.1, fun t h => ?_, fun t h => ?_⟩
    · have := ih.2.1 t h
      rcases hf.lsT with e | ⟨_, _, _, _, _, _, e, _⟩
      · rw [e, this]
      · rw [this] at e; cases e
    · have := ih.2.2 t h
      rcases hf.usT with e | ⟨_, _, _, _, _, _, e, _⟩
      · rw [e, this]
      · rw [this] at e; cases e

theorem reachableBy_trace {P : World → Op → World → Prop} {w w' : World} (hr : ReachableBy P w) (h : Trace P w w') : ReachableBy P w' := by
  obtain ⟨w0, hi, ht⟩ := hr
  refine ⟨w0, hi, ?_⟩
  induction h with
  | nil => exact ht
  | snoc op _ hs hp ih => exact .snoc op ih hs hp

/-- While an account that holds LS tokens sends nothing, no amount of LS tokens loses value. -/
theorem value_kept {w w' : World} {c : Addr} (hr : Reachable w) (hc : c ≠ w.self) (h0 : 0 < lsOf w c)
    (h : Trace (fun _ op _ => senderOf op ≠ some c) w w') (l : Nat) :
    egldFor (supply w) (reserve w) l ≤ egldFor (supply w') (reserve w') l := by
  have key : w'.self = w.self ∧ lsOf w c ≤ lsOf w' c ∧ Trace Alive w w' := by
    induction h with
    | nil => exact ⟨rfl, Nat.le_refl _, .nil⟩
    | @snoc w1 w2 op ht hs hp ih =>
      obtain ⟨i0, i1, i2⟩ := ih
      have hr1 : Reachable w1 := reachable_trace hr ht
      have h2 := (C60_others_take_nothing hr1 hs (by rw [i0]; exact hc) hp).2.1
      have hr2 : Reachable w2 := .step op hr1 hs
      refine ⟨(frame_step op (reachable_regInv hr1) (reachable_issInv hr1) hs).self.trans i0, Nat.le_trans i1 h2, .snoc op i2 hs ⟨?_, ?_⟩⟩
      · exact Nat.lt_of_lt_of_le (Nat.lt_of_lt_of_le h0 i1) (ls_le_supply hr1 c)
      · exact Nat.lt_of_lt_of_le (Nat.lt_of_lt_of_le h0 (Nat.le_trans i1 h2)) (ls_le_supply hr2 c)
  exact (C03_rate_never_falls hr (Nat.lt_of_lt_of_le h0 (ls_le_supply hr c)) key.2.2 l).2

/-- **C80.** Account `c` deposits `a` EGLD, which is then worth at least one EGLD in LS tokens, and sends nothing for a while; whatever
everybody else does meanwhile, and whatever the providers answer, `c` can redeem the LS tokens whenever the contract is active, and gets
`i` EGLD and `u` unstake tokens: all of `a` but less than the price of one LS unit plus one.  After another while, once the unstake
tokens have matured and the contract holds enough withdrawable EGLD, `c` can withdraw, and ends up with all the EGLD there was
before the deposit but that difference, and with no fewer LS and unstake tokens. -/
theorem C80_deposit_returns {w w1 w2 : World} {c : Addr} {a l : Nat} {t tu : TokenId} (hr : ReachableBy HonestManager w)
    (h1 : step w (.delegate c a) = .ok w1) (hl : lsOf w1 c = lsOf w c + l) (hv : oneEgld ≤ egldFor (supply w1) (reserve w1) l)
    (ht : w.st.lsToken = some t) (h2 : Trace (fun v op v' => HonestManager v op v' ∧ senderOf op ≠ some c) w1 w2)
    (ha : w2.st.state = .active) (hu : w2.st.unstakeToken = some tu) :
    ∃ w3 i u n, step w2 (.unDelegate c 0 [⟨t, 0, l⟩]) = .ok w3 ∧ PaidOut w2 w3 c i u n ∧
      (a ≤ i + u ∨ (a - (i + u)) * supply w < reserve w + supply w) ∧
      ∀ w4, Trace (fun v op v' => HonestManager v op v' ∧ senderOf op ≠ some c) w3 w4 → w4.st.state = .active → 0 < u →
        w2.epoch.toNat + w2.st.unbondPeriod.toNat ≤ w4.epoch.toNat → u ≤ withdrawable w4 →
        ∃ w5, step w4 (.withdraw c 0 [⟨tu, n, u⟩]) = .ok w5 ∧ egldOf w c + (i + u) ≤ egldOf w5 c + a ∧
          lsOf w c ≤ lsOf w5 c ∧ ∀ k, unstakeOf w k c ≤ unstakeOf w5 k c := by
  have hR : Reachable w := reachableBy_reachable hr
  have hR1 : Reachable w1 := .step _ hR h1
  have hm1 : HonestManager w (.delegate c a) w1 := trivial
  have hB1 : ReachableBy HonestManager w1 := reachableBy_trace hr (.snoc _ .nil h1 hm1)
  have hB2 : ReachableBy HonestManager w2 := reachableBy_trace hB1 (trace_mono (fun _ _ _ h => h.1) h2)
  have hR2 := reachableBy_reachable hB2
  have hs2 : Trace (fun _ op _ => senderOf op ≠ some c) w1 w2 := trace_mono (fun _ _ _ h => h.2) h2
  have hc : c ≠ w.self := (delegate_ok.1 h1).1
  have hself1 : w1.self = w.self := (frame_step _ (reachable_regInv hR) (reachable_issInv hR) h1).self
  obtain ⟨d1, d2, d3, d4, _, _, _, d8⟩ := C01_delegate_mints_pro_rata h1
  have hl' : l = lsFor (supply w) (reserve w) a := by omega
  have hl0 : 0 < l := by
    rcases Nat.eq_zero_or_pos l with h0 | h0
    · have hone : 0 < oneEgld := MIN_EGLD_pos
      rw [h0] at hv; unfold egldFor at hv; rw [Nat.zero_mul, Nat.zero_div] at hv; omega
    · exact h0
  have hval := value_kept hR1 (by rw [hself1]; exact hc) (by omega) hs2 l
  obtain ⟨p1, p2, p3, _⟩ := C60_position_safe hR1 (by rw [hself1]; exact hc) hs2
  obtain ⟨k1, k2, _⟩ := tokens_kept hR (.snoc _ .nil h1 hm1)
  obtain ⟨k3, k4, _⟩ := tokens_kept hR1 h2
  have hc2 : c ≠ w2.self := by rw [k3, k1]; exact hc
  obtain ⟨w3, h3⟩ := C16_redemption_accepted hB2 ha (k4 t (k2 t ht)) (by rw [hu]; simp) hc2 (by omega : l ≤ lsOf w2 c)
    (Nat.le_trans hv hval)
  obtain ⟨t', l', i, u, n, _, hps, _, _, hiu, hls3, hp, _⟩ := C02_unDelegate_pays_pro_rata h3
  simp only [List.cons.injEq, Payment.mk.injEq, and_true, true_and] at hps
  obtain ⟨rfl, rfl⟩ := hps
  refine ⟨w3, i, u, n, h3, hp, ?_, ?_⟩
  · rcases Nat.eq_zero_or_pos (reserve w) with h0 | h0
    · left
      have hS0 : supply w = 0 := Nat.eq_zero_of_not_pos fun h => by
        have := (reachable_ainv hR).pos h
        have e : reserve w = (acct w).r.reserve := rfl
        omega
      have hla : l = a := by rw [hl', lsFor, if_pos h0]
      have hv1 : egldFor (supply w1) (reserve w1) l = a := by
        rw [d3, d4, ← hl', hS0, h0, hla]
        unfold egldFor
        rw [Nat.zero_add]
        exact Nat.mul_div_cancel _ (by omega)
      omega
    · rcases Nat.eq_zero_or_pos (supply w) with hS0 | hS0
      · exfalso
        have : lsFor (supply w) (reserve w) a = 0 := by
          unfold lsFor; rw [if_neg (by omega), hS0, Nat.mul_zero, Nat.zero_div]
        omega
      · obtain ⟨g1, g2⟩ := roundTrip_arith (a := a) h0 hS0 (l := l) (e := egldFor (supply w1) (reserve w1) l)
          (by rw [hl', lsFor, if_neg (by omega)]) (by rw [d3, d4, ← hl']; rfl)
        right
        refine Nat.lt_of_le_of_lt (Nat.mul_le_mul_right _ ?_) g2
        omega
  · intro w4 h4 ha4 hu0 hmat hwd
    have hR3 : Reachable w3 := .step _ hR2 h3
    have hm3 : HonestManager w2 (.unDelegate c 0 [⟨t, 0, l⟩]) w3 := trivial
    have hB3 : ReachableBy HonestManager w3 := reachableBy_trace hB2 (.snoc _ .nil h3 hm3)
    have hB4 : ReachableBy HonestManager w4 := reachableBy_trace hB3 (trace_mono (fun _ _ _ h => h.1) h4)
    have hR4 := reachableBy_reachable hB4
    have hs4 : Trace (fun _ op _ => senderOf op ≠ some c) w3 w4 := trace_mono (fun _ _ _ h => h.2) h4
    obtain ⟨k5, k6, k7⟩ := tokens_kept hR2 (.snoc _ .nil h3 hm3)
    obtain ⟨k8, k9, k10⟩ := tokens_kept hR3 h4
    have hc3 : c ≠ w3.self := by rw [k5]; exact hc2
    obtain ⟨q1, q2, q3, _⟩ := C60_position_safe hR3 hc3 hs4
    obtain ⟨e1, e2, e3⟩ := hp
    obtain ⟨m, hm, hme, _⟩ := C12_maturity_fixed hR2 h3 (n := n) (by omega) (trace_mono (fun _ _ _ _ => trivial) h4)
    have hmle : m ≤ w4.epoch := by
      rw [UInt64.le_iff_toNat_le, hme, UInt64.toNat_add]
      exact Nat.le_trans (Nat.mod_le _ _) hmat
    obtain ⟨w5, h5⟩ := (C50_withdraw_iff (c := c) (ps := [⟨tu, n, u⟩]) hB4).2 ⟨ha4, by rw [k9 t (k6 t (k4 t (k2 t ht)))]; simp,
      by rw [k10 tu (k7 tu hu)]; simp, by rw [k8]; exact hc3,
      fun p hp => by
        rw [List.mem_singleton] at hp; subst hp
        exact ⟨k10 tu (k7 tu hu), hu0, m, hm, hmle⟩,
      fun k => by
        simp only [paidWith]
        split
        · rename_i h; subst h
          have := q3 n
          omega
        · omega,
      fun ps1 p ps2 h => by
        cases ps1 with
        | nil => exact Nat.lt_of_lt_of_le hu0 hwd
        | cons x xs => simp at h⟩
    obtain ⟨burned, x, hx, hsum, hb, hun, heg, _, _, _, _, _, hls5⟩ := C11_withdraw_one_to_one hR4 h5
    have hxu : x = u := by
      rw [hx]
      show min (u + 0) _ = u
      omega
    refine ⟨w5, h5, ?_, ?_, fun k => ?_⟩
    · omega
    · rw [hls5]; omega
    · have hk := hun k
      have hbk := hb k
      have r1 := q3 k
      have r2 := p3 k
      have r3 := d8 k c
      simp only [paidWith] at hbk
      split at hbk
      · rename_i h; subst h; omega
      · have := e3 k (by rintro rfl; omega)
        omega

/-- Transactions of others than `c`, with rewards that come. -/
def othersOp (c : Addr) (op : Op) : Bool :=
  (match op with | .deliver _ (.ok e r) => decide (r ≤ e) | _ => true) && decide (senderOf op ≠ some c)

theorem others_trace {c : Addr} {ops : List Op} {w : World} (h : ops.all (othersOp c) = true) :
    Trace (fun v op v' => HonestManager v op v' ∧ senderOf op ≠ some c) w (run w ops) := by
  refine trace_ops (othersOp c) (fun op h v v' => ?_) ops w h
  unfold othersOp at h
  rw [Bool.and_eq_true] at h
  refine ⟨?_, of_decide_eq_true h.2⟩
  cases op with
  | deliver i o => cases o with
    | ok g r => intro _ _; simpa using h.1
    | err => trivial
  | _ => trivial

/-- User 13 deposits 30 EGLD. -/
def begun : World := exec (run fresh busy) (.delegate 13 (E 30))

/-- Meanwhile: the deposits are delegated, others redeem and withdraw, rewards arrive, the contract is paused for a while. -/
def meanwhile : World := run begun [.delegatePending 1 none, .deliver 0 (.ok 0 0), .unDelegate 12 0 [⟨500, 0, E 3⟩],
  .withdraw 11 0 [⟨501, 1, E 5⟩], .claimRewards 1, .deliver 0 (.ok (E 5) (E 5)), .delegatePending 1 none, .deliver 0 (.ok 0 0),
  .owner 1 .stateInactive, .advance 70, .owner 1 .stateActive]

/-- User 13 redeems everything. -/
def leaving : World := exec meanwhile (.unDelegate 13 0 [⟨500, 0, lsOf begun 13⟩])

/-- The EGLD is asked back, comes back, and the unstake tokens mature. -/
def cameBack : World := run leaving [.unDelegatePending 1 none, .deliver 0 (.ok 0 0), .advance 85, .withdrawPending 1 22,
  .deliver 0 (.ok (figure (·.unstaked) leaving 22 + E 33) 0)]

/-- Non-vacuity of `C80_deposit_returns`: all its hypotheses, the second part's included, on one execution. -/
example : ReachableBy HonestManager (run fresh busy) ∧ works (run fresh busy) (.delegate 13 (E 30)) = true ∧
    lsOf begun 13 = lsOf (run fresh busy) 13 + lsOf begun 13 ∧ oneEgld ≤ egldFor (supply begun) (reserve begun) (lsOf begun 13) ∧
    (run fresh busy).st.lsToken = some 500 ∧
    Trace (fun v op v' => HonestManager v op v' ∧ senderOf op ≠ some 13) begun meanwhile ∧ reserve begun < reserve meanwhile ∧
    meanwhile.st.state = .active ∧ meanwhile.st.unstakeToken = some 501 ∧
    works meanwhile (.unDelegate 13 0 [⟨500, 0, lsOf begun 13⟩]) = true ∧
    Trace (fun v op v' => HonestManager v op v' ∧ senderOf op ≠ some 13) leaving cameBack ∧ cameBack.st.state = .active ∧
    meanwhile.epoch.toNat + meanwhile.st.unbondPeriod.toNat ≤ cameBack.epoch.toNat ∧ 0 < unstakeOf leaving 3 13 ∧
    unstakeOf leaving 3 13 ≤ withdrawable cameBack :=
  ⟨reachableBy_honest (by decide +kernel), by decide +kernel, by decide +kernel, by decide +kernel, by decide +kernel,
    others_trace (by decide +kernel), by decide +kernel, by decide +kernel, by decide +kernel, by decide +kernel,
    others_trace (by decide +kernel), by decide +kernel, by decide +kernel, by decide +kernel, by decide +kernel⟩

end LS
