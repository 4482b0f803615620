import Verif.Spec.Rush
import Verif.Props.Payout
import Verif.Props.Deposit

/-! Holders of unstake tokens withdrawing after each other: C81. -/

namespace LS
open Spec Demo

theorem burnedAt_full (n : Nat) : ∀ (ps : List Payment) (t : Nat), totalPaid ps ≤ t → burnedAt n t ps = paidWith n ps
  | [], _, _ => rfl
  | p :: ps, t, h => by
    have h' : p.amount + totalPaid ps ≤ t := h
    have hm : min p.amount t = p.amount := by omega
    simp only [burnedAt, paidWith, hm]
    rw [burnedAt_full n ps (t - p.amount) (by omega)]

/-- What one withdrawal without EGLD attached does. -/
theorem rush_step {w w1 : World} {c : Addr} {ps : List Payment} (hr : Reachable w) (h : step w (.withdraw c 0 ps) = .ok w1) :
    ∃ x, x = min (totalPaid ps) (withdrawable w) ∧ c ≠ w.self ∧ w1.self = w.self ∧ w1.epoch = w.epoch ∧
      (∀ n, maturityOf w1 n = maturityOf w n) ∧ w1.st.state = w.st.state ∧ w1.st.lsToken = w.st.lsToken ∧
      w1.st.unstakeToken = w.st.unstakeToken ∧ withdrawable w1 + x = withdrawable w ∧
      egldOf w1 w.self + x = egldOf w w.self ∧
      (∀ a, a ≠ w.self → egldOf w1 a = egldOf w a + if c = a then x else 0) ∧
      (totalPaid ps ≤ withdrawable w → ∀ n a, unstakeOf w1 n a + (if c = a then paidWith n ps else 0) = unstakeOf w n a) := by
  obtain ⟨_, x, hx, _, _, _, c1, c2, c3, c4, c5, c6, _⟩ := C11_withdraw_one_to_one hr h
  obtain ⟨hc, _, _, uid, t, m0, m, E, N, _, _, _, _, _, _, _, n1, _, _, _, e⟩ := withdraw_ok (reachable_regInv hr).tok h
  refine ⟨x, hx, hc, by rw [e]; rfl, by rw [e]; rfl, fun n => by rw [e]; rfl, by rw [c4], by rw [c4], by rw [c4], c3, by omega, ?_, ?_⟩
  · intro a ha
    by_cases hca : c = a
    · subst hca; rw [if_pos rfl]; omega
    · rw [if_neg hca, c5 a (Ne.symm hca) ha]; rfl
  · intro hle n a
    by_cases hca : c = a
    · subst hca
      rw [if_pos rfl, ← burnedAt_full n ps _ hle]
      have : unstakeOf w1 n c = N.get 0 (n, c) := by rw [e]; rfl
      rw [this]; exact n1 n
    · rw [if_neg hca, c6 n a (Ne.symm hca)]; rfl

/-- **C81**, the sum: claimants who withdraw after each other get together what they claim, or all there is if that is less; it comes
out of the contract's account and out of the withdrawable EGLD, nobody gets more than claimed, and nobody else gets anything. -/
theorem C81_sum_paid {cs : List Claimant} {w w' : World} (hr : Reachable w) (h : Rush cs w w') :
    withdrawable w' + min (claimedInAll cs) (withdrawable w) = withdrawable w ∧
    egldOf w' w.self + min (claimedInAll cs) (withdrawable w) = egldOf w w.self ∧
    ∀ a, a ≠ w.self → egldOf w a ≤ egldOf w' a ∧ egldOf w' a ≤ egldOf w a + claimedBy a cs := by
  induction h with
  | nil => simp [claimedInAll, claimedBy]
  | @cons c ps cs w w1 w2 hs _ ih =>
    obtain ⟨x, hx, hc, hself, _, _, _, _, _, b1, b2, b3, _⟩ := rush_step hr hs
    obtain ⟨i1, i2, i3⟩ := ih (.step _ hr hs)
    rw [hself] at i2 i3
    have hsum : claimedInAll ((c, ps) :: cs) = totalPaid ps + claimedInAll cs := by simp [claimedInAll]
    rw [hsum]
    refine ⟨by omega, by omega, fun a ha => ?_⟩
    have hby : claimedBy a ((c, ps) :: cs) = (if c = a then totalPaid ps else 0) + claimedBy a cs := by simp [claimedBy]
    have h1 := b3 a ha
    obtain ⟨h2, h3⟩ := i3 a ha
    rw [hby]
    split at h1 <;> simp_all <;> omega

/-- **C81**, enough for all: then each gets exactly what it claims and gives exactly the tokens it pays in. -/
theorem C81_enough {cs : List Claimant} {w w' : World} (hr : Reachable w) (h : Rush cs w w') (he : claimedInAll cs ≤ withdrawable w) :
    (∀ a, a ≠ w.self → egldOf w' a = egldOf w a + claimedBy a cs) ∧
    ∀ n a, unstakeOf w' n a + claimedWith n a cs = unstakeOf w n a := by
  induction h with
  | nil => simp [claimedBy, claimedWith]
  | @cons c ps cs w w1 w2 hs _ ih =>
    obtain ⟨x, hx, hc, hself, _, _, _, _, _, b1, b2, b3, b4⟩ := rush_step hr hs
    have hsum : claimedInAll ((c, ps) :: cs) = totalPaid ps + claimedInAll cs := by simp [claimedInAll]
    rw [hsum] at he
    have hx' : x = totalPaid ps := by omega
    obtain ⟨i1, i2⟩ := ih (.step _ hr hs) (by omega)
    rw [hself] at i1
    refine ⟨fun a ha => ?_, fun n a => ?_⟩
    · have hby : claimedBy a ((c, ps) :: cs) = (if c = a then totalPaid ps else 0) + claimedBy a cs := by simp [claimedBy]
      rw [i1 a ha, b3 a ha, hby, hx']; omega
    · have hw : claimedWith n a ((c, ps) :: cs) = (if c = a then paidWith n ps else 0) + claimedWith n a cs := by simp [claimedWith]
      have h1 := i2 n a
      have h2 := b4 (by omega) n a
      rw [hw]; omega

/-- Nothing stands in the way of these withdrawals. -/
def Payable (w : World) (cs : List Claimant) : Prop :=
  (∀ x ∈ cs, w.st.state = .active ∧ w.st.lsToken ≠ none ∧ w.st.unstakeToken ≠ none ∧ x.1 ≠ w.self ∧
    ∀ p ∈ x.2, w.st.unstakeToken = some p.token ∧ 0 < p.amount ∧ ∃ e, maturityOf w p.nonce = some e ∧ e ≤ w.epoch) ∧
  ∀ n a, claimedWith n a cs ≤ unstakeOf w n a

theorem totalPaid_append : ∀ a b, totalPaid (a ++ b) = totalPaid a + totalPaid b
  | [], b => by simp [totalPaid]
  | p :: a, b => by simp only [List.cons_append, totalPaid, totalPaid_append a b]; omega

theorem rush_payable {cs : List Claimant} {w w' : World} (hr : ReachableBy HonestManager w) (h : Rush cs w w')
    (he : claimedInAll cs ≤ withdrawable w) : Payable w cs := by
  refine ⟨?_, fun n a => by have := (C81_enough (reachableBy_reachable hr) h he).2 n a; omega⟩
  clear he
  induction h with
  | nil => intro x hx; cases hx
  | @cons c ps cs w w1 w2 hs _ ih =>
    have hm : HonestManager w (.withdraw c 0 ps) w1 := trivial
    obtain ⟨g1, g2, g3, g4, g5, _⟩ := (C50_withdraw_iff hr).1 ⟨w1, hs⟩
    obtain ⟨_, _, _, hself, hep, hmat, s1, s2, s3, _⟩ := rush_step (reachableBy_reachable hr) hs
    have ih := ih (reachableBy_trace hr (.snoc _ .nil hs hm))
    intro x hx
    rcases List.mem_cons.1 hx with rfl | hx
    · exact ⟨g1, g2, g3, g4, g5⟩
    · have := ih x hx
      simp only [hself, hep, hmat, s1, s2, s3] at this
      exact this

theorem payable_rush : ∀ {cs : List Claimant} {w : World}, ReachableBy HonestManager w → Payable w cs →
    claimedInAll cs ≤ withdrawable w → ∃ w', Rush cs w w'
  | [], w, _, _, _ => ⟨w, .nil⟩
  | (c, ps) :: cs, w, hr, hp, he => by
    have hsum : claimedInAll ((c, ps) :: cs) = totalPaid ps + claimedInAll cs := by simp [claimedInAll]
    have hw : ∀ n a, claimedWith n a ((c, ps) :: cs) = (if c = a then paidWith n ps else 0) + claimedWith n a cs := by
      intro n a; simp [claimedWith]
    rw [hsum] at he
    obtain ⟨g1, g2, g3, g4, g5⟩ := hp.1 (c, ps) (List.mem_cons_self ..)
    obtain ⟨w1, hs⟩ := (C50_withdraw_iff (c := c) (ps := ps) hr).2 ⟨g1, g2, g3, g4, g5, fun n => by
      have := hp.2 n c
      rw [hw, if_pos rfl] at this
      omega, fun ps1 p ps2 hps => by
      subst hps
      have h1 := (g5 p (by simp)).2.1
      rw [totalPaid_append] at he
      simp only [totalPaid] at he
      omega⟩
    have hm : HonestManager w (.withdraw c 0 ps) w1 := trivial
    obtain ⟨x, hx, _, hself, hep, hmat, s1, s2, s3, b1, _, _, b4⟩ := rush_step (reachableBy_reachable hr) hs
    obtain ⟨w', h'⟩ := payable_rush (cs := cs) (w := w1) (reachableBy_trace hr (.snoc _ .nil hs hm))
      ⟨fun y hy => by
        have := hp.1 y (List.mem_cons_of_mem _ hy)
        simp only [hself, hep, hmat, s1, s2, s3]
        exact this, fun n a => by
        have h1 := hp.2 n a
        have h2 := b4 (by omega) n a
        rw [hw] at h1
        omega⟩ (by omega)
    exact ⟨w', .cons hs h'⟩

/-- **C81**, any order: when there is enough for all, the claimants can come in every other order too, and everybody ends up with
the same EGLD and the same unstake tokens. -/
theorem C81_any_order {cs cs' : List Claimant} {w w1 : World} (hr : ReachableBy HonestManager w) (hp : cs.Perm cs')
    (h : Rush cs w w1) (he : claimedInAll cs ≤ withdrawable w) :
    ∃ w2, Rush cs' w w2 ∧ (∀ a, egldOf w2 a = egldOf w1 a) ∧ (∀ n a, unstakeOf w2 n a = unstakeOf w1 n a) ∧
      withdrawable w2 = withdrawable w1 := by
  have hR := reachableBy_reachable hr
  have e1 : claimedInAll cs' = claimedInAll cs := ((hp.map _).sum_eq).symm
  have e2 : ∀ a, claimedBy a cs' = claimedBy a cs := fun a => ((hp.map _).sum_eq).symm
  have e3 : ∀ n a, claimedWith n a cs' = claimedWith n a cs := fun n a => ((hp.map _).sum_eq).symm
  obtain ⟨p1, p2⟩ := rush_payable hr h he
  obtain ⟨w2, h2⟩ := payable_rush (cs := cs') hr ⟨fun x hx => p1 x (hp.mem_iff.2 hx), fun n a => by rw [e3]; exact p2 n a⟩ (by omega)
  obtain ⟨a1, a2, _⟩ := C81_sum_paid hR h
  obtain ⟨b1, b2, _⟩ := C81_sum_paid hR h2
  obtain ⟨a3, a4⟩ := C81_enough hR h he
  obtain ⟨b3, b4⟩ := C81_enough hR h2 (by omega)
  rw [e1] at b1 b2
  refine ⟨w2, h2, fun a => ?_, fun n a => ?_, by omega⟩
  · by_cases ha : a = w.self
    · subst ha; omega
    · rw [a3 a ha, b3 a ha, e2]
  · have h3 := a4 n a
    have h4 := b4 n a
    rw [e3] at h4
    omega

/-- Users 11 and 12 redeem 20 LS tokens each, two epochs apart; both positions have matured, and a provider has sent 10 EGLD so far. -/
def crowdOps : List Op := [
  .registerLsToken 1 0, .issued 0 (some 500), .registerUnstakeToken 1 0, .issued 0 (some 501), .owner 1 .stateActive,
  .setScoringConfig 1 ScoringConfig.default,
  .whitelist 1 (E 1) 21 41 (E 1000) (E 1500) 10 800, .deliver 0 (.ok 0 0), .whitelist 1 (E 1) 22 42 (E 1000) 0 20 900, .deliver 0 (.ok 0 0),
  .delegate 11 (E 100), .delegate 12 (E 50), .delegatePending 1 none, .deliver 0 (.ok 0 0), .deliver 0 (.ok 0 0), .advance 50,
  .unDelegate 11 0 [⟨500, 0, E 20⟩], .advance 52, .unDelegate 12 0 [⟨500, 0, E 20⟩],
  .unDelegatePending 1 none, .deliver 0 (.ok 0 0), .deliver 0 (.ok 0 0), .advance 65, .withdrawPending 1 21, .deliver 0 (.ok (E 10) 0)]

def crowd : World := run fresh crowdOps

theorem crowd_honest : ReachableBy HonestManager crowd := reachableBy_honest (by decide +kernel)

/-- **C81**, no priority: the order matters when there is not enough.  Account 11's position matured before account 12's and could be
paid; account 12 comes first, takes everything there is, and account 11 is refused. -/
theorem C81_no_priority : ∃ w w', ReachableBy HonestManager w ∧ (∃ a b, maturityOf w 1 = some a ∧ maturityOf w 2 = some b ∧ a < b ∧ b ≤ w.epoch) ∧
    unstakeOf w 1 11 = E 20 ∧ unstakeOf w 2 12 = E 20 ∧ (∃ v, step w (.withdraw 11 0 [⟨501, 1, E 20⟩]) = .ok v ∧ egldOf v 11 = egldOf w 11 + E 10) ∧
    step w (.withdraw 12 0 [⟨501, 2, E 20⟩]) = .ok w' ∧ egldOf w' 12 = egldOf w 12 + E 10 ∧
    ¬ ∃ v, step w' (.withdraw 11 0 [⟨501, 1, E 20⟩]) = .ok v :=
  ⟨crowd, exec crowd (.withdraw 12 0 [⟨501, 2, E 20⟩]), crowd_honest,
    ⟨60, 62, by decide +kernel, by decide +kernel, by decide +kernel, by decide +kernel⟩, by decide +kernel, by decide +kernel,
    ⟨_, step_exec (by decide +kernel), by decide +kernel⟩, step_exec (by decide +kernel), by decide +kernel,
    fun h => absurd (works_iff.2 h) (by decide +kernel)⟩

/-- Three withdrawals of two accounts, for which there is enough (`C81_enough`, `C81_any_order`). -/
example : ReachableBy HonestManager crowd ∧
    (∃ w', Rush [(11, [⟨501, 1, E 4⟩]), (12, [⟨501, 2, E 3⟩]), (11, [⟨501, 1, E 2⟩])] crowd w') ∧
    claimedInAll [(11, [⟨501, 1, E 4⟩]), (12, [⟨501, 2, E 3⟩]), (11, [⟨501, 1, E 2⟩])] ≤ withdrawable crowd :=
  ⟨crowd_honest, ⟨_, .cons (step_exec (by decide +kernel)) (.cons (step_exec (by decide +kernel)) (.cons (step_exec (by decide +kernel)) .nil))⟩,
    by decide +kernel⟩

/-- Two withdrawals for which there is not enough: the second is paid in part (`C81_sum_paid`). -/
example : Reachable crowd ∧ (∃ w', Rush [(11, [⟨501, 1, E 7⟩]), (12, [⟨501, 2, E 7⟩])] crowd w') ∧
    withdrawable crowd < claimedInAll [(11, [⟨501, 1, E 7⟩]), (12, [⟨501, 2, E 7⟩])] :=
  ⟨reachableBy_reachable crowd_honest, ⟨_, .cons (step_exec (by decide +kernel)) (.cons (step_exec (by decide +kernel)) .nil)⟩,
    by decide +kernel⟩

end LS
