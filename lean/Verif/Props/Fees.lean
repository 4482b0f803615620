import Verif.Props.Parts
import Verif.Props.Callbacks
import Verif.Props.Deposit
import Verif.Props.Losses

/-! The fees of the protocol over a history: C108. -/

namespace LS
open Spec Demo

/-- What the accumulator in office receives when fees are paid out. -/
def Spec.paidBy (w : World) (op : Op) (w' : World) : Nat :=
  match op with
  | .claimFees _ _ => egldOf w' w.st.accumulator - egldOf w w.st.accumulator
  | _ => 0

/-- A history, with the fees paid out in it. -/
inductive Spec.FeesPaid : World → Nat → Prop
  | init {w : World} : IsInit w → FeesPaid w 0
  | step {w w' : World} {n : Nat} (op : Op) : FeesPaid w n → step w op = .ok w' → FeesPaid w' (n + paidBy w op w')

/-- Rewards announced in a log. -/
def Spec.rewardsIn : List Event → Nat
  | [] => 0
  | .change (.claimRewards v) .. :: l => v + rewardsIn l
  | .change (.addLiquidity _) .. :: l => rewardsIn l
  | .change (.removeLiquidity _) .. :: l => rewardsIn l
  | .change (.withdrawPending _ _) .. :: l => rewardsIn l
  | .change .general .. :: l => rewardsIn l
  | .protocolRevenue _ _ :: l => rewardsIn l

/-- How many times rewards were announced. -/
def Spec.claims : List Event → Nat
  | [] => 0
  | .change (.claimRewards _) .. :: l => 1 + claims l
  | .change (.addLiquidity _) .. :: l => claims l
  | .change (.removeLiquidity _) .. :: l => claims l
  | .change (.withdrawPending _ _) .. :: l => claims l
  | .change .general .. :: l => claims l
  | .protocolRevenue _ _ :: l => claims l

private theorem claimed_app (l m : List Event) : rewardsIn (l ++ m) = rewardsIn l + rewardsIn m := by
  induction l with
  | nil => simp [rewardsIn]
  | cons e l ih => cases e with
    | change k => cases k <;> simp only [List.cons_append, rewardsIn, ih] <;> omega
    | protocolRevenue => simp only [List.cons_append, rewardsIn, ih]

private theorem claims_app (l m : List Event) : claims (l ++ m) = claims l + claims m := by
  induction l with
  | nil => simp [claims]
  | cons e l ih => cases e with
    | change k => cases k <;> simp only [List.cons_append, claims, ih] <;> omega
    | protocolRevenue => simp only [List.cons_append, claims, ih]

/-- What the events `l` announce keeps to the fee rate `f`: the revenue is the part `f` of the rewards, rounded down once per claim. -/
private def FeeBound (f : Nat) (l : List Event) : Prop :=
  10000 * revenue l ≤ f * rewardsIn l ∧ f * rewardsIn l ≤ 10000 * revenue l + 9999 * claims l

private theorem keeps_announce (w : World) (f : Nat) {k : EventKind} (c : Addr) (hk : ∀ v, k ≠ .claimRewards v) :
    FeeBound f (announce w k c) := by
  have h1 : rewardsIn (announce w k c) = 0 := by
    unfold announce
    cases w.st.lsToken with
    | none => rfl
    | some t => cases k <;> first | rfl | exact absurd rfl (hk _)
  have h2 := revenue_announce w k c
  unfold FeeBound
  rw [h1, h2]
  simp

private theorem keeps_nil (f : Nat) : FeeBound f [] := by simp [FeeBound, rewardsIn, revenue]

private theorem keeps_step {w w' : World} {op : Op} (hr : Reachable w) (hs : step w op = .ok w') :
    FeeBound w.st.feeRate (announced w op w') := by
  cases op
  case deliver i o =>
    obtain ⟨f, hf, hcb⟩ := deliver_ok hs
    by_cases hcl : ∃ ps g r, f = .claim ps ∧ o = .ok g r
    · obtain ⟨ps, g, r, rfl, rfl⟩ := hcl
      simp only [announced, hf]
      rcases hcb with hcb | ⟨_, rfl⟩
      · rw [if_pos (show w'.dead = w.dead from (runCallback_flights hcb).2)]
        rcases claimRewardsCb_ok.1 hcb with ⟨h0, rfl⟩ | ⟨h0, t, fee, ht, hfee, hle, rfl⟩
        · simp only [callbackEvents, h0, if_true]
          exact keeps_nil _
        · simp only [callbackEvents]
          rw [if_neg (by omega)]
          have hfee' : fee = r * w.st.feeRate / 10000 := hfee
          have hd := Nat.div_add_mod (r * w.st.feeRate) 10000
          have hm := Nat.mod_lt (r * w.st.feeRate) (show 0 < 10000 by omega)
          have hmul : w.st.feeRate * r = r * w.st.feeRate := Nat.mul_comm _ _
          have hrev : w.st.r.fees + fee - w.st.r.fees = fee := by omega
          have ht' : w.st.lsToken = some t := ht
          unfold FeeBound announce
          simp only [commit, emit, arrive, feesReserve, ht', revenue, rewardsIn, claims, Nat.add_zero, hrev]
          omega
      · rw [if_neg (by simp)]
        exact keeps_nil _
    · simp only [announced, hf]
      split
      · cases f <;> cases o <;> simp only [callbackEvents] <;>
          first
            | exact keeps_nil _
            | exact keeps_announce _ _ _ (by simp)
            | (split <;> first | exact keeps_nil _ | exact keeps_announce _ _ _ (by simp))
            | exact absurd ⟨_, _, _, rfl, rfl⟩ hcl
      · exact keeps_nil _
  all_goals first | exact keeps_nil _ | exact keeps_announce _ _ _ (by simp)

/-- **C108**, one transaction: fees in hand and fees paid together grow by exactly what the log announces. -/
theorem C108_step {w w' : World} {op : Op} (hr : Reachable w) (hs : step w op = .ok w') :
    feesReserve w' + paidBy w op w' + revenue w.events = feesReserve w + revenue w'.events := by
  by_cases hop : ∃ c a, op = .claimFees c a
  · obtain ⟨c, a, rfl⟩ := hop
    obtain ⟨_, _, ha, _, _, h⟩ := C24_claimFees_exact hs
    have h1 : w'.events = w.events := by rw [h]
    have h2 : feesReserve w' = 0 := by rw [h]; rfl
    have h3 : paidBy w (.claimFees c a) w' = feesReserve w := by
      show egldOf w' w.st.accumulator - egldOf w w.st.accumulator = _
      omega
    rw [h1, h2, h3, Nat.zero_add]
  · have h := C66_revenue hr hs fun c a h => hop ⟨c, a, h⟩
    have h0 : paidBy w op w' = 0 := by
      cases op <;> first | rfl | exact absurd ⟨_, _, rfl⟩ hop
    omega

/-- **C108.** Over any history the fees in hand and all the fees ever paid out add up to the revenue announced in the log. -/
theorem C108_history {w : World} {n : Nat} (h : FeesPaid w n) : feesReserve w + n = revenue w.events := by
  have key : Reachable w ∧ feesReserve w + n = revenue w.events := by
    induction h with
    | init h =>
      obtain ⟨self, owner, contracts, epoch, funds, acc, fees, rpe, mr, ms, ma, ub, _, _, rfl⟩ := isInit_eq h
      exact ⟨.init h, rfl⟩
    | step op h hs ih =>
      refine ⟨.step _ ih.1 hs, ?_⟩
      have := C108_step ih.1 hs
      omega
  exact key.2

/-- Every reachable world has such a history. -/
theorem C108_history_exists {w : World} (hr : Reachable w) : ∃ n, FeesPaid w n := by
  induction hr with
  | init h => exact ⟨0, .init h⟩
  | step op _ hs ih => obtain ⟨n, h⟩ := ih; exact ⟨_, .step op h hs⟩

/-- **C108**, no more than the rate: if the fee rate never exceeded `f` (in ten-thousandths), the protocol's revenue is at most that
part of the rewards announced. -/
theorem C108_at_most {w : World} {f : Nat} (hr : ReachableBy (fun w _ _ => w.st.feeRate ≤ f) w) :
    10000 * revenue w.events ≤ f * rewardsIn w.events := by
  obtain ⟨w0, hi, ht⟩ := hr
  have h0 : w0.events = [] := by
    obtain ⟨self, owner, contracts, epoch, funds, acc, fees, rpe, mr, ms, ma, ub, _, _, rfl⟩ := isInit_eq hi
    rfl
  have key : Reachable w ∧ 10000 * revenue w.events ≤ f * rewardsIn w.events := by
    induction ht with
    | nil => exact ⟨.init hi, by rw [h0]; simp [revenue]⟩
    | snoc op _ hs hp ih =>
      refine ⟨.step _ ih.1 hs, ?_⟩
      have hk := (keeps_step ih.1 hs).1
      rw [C65_events_exact ih.1 hs, revenue_append, claimed_app, Nat.mul_add, Nat.mul_add]
      exact Nat.add_le_add ih.2 (hk.trans (Nat.mul_le_mul_right _ hp))
  exact key.2

/-- **C108**, no less than the rate: if the fee rate never was below `f`, the revenue is at least that part of the rewards
announced, but for less than one unit of EGLD per claim. -/
theorem C108_at_least {w : World} {f : Nat} (hr : ReachableBy (fun w _ _ => f ≤ w.st.feeRate) w) :
    f * rewardsIn w.events ≤ 10000 * revenue w.events + 9999 * claims w.events := by
  obtain ⟨w0, hi, ht⟩ := hr
  have h0 : w0.events = [] := by
    obtain ⟨self, owner, contracts, epoch, funds, acc, fees, rpe, mr, ms, ma, ub, _, _, rfl⟩ := isInit_eq hi
    rfl
  have key : Reachable w ∧ f * rewardsIn w.events ≤ 10000 * revenue w.events + 9999 * claims w.events := by
    induction ht with
    | nil => exact ⟨.init hi, by rw [h0]; simp [rewardsIn]⟩
    | @snoc w1 w2 op _ hs hp ih =>
      refine ⟨.step _ ih.1 hs, ?_⟩
      have hk := (keeps_step ih.1 hs).2
      have hm := Nat.mul_le_mul_right (rewardsIn (announced w1 op w2)) hp
      rw [C65_events_exact ih.1 hs, revenue_append, claimed_app, claims_app, Nat.mul_add]
      have := ih.2
      omega
  exact key.2

private def rateIs (f : Nat) : World → List Op → Bool
  | _, [] => true
  | w, op :: ops => decide (w.st.feeRate = f) && rateIs f (exec w op) ops

private def earning : List Op := busy ++ [.claimFees 99 true, .claimRewards 1, .deliver 0 (.ok 33 33)]

private theorem earning_rate {P : World → Op → World → Prop} (hP : ∀ w op w', w.st.feeRate = 400 → P w op w')
    (h : rateIs 400 fresh earning = true) : ReachableBy P (run fresh earning) := by
  refine ⟨fresh, fresh_isInit, trace_of_run (rateIs 400) (fun w op ops h => ?_) earning fresh h⟩
  simp only [rateIs, Bool.and_eq_true, decide_eq_true_eq] at h
  exact ⟨h.2, fun w' _ => hP w op w' h.1⟩

/-- Rewards of 7 EGLD and of 33 units at 4 %, with the fees paid out in between: the log says 0.28 EGLD and one unit. -/
example : ReachableBy (fun w _ _ => w.st.feeRate ≤ 400) (run fresh earning) ∧
    ReachableBy (fun w _ _ => 400 ≤ w.st.feeRate) (run fresh earning) ∧
    feesReserve (run fresh earning) = 1 ∧ FeesPaid (run fresh earning) 280000000000000000 ∧
    revenue (run fresh earning).events = 280000000000000001 ∧ rewardsIn (run fresh earning).events = E 7 + 33 ∧
    claims (run fresh earning).events = 2 := by
  have hrev : revenue (run fresh earning).events = 280000000000000001 := by decide +kernel
  have hfee : feesReserve (run fresh earning) = 1 := by decide +kernel
  have h := earning_rate (P := fun w _ _ => w.st.feeRate ≤ 400) (fun _ _ _ h => Nat.le_of_eq h) (by decide +kernel)
  obtain ⟨n, hn⟩ := C108_history_exists (reachableBy_reachable h)
  have hh := C108_history hn
  have : n = 280000000000000000 := by omega
  exact ⟨h, earning_rate (fun _ _ _ h => Nat.le_of_eq h.symm) (by decide +kernel), hfee, this ▸ hn, hrev, by decide +kernel,
    by decide +kernel⟩

end LS
