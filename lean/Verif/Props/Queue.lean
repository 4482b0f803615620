import Verif.Props.Batch
import Verif.Props.Pool
import Verif.Props.Accounting

/-! Dust in the un-delegation queue: C53. -/

namespace LS
open Spec Demo

/-- Un-delegation batches in this transaction are complete: the providers are asked for the whole amount of the batch. -/
def CompleteBatch (w : World) (op : Op) (w' : World) : Prop :=
  ∀ c o, op = .unDelegatePending c o → toUndelegate w' + batchAsked (toUndelegate w) o = toUndelegate w

private theorem whole_deliver {w w' : World} {i : Nat} {o : Outcome} (hr : Reachable w) (h : step w (.deliver i o) = .ok w')
    (hq : Whole (toUndelegate w)) : Whole (toUndelegate w') := by
  have hreg : RegOk w.st.lsToken w.st.unstakeToken w.st.delegList w.st.undelegList w.st.data w.flights w.dead :=
    reachable_regInv hr
  obtain ⟨f, hf, hcb | ⟨_, rfl⟩⟩ := deliver_ok h
  · cases f with
    | delegate p a =>
      cases o with
      | ok g r =>
        obtain ⟨_, d, _, _, rfl⟩ := addLiquidityCb_true_ok.1 hcb
        exact hq
      | err =>
        obtain ⟨t, d, _, _, _, rfl⟩ := addLiquidityCb_false_ok.1 hcb
        exact hq
    | undelegate p a =>
      cases o with
      | ok g r =>
        obtain ⟨t, d, _, _, _, _, rfl⟩ := removeLiquidityCb_true_ok.1 hcb
        exact hq
      | err =>
        obtain ⟨t, d, _, _, _, rfl⟩ := removeLiquidityCb_false_ok.1 hcb
        have := hreg.pos p a (.inr (List.mem_of_getElem? hf))
        right
        show oneEgld ≤ w.st.r.toUnstake + a
        have : oneEgld ≤ a := this
        omega
    | withdraw p =>
      have : ∀ v, withdrawTokensCb (arrive w i (.withdraw p) o) p v = .ok w' → Whole (toUndelegate w') := by
        intro v hv
        rcases withdrawTokensCb_ok.1 hv with ⟨_, rfl⟩ | ⟨_, t, d, _, _, _, _, rfl⟩ <;> exact hq
      cases o with
      | ok g r => exact this g hcb
      | err => exact this 0 hcb
    | claim ps =>
      cases o with
      | ok g r => rcases claimRewardsCb_ok.1 hcb with ⟨_, rfl⟩ | ⟨_, t, fee, _, _, _, rfl⟩ <;> exact hq
      | err =>
        have hcb : Except.ok (arrive w i (.claim ps) .err) = .ok w' := hcb
        cases hcb; exact hq
    | whitelist p a u =>
      cases o with
      | ok g r =>
        obtain ⟨t, d, l, _, _, _, rfl⟩ := whitelistCb_true_ok.1 hcb
        exact hq
      | err =>
        obtain ⟨_, m, _, rfl⟩ := whitelistCb_false_ok.1 hcb
        exact hq
  · exact hq

private theorem whole_step {w w' : World} {op : Op} (hr : Reachable w) (h : step w op = .ok w') (hb : CompleteBatch w op w')
    (hq : Whole (toUndelegate w)) : Whole (toUndelegate w') := by
  cases op with
  | delegate c v =>
    obtain ⟨i, u, hs, h1, _⟩ := C14_delegate_split h
    rcases Nat.eq_zero_or_pos i with h0 | h0
    · have : toUndelegate w' = toUndelegate w := by omega
      rw [this]; exact hq
    · have : toUndelegate w' = toUndelegate w - i := by omega
      rw [this]; exact (hs.clean h0).1
  | unDelegate c v ps =>
    obtain ⟨t, l, _, _, _, _, rfl, _⟩ := C02_unDelegate_pays_pro_rata h
    obtain ⟨i, u, k, _, _, _, h1, _, h2⟩ := C14_unDelegate_split h
    rcases Nat.eq_zero_or_pos u with h0 | h0
    · rw [h1, h0]; exact hq
    · exact .inr (h2 h0)
  | withdraw c v ps =>
    obtain ⟨_, _, _, uid, t, m0, m, E, N, _, _, _, _, _, _, _, _, _, _, _, rfl⟩ := withdraw_ok (reachable_regInv hr).tok h
    exact hq
  | upgrade => simp only [step, Except.ok.injEq] at h; subst h; exact hq
  | delegatePending c o =>
    obtain ⟨b, _, _, _, _, _, _, he, _⟩ := C17_delegatePending_exact h
    have : toUndelegate w' = toUndelegate w := by unfold toUndelegate; rw [he]
    rw [this]; exact hq
  | unDelegatePending c o =>
    obtain ⟨b, _, hv, hsum, _⟩ := C20_unDelegatePending_exact hr h
    have := hb c o rfl
    have e : toUndelegate w' = toUndelegate w - batchAsked (toUndelegate w) o := by omega
    rw [e]; exact hv.2.2
  | withdrawPending c p =>
    obtain ⟨_, _, _, _, _, E, hE, rfl⟩ := withdrawPending_ok h; exact hq
  | claimRewards c =>
    obtain ⟨_, _, _, _, _, E, hE, rfl⟩ := claimRewards_ok h; exact hq
  | claimFees c a =>
    obtain ⟨_, _, ha, _, _, m, hm, rfl⟩ := claimFees_ok h; exact hq
  | whitelist c v p ad ts cap n apy =>
    obtain ⟨_, _, _, _, hnone, _, _, _, E, hE, _, _, rfl⟩ := whitelist_ok h; exact hq
  | changeAdmin c p a =>
    obtain ⟨_, _, d, hd, rfl⟩ := changeAdmin_ok.1 h; exact hq
  | changeParams c p ts cap n apy e =>
    obtain ⟨_, _, d, hd, _, rfl⟩ := changeParams_ok.1 h; exact hq
  | migrate c v o =>
    obtain ⟨_, _, _, _, t, l, _, _, rfl⟩ := migrate_ok.1 h; exact hq
  | migratePending c v =>
    obtain ⟨hc, _, _, _, t, m, _, hm, rfl⟩ := migratePending_ok.1 h; exact hq
  | addRewards c v =>
    obtain ⟨hc, t, m, _, hm, rfl⟩ := addRewards_ok.1 h; exact hq
  | setMigrationSc c a => obtain ⟨_, _, _, rfl⟩ := setMigrationSc_ok.1 h; exact hq
  | registerLsToken c v => obtain ⟨hc, _, _, _, m, hm, rfl⟩ := registerLsToken_ok.1 h; exact hq
  | registerUnstakeToken c v => obtain ⟨hc, _, _, _, m, hm, rfl⟩ := registerUnstakeToken_ok.1 h; exact hq
  | issued i o => obtain ⟨⟨k, u, v⟩, E, _, _, _, rfl⟩ := issued_ok.1 h; cases k <;> exact hq
  | owner c cmd =>
    obtain ⟨_, _, st, h1, rfl⟩ := ownerCmd_ok.1 h
    obtain ⟨s, fr, acc, mr, ma, ms, ub, mg, rfl⟩ := applyOwnerCmd_ok h1
    exact hq
  | setScoringConfig c cfg => obtain ⟨_, _, _, rfl⟩ := setScoringConfig_ok.1 h; exact hq
  | viewLsValue l =>
    simp only [step, bind_ok, Prod.exists, Except.ok.injEq] at h
    obtain ⟨e, w1, h1, rfl⟩ := h
    obtain ⟨_, _, rfl⟩ := viewLsValue_ok.1 h1
    exact hq
  | viewEgldPosition l =>
    simp only [step, bind_ok, Prod.exists, Except.ok.injEq] at h
    obtain ⟨e, w1, h1, rfl⟩ := h
    obtain ⟨_, _, rfl⟩ := viewEgldPosition_ok.1 h1
    exact hq
  | deliver i o => exact whole_deliver hr h hq
  | transferLs s d v => obtain ⟨_, _, m, hm, rfl⟩ := transferLs_ok.1 h; exact hq
  | transferNft s d n v => obtain ⟨h1, h2, m, hm, rfl⟩ := transferNft_ok.1 h; exact hq
  | fund a v => obtain ⟨h1, rfl⟩ := fund_ok.1 h; exact hq
  | advance e => obtain ⟨_, rfl⟩ := advance_ok.1 h; exact hq
  | changeOwner c d => obtain ⟨_, _, rfl⟩ := changeOwner_ok.1 h; exact hq
  | transferEgld s d v => obtain ⟨_, _, m, hm, rfl⟩ := transferEgld_ok.1 h; exact hq
  | giveEgld s v => obtain ⟨_, _, m, hm, rfl⟩ := giveEgld_ok.1 h; exact hq
  | giveLs s v => obtain ⟨_, _, m, hm, rfl⟩ := giveLs_ok.1 h; exact hq
  | giveUnstake s n v => obtain ⟨_, _, m, hm, rfl⟩ := giveUnstake_ok.1 h; exact hq
  | burnLs a v => obtain ⟨_, m, hm, rfl⟩ := holderBurnLs_ok.1 h; exact hq
  | burnUnstake a n v => obtain ⟨_, m, hm, rfl⟩ := holderBurnNft_ok.1 h; exact hq
  | starve i o => obtain ⟨f, hf, rfl⟩ := starve_ok h; exact hq

/-- **C53, what does hold.**  The full claim (in every reachable state the un-delegation queue is empty or holds at least one
EGLD) is refuted by `C53_false`.  True is: it holds in every history in which every un-delegation batch was complete, that is,
the providers addressed had the stake for the whole amount asked for. -/
theorem C53_partial {w : World} (hr : ReachableBy CompleteBatch w) : Whole (toUndelegate w) := by
  obtain ⟨w0, hi, ht⟩ := hr
  induction ht with
  | nil =>
    obtain ⟨self, owner, contracts, epoch, funds, acc, fees, rpe, mr, ms, ma, ub, _, _, rfl⟩ := isInit_eq hi
    exact .inl rfl
  | @snoc w1 w2 op ht hs hp ih => exact whole_step (reachable_trace (.init hi) ht) hs hp ih

/-- **C53**, why it matters: dust in the queue cannot be asked back from the providers by anybody. -/
theorem C53_dust_stays {w : World} (hr : Reachable w) (hd : ¬ Whole (toUndelegate w)) (c : Addr) (o : Option Nat) :
    ¬ ∃ w', step w (.unDelegatePending c o) = .ok w' := by
  rintro ⟨w', h⟩
  obtain ⟨_, _, hv, _⟩ := C20_unDelegatePending_exact hr h
  exact hd (.inr (Nat.le_trans hv.1 hv.2.1))

/-- Providers 21 and 22 with 1.5 and 1 EGLD; 2 EGLD were redeemed and asked back, 1.5 of them came back and were paid out. -/
def stuck : World := run active [
  .whitelist 1 1500000000000000000 21 41 (E 1000) (E 1500) 10 800, .deliver 0 (.ok 0 0),
  .whitelist 1 (E 1) 22 42 (E 1000) 0 20 900, .deliver 0 (.ok 0 0),
  .unDelegate 1 0 [⟨500, 0, E 2⟩], .unDelegatePending 1 none, .deliver 0 (.ok 0 0), .advance 60, .withdrawPending 1 21,
  .deliver 0 (.ok 1500000000000000000 0), .withdraw 1 0 [⟨501, 1, E 2⟩]]

/-- **C53 is false of the code**: a batch of 2 EGLD took 1.5 from one provider and nothing from the other, which holds 1 EGLD.
The remaining 0.5 EGLD cannot be asked back by anybody, nothing is in flight or unbonding, and the holder of the matured
unstake tokens is not paid. -/
theorem C53_false : ∃ w, Reachable w ∧ w.st.state = .active ∧ w.flights = [] ∧ w.dead = [] ∧
    toUndelegate w = 500000000000000000 ∧ unbonding w = 0 ∧ withdrawable w = 0 ∧ netStake w 22 = oneEgld ∧
    unstakeOf w 1 1 = 500000000000000000 ∧ maturityOf w 1 = some 10 ∧ w.epoch = 60 ∧
    (∀ c o, ¬ ∃ w', step w (.unDelegatePending c o) = .ok w') ∧
    ¬ ∃ w', step w (.withdraw 1 0 [⟨501, 1, 500000000000000000⟩]) = .ok w' := by
  have hr : Reachable stuck := reachable_run active_reachable _
  have hq : toUndelegate stuck = 500000000000000000 := by decide +kernel
  refine ⟨stuck, hr, by decide +kernel, by decide +kernel, by decide +kernel, hq, by decide +kernel, by decide +kernel,
    by decide +kernel, by decide +kernel, by decide +kernel, by decide +kernel, fun c o => C53_dust_stays hr ?_ c o, ?_⟩
  · rw [hq]
    rintro (h | h)
    · cases h
    · exact absurd h (by decide)
  · rintro ⟨w', h⟩
    have : works stuck (.withdraw 1 0 [⟨501, 1, 500000000000000000⟩]) = false := by decide +kernel
    unfold works at this
    rw [h] at this
    cases this

/-- A check of `CompleteBatch` along a run. -/
def completeOps (w : World) : List Op → Bool
  | [] => true
  | op :: ops =>
    (match op with
      | .unDelegatePending _ o =>
        decide (toUndelegate (exec w op) + batchAsked (toUndelegate w) o = toUndelegate w)
      | _ => true) && completeOps (exec w op) ops

/-- Non-vacuity of `C53_partial`: in `busy` everything asked for was sent to the provider; 5 more EGLD were redeemed since. -/
example : ReachableBy CompleteBatch (run fresh (busy ++ [.unDelegate 11 0 [⟨500, 0, E 15⟩]])) ∧
    oneEgld < toUndelegate (run fresh (busy ++ [.unDelegate 11 0 [⟨500, 0, E 15⟩]])) ∧
    0 < unbonding (run fresh (busy ++ [.unDelegate 11 0 [⟨500, 0, E 15⟩]])) := by
  refine ⟨⟨fresh, fresh_isInit, trace_of_run completeOps (fun w op ops h => ?_) _ fresh (by decide +kernel)⟩,
    by decide +kernel, by decide +kernel⟩
  simp only [completeOps, Bool.and_eq_true] at h
  refine ⟨h.2, fun w' hw c o hop => ?_⟩
  subst hop
  have h1 := of_decide_eq_true h.1
  have he : exec w (.unDelegatePending c o) = w' := by unfold exec; rw [hw]
  rw [he] at h1
  exact h1

end LS
