import Verif.Props.Queue
import Verif.Props.Live
import Verif.Props.Parts

/-! Dust in the un-delegation queue: where it comes from, how long it stays and what takes it away (C53). -/

namespace LS
open Spec Demo

/-- The failure of an un-delegation puts back what was asked for, one EGLD or more. -/
theorem queue_back {w w' : World} {i : Nat} {p : Addr} {a : Nat} (hr : Reachable w) (hs : step w (.deliver i .err) = .ok w')
    (hf : w.flights[i]? = some (.undelegate p a)) : toUndelegate w' = toUndelegate w + a ∧ oneEgld ≤ a := by
  refine ⟨?_, (reachable_regInv hr).pos p a (.inr (List.mem_of_getElem? hf))⟩
  obtain ⟨f, hf', hcb⟩ := deliver_ok hs
  obtain rfl : Flight.undelegate p a = f := Option.some.inj (hf.symm.trans hf')
  rcases hcb with hcb | ⟨he, _⟩
  · obtain ⟨t, d, _, _, _, rfl⟩ := removeLiquidityCb_false_ok.1 hcb
    rfl
  · rw [callback_fails hr hf] at he
    exact absurd he (by simp [CallbackFails])

/-- Only four things change the un-delegation queue: a deposit, a redemption, a batch of un-delegations and the failure of an
un-delegation, which puts back what was asked for. -/
theorem queue_moves {w w' : World} {op : Op} (hr : Reachable w) (hs : step w op = .ok w') :
    toUndelegate w' = toUndelegate w ∨ (∃ c a, op = .delegate c a) ∨ (∃ c v ps, op = .unDelegate c v ps) ∨
      (∃ c o, op = .unDelegatePending c o) ∨
      ∃ i p a, op = .deliver i .err ∧ w.flights[i]? = some (.undelegate p a) ∧ toUndelegate w' = toUndelegate w + a ∧ oneEgld ≤ a := by
  have hp : Part.queue ∉ touched w op → toUndelegate w' = toUndelegate w := C64_only_its_parts hr hs .queue
  cases op with
  | delegate c a => exact .inr (.inl ⟨c, a, rfl⟩)
  | unDelegate c v ps => exact .inr (.inr (.inl ⟨c, v, ps, rfl⟩))
  | unDelegatePending c o => exact .inr (.inr (.inr (.inl ⟨c, o, rfl⟩)))
  | deliver i o =>
    obtain ⟨f, hf, _⟩ := deliver_ok hs
    cases f with
    | undelegate p a =>
      cases o with
      | ok g r => exact .inl (hp (by simp [touched, hf, callbackParts]))
      | err =>
        exact .inr (.inr (.inr (.inr ⟨i, p, a, rfl, hf, queue_back hr hs hf⟩)))
    | delegate p a => exact .inl (hp (by cases o <;> simp [touched, hf, callbackParts]))
    | withdraw p => exact .inl (hp (by cases o <;> simp [touched, hf, callbackParts]))
    | claim ps => exact .inl (hp (by cases o <;> simp [touched, hf, callbackParts]))
    | whitelist p a u =>
      refine .inl (hp ?_)
      cases o
      · simp [touched, hf, callbackParts]
      · simp only [touched, hf, callbackParts]; split_ifs <;> simp
  | issued i o =>
    refine .inl (hp ?_)
    simp only [touched]
    split
    · split_ifs <;> simp
    · split_ifs <;> simp
    · simp
  | owner c cmd => exact .inl (hp (by cases cmd <;> simp [touched, settingOf]))
  | withdraw c v ps => exact .inl (hp (by simp [touched]))
  | delegatePending c o => exact .inl (hp (by simp [touched]))
  | _ => exact .inl (hp (by simp [touched]))

/-- **C53, where dust comes from**: whatever happens in whatever state, a queue without dust gets dust only from an un-delegation
batch which was asked for the whole queue and which the providers chosen could serve only in part. -/
theorem C53_origin {w w' : World} {op : Op} (hr : Reachable w) (hs : step w op = .ok w') (hq : Whole (toUndelegate w))
    (hd : ¬ Whole (toUndelegate w')) :
    ∃ c o b, op = .unDelegatePending c o ∧ batchAsked (toUndelegate w) o = toUndelegate w ∧
      w'.flights = w.flights ++ undelegations b ∧ 0 < batchTotal b ∧ toUndelegate w' + batchTotal b = toUndelegate w := by
  have hpos : 0 < oneEgld := MIN_EGLD_pos
  have hd1 : toUndelegate w' ≠ 0 := fun h => hd (.inl h)
  have hd2 : toUndelegate w' < oneEgld := Nat.lt_of_not_le fun h => hd (.inr h)
  have hne : toUndelegate w' ≠ toUndelegate w := fun h => hd (h ▸ hq)
  rcases queue_moves hr hs with h | ⟨c, a, rfl⟩ | ⟨c, v, ps, rfl⟩ | ⟨c, o, rfl⟩ | ⟨i, p, a, rfl, _, h, ha⟩
  · exact absurd h hne
  · obtain ⟨i, u, hsp, h1, _⟩ := C14_delegate_split hs
    have h0 : 0 < i := Nat.pos_of_ne_zero fun h0 => hne (by omega)
    have : toUndelegate w' = toUndelegate w - i := by omega
    exact absurd (this ▸ (hsp.clean h0).1) hd
  · obtain ⟨t, l, _, _, _, _, rfl, _⟩ := C02_unDelegate_pays_pro_rata hs
    obtain ⟨i, u, k, _, _, _, h1, _, h2⟩ := C14_unDelegate_split hs
    have h0 : 0 < u := Nat.pos_of_ne_zero fun h0 => hne (by omega)
    exact absurd (.inr (h2 h0)) hd
  · obtain ⟨b, hf, hv, hsum, hle, _⟩ := C20_unDelegatePending_exact hr hs
    refine ⟨c, o, b, rfl, ?_, hf, by omega, hsum⟩
    rcases hv.2.2 with h | h
    · have := hv.2.1; omega
    · omega
  · omega

/-- A batch asks for less than the whole queue. -/
def LeavesSome (w : World) (op : Op) (_ : World) : Prop :=
  ∀ c o, op = .unDelegatePending c o → batchAsked (toUndelegate w) o ≠ toUndelegate w

/-- **C53**, the simplest rule for the managers: as long as no batch asks for the whole queue, the queue never holds dust.
(Whatever users, providers and callbacks do, and however many providers can serve the batch.) -/
theorem C53_leave_some_partial {w : World} (hr : ReachableBy LeavesSome w) : Whole (toUndelegate w) := by
  obtain ⟨w0, hi, ht⟩ := hr
  induction ht with
  | nil =>
    obtain ⟨self, owner, contracts, epoch, funds, acc, fees, rpe, mr, ms, ma, ub, _, _, rfl⟩ := isInit_eq hi
    exact .inl rfl
  | @snoc w1 w2 op ht hs hp ih =>
    by_contra hd
    obtain ⟨c, o, b, h1, h2, _⟩ := C53_origin (reachable_trace (.init hi) ht) hs ih hd
    exact hp c o h1 h2

/-- A deposit of exactly what is queued, or of at least one EGLD more, takes all of the queue. -/
theorem dust_taken {w w' : World} {c : Addr} {a : Nat} (hs : step w (.delegate c a) = .ok w')
    (ha : a = toUndelegate w ∨ toUndelegate w + oneEgld ≤ a) :
    toUndelegate w' = 0 ∧ withdrawable w' = withdrawable w + toUndelegate w ∧
      pendingEgld w' = pendingEgld w + (a - toUndelegate w) := by
  obtain ⟨i, u, hsp, h1, h2, h3, _⟩ := C14_delegate_split hs
  have h4 := hsp.largest (toUndelegate w) (Nat.le_refl _) (by omega) (.inl (Nat.sub_self _)) (by
    rcases ha with ha | ha
    · exact .inl (by omega)
    · exact .inr (by omega))
  have h5 := hsp.sum
  have h6 := hsp.fits
  refine ⟨by omega, by omega, by omega⟩

/-- **C53, how long it stays**: dust never changes its amount.  One step leaves it as it is, or takes it away: a deposit which
it fits into, a redemption which has to wait, or the failure of an un-delegation. -/
theorem C53_dust_step {w w' : World} {op : Op} (hr : Reachable w) (hs : step w op = .ok w') (hd : ¬ Whole (toUndelegate w)) :
    (Whole (toUndelegate w') ↔
      (∃ c a, op = .delegate c a ∧ (a = toUndelegate w ∨ toUndelegate w + oneEgld ≤ a)) ∨
      (∃ c v t n l, op = .unDelegate c v [⟨t, n, l⟩] ∧
        ∃ i u, IsSplit (pendingEgld w) (egldFor (supply w) (reserve w) l) i u ∧ 0 < u) ∨
      ∃ i p a, op = .deliver i .err ∧ w.flights[i]? = some (.undelegate p a)) ∧
    (¬ Whole (toUndelegate w') → toUndelegate w' = toUndelegate w) := by
  have hpos : 0 < oneEgld := MIN_EGLD_pos
  have hd1 : toUndelegate w ≠ 0 := fun h => hd (.inl h)
  have hd2 : toUndelegate w < oneEgld := Nat.lt_of_not_le fun h => hd (.inr h)
  refine ⟨⟨fun hw => ?_, ?_⟩, fun hw => ?_⟩
  · rcases queue_moves hr hs with h | ⟨c, a, rfl⟩ | ⟨c, v, ps, rfl⟩ | ⟨c, o, rfl⟩ | ⟨i, p, a, rfl, hf, _⟩
    · exact absurd (h ▸ hw) hd
    · obtain ⟨i, u, hsp, h1, _⟩ := C14_delegate_split hs
      refine .inl ⟨c, a, rfl, ?_⟩
      have h0 : 0 < i := Nat.pos_of_ne_zero fun h0 => hd (by rwa [show toUndelegate w = toUndelegate w' by omega])
      obtain ⟨h2, h3⟩ := hsp.clean h0
      have h4 := hsp.fits
      have h5 := hsp.sum
      have h6 : i = toUndelegate w := by rcases h2 with h2 | h2 <;> omega
      rcases h3 with h3 | h3
      · left; omega
      · right; omega
    · obtain ⟨t, l, _, _, _, _, rfl, _⟩ := C02_unDelegate_pays_pro_rata hs
      obtain ⟨i, u, k, hsp, _, _, h1, _, h2⟩ := C14_unDelegate_split hs
      refine .inr (.inl ⟨c, v, t, 0, l, rfl, i, u, hsp, Nat.pos_of_ne_zero fun h0 => hd ?_⟩)
      rwa [show toUndelegate w = toUndelegate w' by omega]
    · exact absurd ⟨w', hs⟩ (C53_dust_stays hr hd c o)
    · exact .inr (.inr ⟨i, p, a, rfl, hf⟩)
  · rintro (⟨c, a, rfl, ha⟩ | ⟨c, v, t, n, l, rfl, i, u, hsp, hu⟩ | ⟨i, p, a, rfl, hf⟩)
    · exact .inl (by rw [(dust_taken hs ha).1])
    · obtain ⟨i2, u2, k, hsp2, _, _, h1, _, h2⟩ := C14_unDelegate_split hs
      obtain ⟨rfl, rfl⟩ := hsp.unique hsp2
      exact .inr (h2 hu)
    · obtain ⟨h1, h2⟩ := queue_back hr hs hf
      exact .inr (by omega)
  · rcases queue_moves hr hs with h | ⟨c, a, rfl⟩ | ⟨c, v, ps, rfl⟩ | ⟨c, o, rfl⟩ | ⟨i, p, a, rfl, hf, h, ha⟩
    · exact h
    · obtain ⟨i, u, hsp, h1, _⟩ := C14_delegate_split hs
      rcases Nat.eq_zero_or_pos i with h0 | h0
      · omega
      · have : toUndelegate w' = toUndelegate w - i := by omega
        exact absurd (this ▸ (hsp.clean h0).1) hw
    · obtain ⟨t, l, _, _, _, _, rfl, _⟩ := C02_unDelegate_pays_pro_rata hs
      obtain ⟨i, u, k, hsp, _, _, h1, _, h2⟩ := C14_unDelegate_split hs
      rcases Nat.eq_zero_or_pos u with h0 | h0
      · omega
      · exact absurd (.inr (h2 h0)) hw
    · exact absurd ⟨w', hs⟩ (C53_dust_stays hr hd c o)
    · exact absurd (.inr (by omega)) hw

/-- **C53, what takes it away**: a deposit of exactly the dust, less than one EGLD, is accepted from anybody while the contract
is active and the amount is worth an LS unit.  It empties the queue, and what it paid is there for the holders who wait. -/
theorem C53_way_out {w : World} {c : Addr} (hd : ¬ Whole (toUndelegate w)) (ha : w.st.state = .active)
    (ht : w.st.lsToken ≠ none) (hc : c ≠ w.self) (hf : toUndelegate w ≤ egldOf w c)
    (hl : 0 < lsFor (supply w) (reserve w) (toUndelegate w)) :
    ∃ w', step w (.delegate c (toUndelegate w)) = .ok w' ∧ toUndelegate w' = 0 ∧
      withdrawable w' = withdrawable w + toUndelegate w ∧ pendingEgld w' = pendingEgld w := by
  have h0 : 0 < toUndelegate w := Nat.pos_of_ne_zero fun h => hd (.inl h)
  have hsp : IsSplit (toUndelegate w) (toUndelegate w) (toUndelegate w) 0 :=
    ⟨by omega, Nat.le_refl _, fun _ => ⟨.inl (Nat.sub_self _), .inl rfl⟩, fun j hj _ _ _ => hj⟩
  obtain ⟨w', hs⟩ := C15_deposit_iff.2 ⟨ha, ht, hc, h0, hf, hl, fun i u h hu => by
    obtain ⟨_, rfl⟩ := h.unique hsp
    omega⟩
  obtain ⟨h1, h2, h3⟩ := dust_taken hs (.inl rfl)
  exact ⟨w', hs, h1, h2, by omega⟩

/-- `stuck` before the batch which asked for all of the 2 EGLD in the queue, and after it. -/
def unstuck : World := run active [
  .whitelist 1 1500000000000000000 21 41 (E 1000) (E 1500) 10 800, .deliver 0 (.ok 0 0),
  .whitelist 1 (E 1) 22 42 (E 1000) 0 20 900, .deliver 0 (.ok 0 0), .unDelegate 1 0 [⟨500, 0, E 2⟩]]

/-- Half an EGLD is left of the two; the hypotheses of `C53_origin` are met. -/
example : Reachable unstuck ∧ Whole (toUndelegate unstuck) ∧ toUndelegate unstuck = E 2 ∧
    works unstuck (.unDelegatePending 1 none) = true ∧
    toUndelegate (exec unstuck (.unDelegatePending 1 none)) = 500000000000000000 := by
  have h : toUndelegate unstuck = E 2 := by decide +kernel
  refine ⟨reachable_run active_reachable _, ?_, h, by decide +kernel, by decide +kernel⟩
  rw [h]; exact .inr (by decide)

/-- In `stuck` the half EGLD can be taken away by a deposit of half an EGLD, after which the holder is paid. -/
example : works stuck (.delegate 11 500000000000000000) = true ∧
    toUndelegate (exec stuck (.delegate 11 500000000000000000)) = 0 ∧
    works (exec stuck (.delegate 11 500000000000000000)) (.withdraw 1 0 [⟨501, 1, 500000000000000000⟩]) = true := by
  decide +kernel

/-- A check of `LeavesSome` along a run. -/
def leavingOps (w : World) : List Op → Bool
  | [] => true
  | op :: ops =>
    (match op with
      | .unDelegatePending _ o => decide (batchAsked (toUndelegate w) o ≠ toUndelegate w)
      | _ => true) && leavingOps (exec w op) ops

/-- As `unstuck`, but with a batch of 1 of the 2 EGLD. -/
def sparing : List Op := [
  .registerLsToken 1 0, .issued 0 (some 500), .registerUnstakeToken 1 0, .issued 0 (some 501), .owner 1 .stateActive,
  .setScoringConfig 1 ScoringConfig.default,
  .whitelist 1 (E 3) 21 41 (E 1000) (E 1500) 10 800, .deliver 0 (.ok 0 0),
  .whitelist 1 (E 1) 22 42 (E 1000) 0 20 900, .deliver 0 (.ok 0 0), .unDelegate 1 0 [⟨500, 0, E 2⟩],
  .unDelegatePending 1 (some (E 1)), .deliver 0 (.ok 0 0)]

/-- The queue keeps the other EGLD. -/
example : ReachableBy LeavesSome (run fresh sparing) ∧ toUndelegate (run fresh sparing) = E 1 ∧ unbonding (run fresh sparing) = E 1 := by
  refine ⟨⟨fresh, fresh_isInit, trace_of_run leavingOps (fun w op ops h => ?_) _ fresh (by decide +kernel)⟩,
    by decide +kernel, by decide +kernel⟩
  simp only [leavingOps, Bool.and_eq_true] at h
  refine ⟨h.2, fun w' hw c o hop => ?_⟩
  subst hop
  exact of_decide_eq_true h.1

end LS
