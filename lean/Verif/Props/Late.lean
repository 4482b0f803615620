import Verif.Proofs.LateStep
import Verif.Props.Positions

/-! Only elapsed time counts: C120. -/

namespace LS

open Spec Demo

/-- **C120.** With room for the epochs before and after it: the transaction some epochs later, in the world as it is but some epochs later,
fails with the same error or has the same result some epochs later. -/
theorem C120_later {k : UInt64} {w : World} (op : Op) (hw : Roomy k w) (hx : Roomy k (exec w op)) :
    step (lateWorld k w) (lateOp k op) = (step w op).map (lateWorld k) := by
  have he : ∀ e, op = .advance e → w.epoch ≤ e → fits k e := by
    rintro e rfl hle
    have : exec w (.advance e) = { w with epoch := e } := by
      simp only [exec, step, advance, req, hle, if_true]
      rfl
    rw [this] at hx
    exact hx.now
  obtain ⟨h1, h2⟩ := alike_outcome (late_step hw op he)
  cases hs : step w op with
  | ok w' =>
    obtain ⟨v, hv, rfl⟩ := h1 w' hs
    exact hv
  | error e => exact h2 e hs

/-- **C120.** The same over any history with room for its epochs. -/
theorem C120_history {k : UInt64} (ops : List Op) (w : World) (h : ∀ n, Roomy k (run w (ops.take n))) :
    run (lateWorld k w) (ops.map (lateOp k)) = lateWorld k (run w ops) := by
  induction ops generalizing w with
  | nil => rfl
  | cons op ops ih =>
    have hs : exec (lateWorld k w) (lateOp k op) = lateWorld k (exec w op) := by
      unfold exec
      rw [C120_later (w := w) op (h 0) (h 1)]
      cases step w op <;> rfl
    show run (exec (lateWorld k w) (lateOp k op)) (ops.map (lateOp k)) = _
    rw [hs]
    exact ih _ fun n => h (n + 1)

/-- The time stays below `T`, and the wait of a redemption is set to at most `P`. -/
def Spec.soon (T P : Nat) : Op → Prop
  | .advance e => e.toNat ≤ T
  | .owner _ (.unbondPeriod p) => p.toNat ≤ P
  | _ => True

/-- All epochs are at most `T`, the wait is at most `P`, and unstake tokens can be exchanged at `T + P` or before. -/
structure Within (T P : Nat) (w : World) : Prop where
  clock : w.epoch.toNat ≤ T
  period : w.st.unbondPeriod.toNat ≤ P
  tokens : ∀ n a, w.attrs.get none n = some a → a.unstakeEpoch.toNat ≤ T ∧ a.unbondEpoch.toNat ≤ T + P

theorem within_roomy {T P : Nat} {k : UInt64} (hk : T + P + k.toNat < 2 ^ 64) {w : World} (h : Within T P w) : Roomy k w := by
  refine ⟨?_, fun n a ha => ?_⟩
  · have := h.clock
    unfold fits; omega
  · have := h.tokens n a ha
    unfold fits; omega

private theorem within_unDelegate {T P : Nat} (hT : T + P < 2 ^ 64) {w w' : World} (h : Within T P w) {c : Addr} {v : Nat}
    {ps : List Payment} (hs : unDelegate w c v ps = .ok w') : Within T P w' := by
  obtain ⟨-, -, -, _, _, m0, _, m2, _, _, _, w1, w2, -, -, -, -, -, -, -, -, -, -, -, hw1, hw2, rfl⟩ := unDelegate_ok hs
  have h1 : Within T P w1 := by
    rcases hw1 with ⟨-, rfl⟩ | ⟨-, m, -, rfl⟩ <;> exact ⟨h.clock, h.period, h.tokens⟩
  have hnew : ∀ n a, (w1.attrs.set (w1.lastNonce + 1) (some ⟨w.epoch, w.epoch + w.st.unbondPeriod⟩)).get none n = some a →
      a.unstakeEpoch.toNat ≤ T ∧ a.unbondEpoch.toNat ≤ T + P := by
    intro n a ha
    rw [Map.get_set] at ha
    split at ha
    · have hc := h.clock
      have hp := h.period
      cases ha
      refine ⟨hc, ?_⟩
      rw [UInt64.toNat_add, Nat.mod_eq_of_lt (by omega)]
      omega
    · exact h1.tokens n a ha
  have h2 : Within T P w2 := by
    rcases hw2 with ⟨-, rfl⟩ | ⟨-, -, -, w3, n, m, hM, -, rfl⟩
    · exact h1
    · cases hM with
      | topUp n hn h0 hb => exact ⟨h1.clock, h1.period, h1.tokens⟩
      | fresh h0 hc => exact ⟨h1.clock, h1.period, hnew⟩
      | freshClean a' h0 hl ha hlt hb => exact ⟨h1.clock, h1.period, hnew⟩
  exact ⟨h2.clock, h2.period, h2.tokens⟩

private theorem within_step {T P : Nat} (hT : T + P < 2 ^ 64) {w w' : World} (hr : Reachable w) (h : Within T P w) {op : Op}
    (ho : soon T P op) (hs : step w op = .ok w') : Within T P w' := by
  have key : (∃ c v ps, op = .unDelegate c v ps) ∨ (∃ e, op = .advance e) ∨ (∃ c p, op = .owner c (.unbondPeriod p)) ∨
      (Part.clock ∉ touched w op ∧ Part.unbondPeriod ∉ touched w op ∧ ∀ n, Part.attributes n ∉ touched w op) := by
    cases op
    case unDelegate c v ps => exact .inl ⟨_, _, _, rfl⟩
    case advance e => exact .inr (.inl ⟨_, rfl⟩)
    case owner c cmd =>
      cases cmd
      case unbondPeriod p => exact .inr (.inr (.inl ⟨_, _, rfl⟩))
      all_goals exact .inr (.inr (.inr (by simp [touched, settingOf])))
    case deliver i o =>
      refine .inr (.inr (.inr ?_))
      simp only [touched]
      split
      · next f _ => cases f <;> cases o <;> simp [callbackParts] <;> split <;> simp
      · simp
    case issued i o =>
      refine .inr (.inr (.inr ?_))
      simp only [touched]
      split
      · split <;> simp
      · split <;> simp
      · simp
    all_goals exact .inr (.inr (.inr (by simp [touched])))
  rcases key with ⟨c, v, ps, rfl⟩ | ⟨e, rfl⟩ | ⟨c, p, rfl⟩ | ⟨k1, k2, k3⟩
  · exact within_unDelegate hT h hs
  · simp only [step, advance, bind_ok, req_ok, exists_const, Except.ok.injEq] at hs
    obtain ⟨-, rfl⟩ := hs
    exact ⟨ho, h.period, h.tokens⟩
  · simp only [step, ownerCmd, applyOwnerCmd, bind_ok, Except.ok.injEq] at hs
    obtain ⟨_, -, _, -, _, rfl, rfl⟩ := hs
    exact ⟨h.clock, ho, h.tokens⟩
  · have e1 : w'.epoch = w.epoch := parts_step hr hs _ k1
    have e2 : w'.st.unbondPeriod = w.st.unbondPeriod := parts_step hr hs _ k2
    have e3 : ∀ n, w'.attrs.get none n = w.attrs.get none n := fun n => parts_step hr hs _ (k3 n)
    exact ⟨e1 ▸ h.clock, e2 ▸ h.period, fun n a ha => h.tokens n a (e3 n ▸ ha)⟩

private theorem within_run {T P : Nat} (hT : T + P < 2 ^ 64) (ops : List Op) : ∀ {w : World}, Reachable w → Within T P w →
    (∀ op ∈ ops, soon T P op) → Within T P (run w ops) := by
  induction ops with
  | nil => exact fun _ h _ => h
  | cons op ops ih =>
    intro w hr h ho
    refine ih (reachable_run hr [op]) ?_ fun op hop => ho op (List.mem_cons_of_mem _ hop)
    show Within T P (exec w op)
    unfold exec
    cases hs : step w op with
    | ok w' => exact within_step hT hr h (ho op (List.mem_cons_self ..)) hs
    | error e => exact h

private theorem late_init {k : UInt64} {w : World} (hw : IsInit w) : IsInit (lateWorld k w) := by
  obtain ⟨self, owner, contracts, epoch, funds, acc, fees, rpe, mr, ms, ma, ub, e⟩ := hw
  refine ⟨self, owner, contracts, epoch + k, funds, acc, fees, rpe, mr, ms, ma, ub, ?_⟩
  unfold initWorld at e ⊢
  by_cases h1 : 1 ≤ ms
  · by_cases h2 : 1 ≤ ma
    · simp only [req, h1, h2, if_true] at e ⊢
      cases e
      rfl
    · simp only [req, h1, h2, if_true, if_false] at e
      cases e
  · simp only [req, h1, if_false] at e
    cases e

/-- **C120.** Deployed some epochs later and used in the same way, the contract does the same some epochs later: for any history in which
the time stays below some `T` and the wait of redemptions below some `P`, when `T + P` that much later is an epoch. -/
theorem C120_deployed {T P : Nat} {k : UInt64} (hk : T + P + k.toNat < 2 ^ 64) {w : World} (hw : IsInit w)
    (he : w.epoch.toNat ≤ T) (hp : w.st.unbondPeriod.toNat ≤ P) (ops : List Op) (ho : ∀ op ∈ ops, soon T P op) :
    IsInit (lateWorld k w) ∧ run (lateWorld k w) (ops.map (lateOp k)) = lateWorld k (run w ops) := by
  refine ⟨late_init hw, C120_history ops w fun n => within_roomy hk ?_⟩
  refine within_run (by omega) _ (.init hw) ⟨he, hp, fun n a ha => ?_⟩ fun op hop => ho op (List.mem_of_mem_take hop)
  obtain ⟨self, owner, contracts, epoch, funds, acc, fees, rpe, mr, ms, ma, ub, e⟩ := hw
  have : w.attrs = [] := by
    unfold initWorld at e
    by_cases h1 : 1 ≤ ms
    · by_cases h2 : 1 ≤ ma
      · simp only [req, h1, h2, if_true] at e
        cases e
        rfl
      · simp only [req, h1, h2, if_true, if_false] at e
        cases e
    · simp only [req, h1, if_false] at e
      cases e
  rw [this] at ha
  cases ha

/-- The parts of the state in which epochs are written. -/
def Spec.dated : Part → Bool
  | .clock | .registry _ | .attributes _ | .events => true
  | _ => false

/-- **C120.** In the end all is the same that is not an epoch: what everybody has, what the contract has and owes, the providers, the calls
on their way and the settings. -/
theorem C120_same {T P : Nat} {k : UInt64} (hk : T + P + k.toNat < 2 ^ 64) {w : World} (hw : IsInit w)
    (he : w.epoch.toNat ≤ T) (hp : w.st.unbondPeriod.toNat ≤ P) (ops : List Op) (ho : ∀ op ∈ ops, soon T P op) (x : Part)
    (hx : dated x = false) : Same (run w ops) (run (lateWorld k w) (ops.map (lateOp k))) x := by
  rw [(C120_deployed hk hw he hp ops ho).2]
  cases x <;> first | exact Bool.noConfusion hx | exact rfl | exact ⟨rfl, rfl⟩

/-- **C120.** And every unstake token can be exchanged that many epochs later. -/
theorem C120_maturity {T P : Nat} {k : UInt64} (hk : T + P + k.toNat < 2 ^ 64) {w : World} (hw : IsInit w)
    (he : w.epoch.toNat ≤ T) (hp : w.st.unbondPeriod.toNat ≤ P) (ops : List Op) (ho : ∀ op ∈ ops, soon T P op) (n : Nat) :
    maturityOf (run (lateWorld k w) (ops.map (lateOp k))) n = (maturityOf (run w ops) n).map (· + k) := by
  rw [(C120_deployed hk hw he hp ops ho).2]
  unfold maturityOf
  have : (lateWorld k (run w ops)).attrs.get none n = ((run w ops).attrs.get none n).map (lateAttrs k) := late_attrs_get _ _
  rw [this]
  cases (run w ops).attrs.get none n <;> rfl

instance (T P : Nat) (op : Op) : Decidable (soon T P op) := by unfold soon; split <;> infer_instance

/-- The busy history, with a withdrawal at the end, on a contract deployed at epoch 0 or at epoch 1500: the same happens at epoch 60 or
1560, and the unstake tokens of nonce 1, which can be exchanged from epoch 10 or 1510 on, are paid out. -/
def busyEnd : List Op := busy ++ [.withdraw 11 0 [⟨501, 1, E 5⟩]]

example : IsInit fresh ∧ fresh.epoch.toNat ≤ 60 ∧ fresh.st.unbondPeriod.toNat ≤ 10 ∧ (∀ op ∈ busyEnd, soon 60 10 op) ∧
    60 + 10 + (1500 : UInt64).toNat < 2 ^ 64 ∧
    (busyEnd.map (lateOp 1500)).contains (.advance 1560) = true ∧
    maturityOf (run fresh busyEnd) 1 = some 10 ∧ maturityOf (run (lateWorld 1500 fresh) (busyEnd.map (lateOp 1500))) 1 = some 1510 ∧
    unstakeOf (run fresh busyEnd) 1 11 < unstakeOf (run fresh busy) 1 11 ∧
    egldOf (run (lateWorld 1500 fresh) (busyEnd.map (lateOp 1500))) 11 = egldOf (run fresh busyEnd) 11 :=
  ⟨fresh_isInit, by decide, by decide, by decide +kernel, by decide, by decide +kernel, by decide +kernel, by decide +kernel,
    by decide +kernel, by decide +kernel⟩

/-- Without room it is not so: 50 epochs before the last one, unstake tokens that have to wait 60 epochs can be exchanged at once, because
the addition of epochs goes round. -/
example : let w := run redeemed [.owner 1 (.unbondPeriod 60), .unDelegate 12 0 [⟨500, 0, E 5⟩], .delegate 13 (E 40)]
    let k : UInt64 := 18446744073709551515
    Reachable w ∧ ¬Roomy k w ∧ works w (.withdraw 12 0 [⟨501, 2, E 1⟩]) = false ∧
    works (lateWorld k w) (.withdraw 12 0 [⟨501, 2, E 1⟩]) = true := by
  refine ⟨reachable_run redeemed_reachable _, fun h => ?_, by decide +kernel, by decide +kernel⟩
  have := (h.tokens 2 ⟨50, 110⟩ (by decide +kernel)).2
  revert this
  unfold fits
  decide

end LS
