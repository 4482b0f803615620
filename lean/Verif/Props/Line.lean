import Verif.Props.Withdraw
import Verif.Props.Parts
import Verif.Props.Live

/-! Redemptions and the time they wait: C113. -/

namespace LS
open Spec Demo

/-- A redemption by `c` that gives them unstake tokens of nonce `n`. -/
def Spec.RedeemsFor (w w' : World) (c : Addr) (n : Nat) : Prop :=
  (∃ v ps, step w (.unDelegate c v ps) = .ok w') ∧ unstakeOf w n c < unstakeOf w' n c

theorem epoch_later {w w' : World} (hr : Reachable w) (hl : Later w w') : w.epoch ≤ w'.epoch := by
  induction hl with
  | nil => exact UInt64.le_refl _
  | @snoc w1 w2 op ht hs _ ih =>
    have hr1 := reachable_trace hr ht
    exact UInt64.le_trans ih (nftInv_step op (reachable_nftInv hr1) (reachable_regInv hr1) hs).2.2.1

private theorem trace_chain {P} {w w1 w2 : World} (h1 : Trace P w w1) (h2 : Trace P w1 w2) : Trace P w w2 := by
  induction h2 with
  | nil => exact h1
  | snoc op _ hs hP ih => exact .snoc op ih hs hP

theorem period_kept {w w' : World} (ht : Trace (fun w _ w' => w.st.unbondPeriod ≤ w'.st.unbondPeriod) w w') :
    w.st.unbondPeriod ≤ w'.st.unbondPeriod := by
  induction ht with
  | nil => exact UInt64.le_refl _
  | snoc op ht hs hP ih => exact UInt64.le_trans ih hP

theorem period_same {w w' : World} (hr : Reachable w) (ht : Trace (fun _ op _ => ∀ c p, op ≠ .owner c (.unbondPeriod p)) w w') :
    w'.st.unbondPeriod = w.st.unbondPeriod := by
  induction ht with
  | nil => rfl
  | @snoc w1 w2 op ht hs hP ih =>
    refine Eq.trans (C64_only_its_parts (reachable_trace hr ht) hs .unbondPeriod ?_) ih
    cases op
    case owner c cmd =>
      cases cmd <;> simp only [touched, settingOf, List.mem_singleton, reduceCtorEq, not_false_eq_true]
      exact fun _ => hP _ _ rfl
    case unDelegate c v ps =>
      simp only [touched, positionParts]
      split <;> simp
    case deliver i o =>
      simp only [touched]
      split
      · next f _ => cases f <;> cases o <;> simp [callbackParts] <;> split <;> simp
      · simp
    case issued i o =>
      simp only [touched]
      split
      · split <;> simp
      · split <;> simp
      · simp
    all_goals simp [touched]

/-- **C113**, what does hold: as long as the period is not lowered, whoever redeems first has tokens that mature first, for all
times after. -/
theorem C113_in_order_partial {w1 w1' w2 w2' w3 : World} {a b : Addr} {n m : Nat} (hr : Reachable w1)
    (h1 : RedeemsFor w1 w1' a n) (ht : Trace (fun w _ w' => w.st.unbondPeriod ≤ w'.st.unbondPeriod) w1' w2)
    (h2 : RedeemsFor w2 w2' b m) (hfit : w2.epoch.toNat + w2.st.unbondPeriod.toNat < 2 ^ 64) (hl : Later w2' w3) :
    ∃ e f, maturityOf w3 n = some e ∧ maturityOf w3 m = some f ∧ e ≤ f := by
  obtain ⟨⟨v, ps, hs1⟩, hn⟩ := h1
  obtain ⟨⟨v', ps', hs2⟩, hm⟩ := h2
  have hr1 : Reachable w1' := .step _ hr hs1
  have hr2 := reachable_trace hr1 ht
  have hr2' : Reachable w2' := .step _ hr2 hs2
  have hlt : Later w1' w2 := trace_mono (fun _ _ _ _ => trivial) ht
  have hl1 : Later w1' w3 := trace_chain (.snoc _ hlt hs2 trivial) hl
  obtain ⟨e, he, he', _⟩ := C12_maturity_fixed hr hs1 hn hl1
  obtain ⟨f, hf, _, hf'⟩ := C12_maturity_fixed hr2 hs2 hm hl
  refine ⟨e, f, he, hf, ?_⟩
  have hp : w1.st.unbondPeriod ≤ w2.st.unbondPeriod := by
    have h0 : w1'.st.unbondPeriod = w1.st.unbondPeriod := by
      obtain ⟨r, E, L, N, F, A, n, ev, rfl⟩ := unDelegate_frame hs1; rfl
    rw [← h0]
    exact period_kept ht
  have hep : w1.epoch ≤ w2.epoch :=
    UInt64.le_trans (nftInv_step _ (reachable_nftInv hr) (reachable_regInv hr) hs1).2.2.1 (epoch_later hr1 hlt)
  rw [UInt64.le_iff_toNat_le] at hp hep ⊢
  rw [hf' hfit, he', UInt64.toNat_add, Nat.mod_eq_of_lt (by omega)]
  omega

/-- Account 11 redeems at epoch 50, … -/
private def redeemedFirst : World := exec settled (.unDelegate 11 0 [⟨500, 0, E 40⟩])
/-- … the owner may change the period, … -/
private def periodCut : World := exec redeemedFirst (.owner 1 (.unbondPeriod 5))
private def threeLater : World := exec redeemedFirst (.advance 53)

private theorem redeems_of {w : World} {c : Addr} {ps : List Payment} {n : Nat} (h : works w (.unDelegate c 0 ps) = true)
    (hn : unstakeOf w n c < unstakeOf (exec w (.unDelegate c 0 ps)) n c) : RedeemsFor w (exec w (.unDelegate c 0 ps)) c n :=
  ⟨⟨_, _, step_exec h⟩, hn⟩

/-- … and account 12 redeems. -/
example : Reachable settled ∧ RedeemsFor settled redeemedFirst 11 1 ∧
    Trace (fun w _ w' => w.st.unbondPeriod ≤ w'.st.unbondPeriod) redeemedFirst threeLater ∧
    RedeemsFor threeLater (exec threeLater (.unDelegate 12 0 [⟨500, 0, E 10⟩])) 12 2 :=
  ⟨settled_reachable, redeems_of (by decide +kernel) (by decide +kernel),
    .snoc _ .nil (step_exec (op := .advance 53) (by decide +kernel)) (by decide +kernel),
    redeems_of (by decide +kernel) (by decide +kernel)⟩

/-- **C113**, the time announced: unless the owner changes the period in between, a redemption waits for the period seen when it was
decided on, whatever else comes first. -/
theorem C113_as_announced_partial {w w1 w2 w3 : World} {c : Addr} {n : Nat} (hr : Reachable w)
    (ht : Trace (fun _ op _ => ∀ c p, op ≠ .owner c (.unbondPeriod p)) w w1) (h : RedeemsFor w1 w2 c n) (hl : Later w2 w3) :
    maturityOf w3 n = some (w1.epoch + w.st.unbondPeriod) := by
  obtain ⟨⟨v, ps, hs⟩, hn⟩ := h
  have hr1 := reachable_trace hr ht
  have hp := period_same hr ht
  obtain ⟨e, he, he', _⟩ := C12_maturity_fixed hr1 hs hn hl
  rw [he, he', hp]

/-- Decided on at epoch 50, sent after another redemption and three epochs later. -/
example : Reachable settled ∧ Trace (fun _ op _ => ∀ c p, op ≠ .owner c (.unbondPeriod p)) settled threeLater ∧
    RedeemsFor threeLater (exec threeLater (.unDelegate 12 0 [⟨500, 0, E 10⟩])) 12 2 :=
  ⟨settled_reachable,
    .snoc _ (.snoc _ .nil (step_exec (op := .unDelegate 11 0 [⟨500, 0, E 40⟩]) (by decide +kernel)) nofun)
      (step_exec (w := redeemedFirst) (op := .advance 53) (by decide +kernel)) nofun,
    redeems_of (by decide +kernel) (by decide +kernel)⟩

/-- **C113**, at the owner's pleasure: in front of every redemption the owner can set any period, the redemption is accepted all the
same, and its tokens mature when the owner chose, or at once. -/
theorem C113_delay {w w' : World} {c : Addr} {v : Nat} {ps : List Payment} {n : Nat} (hr : ReachableBy HonestManager w)
    (ho : w.owner ≠ w.self) (hs : step w (.unDelegate c v ps) = .ok w') (hn : unstakeOf w n c < unstakeOf w' n c) (k : UInt64) :
    ∃ w1 w2, step w (.owner w.owner (.unbondPeriod k)) = .ok w1 ∧ step w1 (.unDelegate c v ps) = .ok w2 ∧
      egldOf w2 c = egldOf w' c ∧ ∃ m, RedeemsFor w1 w2 c m ∧ unstakeOf w2 m c = unstakeOf w m c + (unstakeOf w' n c - unstakeOf w n c) ∧
        ∀ w3, Later w2 w3 → maturityOf w3 m = some (w.epoch + k) := by
  obtain ⟨t, l, _, _, _, ht, rfl, rfl, hc, _⟩ := C02_unDelegate_pays_pro_rata hs
  have h1 : step w (.owner w.owner (.unbondPeriod k)) = .ok { w with st := { w.st with unbondPeriod := k } } :=
    ownerCmd_ok.2 ⟨ho, rfl, _, rfl, rfl⟩
  obtain ⟨w0, h0, tr⟩ := hr
  have hr1 : ReachableBy HonestManager { w with st := { w.st with unbondPeriod := k } } := ⟨w0, h0, .snoc _ tr h1 trivial⟩
  have hr : ReachableBy HonestManager w := ⟨w0, h0, tr⟩
  obtain ⟨w2, h2⟩ := (C16_redemption_iff hr1 (t := t) (c := c) (l := l) ht).2 ((C16_redemption_iff hr ht).1 ⟨w', hs⟩)
  obtain ⟨i, u, n', hsp, hp, _⟩ := C14_unDelegate_split hs
  obtain ⟨i2, u2, m, hsp2, hp2, _⟩ := C14_unDelegate_split h2
  obtain ⟨rfl, rfl⟩ := hsp.unique hsp2
  obtain ⟨e1, e2, e3⟩ := hp
  obtain ⟨f1, f2, f3⟩ := hp2
  have hn' : n = n' := by
    by_contra hne
    have := e3 n hne
    omega
  subst hn'
  have hm : unstakeOf { w with st := { w.st with unbondPeriod := k } } m c < unstakeOf w2 m c := by omega
  refine ⟨_, w2, h1, h2, ?_, m, ⟨⟨_, _, h2⟩, hm⟩, ?_, fun w3 hl => ?_⟩
  · rw [e1, f1]; rfl
  · rw [f2, e2, Nat.add_sub_cancel_left]; rfl
  · obtain ⟨e, he, he', _⟩ := C12_maturity_fixed (reachableBy_reachable hr1) h2 hm hl
    rw [he, he']

example : ReachableBy HonestManager (run fresh busy) ∧ (run fresh busy).owner ≠ (run fresh busy).self ∧
    works (run fresh busy) (.unDelegate 11 0 [⟨500, 0, E 10⟩]) = true ∧
    unstakeOf (run fresh busy) 2 11 < unstakeOf (exec (run fresh busy) (.unDelegate 11 0 [⟨500, 0, E 10⟩])) 2 11 :=
  ⟨reachableBy_honest (by decide +kernel), by decide +kernel, by decide +kernel, by decide +kernel⟩

/-- **C113 is false of the code**: account 11 redeems, the owner lowers the period, account 12 redeems after, and its tokens mature
before those of account 11. -/
theorem C113_false : ∃ w1 w1' w2 w2' e f, Reachable w1 ∧ RedeemsFor w1 w1' 11 1 ∧ Later w1' w2 ∧ RedeemsFor w2 w2' 12 2 ∧
    w2.epoch.toNat + w2.st.unbondPeriod.toNat < 2 ^ 64 ∧ maturityOf w2' 1 = some e ∧ maturityOf w2' 2 = some f ∧ f < e :=
  ⟨settled, redeemedFirst, periodCut, exec periodCut (.unDelegate 12 0 [⟨500, 0, E 10⟩]), 60, 55, settled_reachable,
    redeems_of (by decide +kernel) (by decide +kernel),
    .snoc _ .nil (step_exec (op := .owner 1 (.unbondPeriod 5)) (by decide +kernel)) trivial,
    redeems_of (by decide +kernel) (by decide +kernel),
    by decide +kernel, by decide +kernel, by decide +kernel, by decide +kernel⟩

/-- Account 12 comes when the EGLD for account 11 has arrived, and the owner sets the period to nothing. -/
private def jumped : World := exec (exec ready (.owner 1 (.unbondPeriod 0))) (.unDelegate 12 0 [⟨500, 0, E 40⟩])

/-- **C113**, what it costs: the EGLD has come back and account 11 could be paid; the owner sets the period to nothing, account 12
redeems and takes it, and account 11 is refused. -/
theorem C113_jump : ∃ w w1 w2 w3 x, Reachable w ∧ works w (.withdraw 11 0 [⟨501, 1, x⟩]) = true ∧
    step w (.owner 1 (.unbondPeriod 0)) = .ok w1 ∧ step w1 (.unDelegate 12 0 [⟨500, 0, E 40⟩]) = .ok w2 ∧
    step w2 (.withdraw 12 0 [⟨501, 1, x⟩]) = .ok w3 ∧ egldOf w3 12 = egldOf w 12 + x ∧
    ¬ ∃ w4, step w3 (.withdraw 11 0 [⟨501, 1, x⟩]) = .ok w4 :=
  ⟨ready, exec ready (.owner 1 (.unbondPeriod 0)), jumped, exec jumped (.withdraw 12 0 [⟨501, 1, 41768421052631578947⟩]),
    41768421052631578947, ready_reachable, by decide +kernel, step_exec (by decide +kernel), step_exec (by decide +kernel),
    step_exec (by decide +kernel), by decide +kernel, fun h => absurd (works_iff.2 h) (by decide +kernel)⟩

end LS
