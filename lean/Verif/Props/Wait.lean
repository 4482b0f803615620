import Verif.Props.Parts
import Verif.Props.Rush

/-! C115: matured unstake tokens and the EGLD to pay them. -/

namespace LS
open Spec Demo

/-- Nobody deposits, and no manager collects from a provider.  Anything else may happen, time passing included. -/
def Spec.Unattended (_ : World) (op : Op) (_ : World) : Prop :=
  (∀ c v, op ≠ .delegate c v) ∧ ∀ c p, op ≠ .withdrawPending c p

/-- EGLD for withdrawals coming in with a transaction: a deposit, or what a provider pays back. -/
def Spec.comingIn (w : World) : Op → Nat
  | .delegate _ v => v
  | .deliver i (.ok g _) => match w.flights[i]? with
    | some (.withdraw _) => g
    | _ => 0
  | _ => 0

/-- EGLD that the caller of `withdraw` gets. -/
def Spec.cashed (w : World) (op : Op) (w' : World) : Nat := match op with
  | .withdraw c _ _ => egldOf w' c - egldOf w c
  | _ => 0

/-- A history with the EGLD that came in for withdrawals and the EGLD paid out by them. -/
inductive Spec.Cash (w : World) : World → Nat → Nat → Prop
  | nil : Cash w w 0 0
  | snoc {w1 w2 : World} {i o : Nat} (op : Op) : Cash w w1 i o → step w1 op = .ok w2 →
      Cash w w2 (i + comingIn w1 op) (o + cashed w1 op w2)

/-! ### Proofs -/

private theorem withdraw_needs {w w' : World} {c : Addr} {v : Nat} {ps : List Payment} (hr : Reachable w) (hps : ps ≠ [])
    (hs : step w (.withdraw c v ps) = .ok w') : 0 < withdrawable w := by
  obtain ⟨_, _, _, uid, t, m0, m, E, N, _, _, _, h, _⟩ := withdraw_ok (reachable_regInv hr).tok hs
  exact h hps

private theorem no_collecting {w w' : World} {op : Op} (hr : Reachable w) (hs : step w op = .ok w') (hu : Unattended w op w')
    (hn : ∀ p, .withdraw p ∉ w.flights) : ∀ p, .withdraw p ∉ w'.flights := by
  intro p hp
  have hf := fstep (reachable_regInv hr) hs
  generalize hfl : w'.flights = fl at hf hp
  generalize w'.dead = dd at hf
  cases hf with
  | same => exact hn p hp
  | delegated c o sels hop h => simp [hn p] at hp
  | undelegated c o sels hop h => simp [hn p] at hp
  | withdrawn c q hop => exact hu.2 c q hop
  | claimed c hop => simp [hn p] at hp
  | whitelisted c v q ad ts cap n apy hop hv hc => simp [hn p] at hp
  | settled i o f w'' hop hf hcb => exact hn p (List.mem_of_mem_eraseIdx hp)
  | died i o f e hop hf hcb => exact hn p (List.mem_of_mem_eraseIdx hp)
  | starved i o f hop hf => exact hn p (List.mem_of_mem_eraseIdx hp)

/-- The operations that touch the withdrawable EGLD. -/
private theorem purse_step {w w' : World} {op : Op} (hr : Reachable w) (hs : step w op = .ok w') :
    withdrawable w' + cashed w op w' ≤ withdrawable w + comingIn w op := by
  have same : Part.withdrawable ∉ touched w op → cashed w op w' = 0 → withdrawable w' + cashed w op w' ≤ withdrawable w + comingIn w op := by
    intro h h0
    have h1 : withdrawable w' = withdrawable w := C64_only_its_parts hr hs .withdrawable h
    omega
  cases op with
  | delegate c v =>
    obtain ⟨_, _, _, m, t, p, e, l, _, _, hpe, _, _, _, rfl⟩ := delegate_ok.1 hs
    have := getActionAmount_sum hpe
    show w.st.r.withdrawn + p + 0 ≤ w.st.r.withdrawn + v
    omega
  | withdraw c v ps =>
    obtain ⟨hc, hv, _, uid, t, m0, m, E, N, _, _, _, _, h0, h1, rfl, _, _, _, _, rfl⟩ := withdraw_ok (reachable_regInv hr).tok hs
    show w.st.r.withdrawn - min (amtSum ps) w.st.r.withdrawn +
      ((credit m c (min (amtSum ps) w.st.r.withdrawn)).get 0 c - w.egld.get 0 c) ≤ w.st.r.withdrawn + 0
    rw [get_credit, if_pos rfl, get_debit h1, if_neg (Ne.symm hc), get_credit, if_neg (Ne.symm hc), get_debit h0, if_pos rfl]
    omega
  | deliver i o =>
    obtain ⟨f, hf, hcb⟩ := deliver_ok hs
    cases f with
    | withdraw p =>
      cases o with
      | err => exact same (by simp only [touched, hf, callbackParts]; simp) rfl
      | ok g r =>
        have hin : comingIn w (.deliver i (.ok g r)) = g := by unfold comingIn; simp only [hf]
        rw [hin]
        rcases hcb with hcb | ⟨_, rfl⟩
        · rcases withdrawTokensCb_ok.1 hcb with ⟨_, rfl⟩ | ⟨_, t, d, _, _, _, _, rfl⟩
          · exact Nat.le_add_right _ _
          · exact Nat.le_refl _
        · exact Nat.le_add_right _ _
    | delegate p a => exact same (by cases o <;> simp [touched, hf, callbackParts]) rfl
    | undelegate p a => exact same (by cases o <;> simp [touched, hf, callbackParts]) rfl
    | claim ps => exact same (by cases o <;> simp [touched, hf, callbackParts]) rfl
    | whitelist p a u =>
      refine same ?_ rfl
      cases o with
      | ok g r => simp [touched, hf, callbackParts]
      | err => simp only [touched, hf, callbackParts]; split <;> simp
  | unDelegate c v ps => exact same (by simp only [touched, positionParts]; split <;> simp) rfl
  | issued i o =>
    refine same ?_ rfl
    simp only [touched]
    split
    · split <;> simp
    · split <;> simp
    · simp
  | owner c cmd => exact same (by cases cmd <;> simp [touched, settingOf]) rfl
  | _ => exact same (by simp [touched]) rfl

/-! ### C115 -/

/-- **C115**, waiting: with nothing withdrawable and nothing being collected, nothing becomes withdrawable, and every withdrawal is
refused, for as long as nobody deposits and no manager collects, however old the unstake tokens are and whatever else happens. -/
theorem C115_waits {w w' : World} (hr : Reachable w) (h0 : withdrawable w = 0) (hn : ∀ p, .withdraw p ∉ w.flights)
    (ht : Trace Unattended w w') :
    withdrawable w' = 0 ∧ ∀ c v ps, ps ≠ [] → ¬ ∃ w'', step w' (.withdraw c v ps) = .ok w'' := by
  have key : Reachable w' ∧ withdrawable w' = 0 ∧ ∀ p, .withdraw p ∉ w'.flights := by
    induction ht with
    | nil => exact ⟨hr, h0, hn⟩
    | @snoc w1 w2 op _ hs hu ih =>
      obtain ⟨h1, h2, h3⟩ := ih
      refine ⟨.step op h1 hs, ?_, no_collecting h1 hs hu h3⟩
      have hp := purse_step h1 hs
      have hin : comingIn w1 op = 0 := by
        unfold comingIn
        split
        · exact absurd rfl (hu.1 _ _)
        · split
          · next hf => exact absurd (List.mem_of_getElem? hf) (h3 _)
          · rfl
        · rfl
      omega
  exact ⟨key.2.1, fun c v ps hps ⟨w'', hs⟩ => by have := withdraw_needs key.1 hps hs; omega⟩

/-- **C115**, in all: over every history withdrawals pay out no more than was withdrawable at the start and has come in since, by deposits
and from providers. -/
theorem C115_in_all {w w' : World} {i o : Nat} (hr : Reachable w) (h : Cash w w' i o) : withdrawable w' + o ≤ withdrawable w + i := by
  have key : Reachable w' ∧ withdrawable w' + o ≤ withdrawable w + i := by
    induction h with
    | nil => exact ⟨hr, Nat.le_refl _⟩
    | snoc op _ hs ih =>
      obtain ⟨h1, h2⟩ := ih
      have := purse_step h1 hs
      exact ⟨.step op h1 hs, by omega⟩
  exact key.2

/-- A redemption of 20 LS tokens at epoch 50, after which nobody did anything up to epoch 300. -/
def unpaid : World := run fresh (crowdOps.take 17 ++ [.advance 300])

theorem unpaid_honest : ReachableBy HonestManager unpaid := reachableBy_honest (by decide +kernel)

/-- **C115 is false of the code**: user 11 redeemed 20 LS tokens, more than two hundred epochs have passed since their unstake tokens matured,
the contract is active, and their withdrawal is refused; and it stays refused however much longer they wait. -/
theorem C115_false : ∃ w, ReachableBy HonestManager w ∧ w.st.state = .active ∧ unstakeOf w 1 11 = E 20 ∧
    (∃ e, maturityOf w 1 = some e ∧ e.toNat + 200 ≤ w.epoch.toNat) ∧
    ∀ w', Trace Unattended w w' → ¬ ∃ w'', step w' (.withdraw 11 0 [⟨501, 1, E 1⟩]) = .ok w'' :=
  ⟨unpaid, unpaid_honest, by decide +kernel, by decide +kernel, ⟨60, by decide +kernel, by decide +kernel⟩, fun _ ht =>
    (C115_waits (reachableBy_reachable unpaid_honest) (by decide +kernel)
      (by rw [show unpaid.flights = [] by decide +kernel]; simp) ht).2 11 0 _ (by simp)⟩

/-- **C115**, partial: a matured unstake token is paid in full, by an active contract, when that much is withdrawable.  Missing: the EGLD
has to be there (`C115_false`, `C115_waits`). -/
theorem C115_partial {w : World} {c : Addr} {ps : List Payment} (hr : ReachableBy HonestManager w) (ha : w.st.state = .active)
    (hl : w.st.lsToken ≠ none) (hu : w.st.unstakeToken ≠ none) (hc : c ≠ w.self)
    (hm : ∀ p ∈ ps, w.st.unstakeToken = some p.token ∧ 0 < p.amount ∧ ∃ e, maturityOf w p.nonce = some e ∧ e ≤ w.epoch)
    (hh : ∀ n, paidWith n ps ≤ unstakeOf w n c) (hw : totalPaid ps ≤ withdrawable w) :
    ∃ w', step w (.withdraw c 0 ps) = .ok w' ∧ egldOf w' c = egldOf w c + totalPaid ps := by
  obtain ⟨w', hs⟩ := (C50_withdraw_iff hr).2 ⟨ha, hl, hu, hc, hm, hh, fun ps1 p ps2 e => by
    have h1 := (hm p (by rw [e]; simp)).2.1
    have h2 : totalPaid ps = totalPaid ps1 + (p.amount + totalPaid ps2) := by rw [e, totalPaid_append]; rfl
    omega⟩
  obtain ⟨_, x, hx, _, _, _, h, _⟩ := C11_withdraw_one_to_one (reachableBy_reachable hr) hs
  exact ⟨w', hs, by omega⟩

/-- Non-vacuity of `C115_waits`: hundreds of epochs and a redemption later. -/
example : Reachable unpaid ∧ withdrawable unpaid = 0 ∧ unpaid.flights = [] ∧
    ∃ w', Trace Unattended unpaid w' ∧ w'.epoch = 900 ∧ unstakeOf w' 1 11 = unstakeOf unpaid 1 11 ∧ supply w' < supply unpaid :=
  ⟨reachableBy_reachable unpaid_honest, by decide +kernel, by decide +kernel,
    exec (exec unpaid (.unDelegate 12 0 [⟨500, 0, E 10⟩])) (.advance 900),
    .snoc (.advance 900) (.snoc (.unDelegate 12 0 [⟨500, 0, E 10⟩]) .nil (step_exec (by decide +kernel)) ⟨nofun, nofun⟩)
      (step_exec (by decide +kernel)) ⟨nofun, nofun⟩, by decide +kernel, by decide +kernel, by decide +kernel⟩

/-- Non-vacuity of `C115_in_all`: five EGLD come in with a deposit, and eight are paid out. -/
example : Reachable crowd ∧ ∃ w' i o, Cash crowd w' i o ∧ i = E 5 ∧ o = E 8 :=
  ⟨reachableBy_reachable crowd_honest, exec (exec crowd (.delegate 12 (E 5))) (.withdraw 11 0 [⟨501, 1, E 8⟩]), _, _,
    .snoc (.withdraw 11 0 [⟨501, 1, E 8⟩]) (.snoc (.delegate 12 (E 5)) .nil (step_exec (by decide +kernel))) (step_exec (by decide +kernel)),
    by decide +kernel, by decide +kernel⟩

/-- Non-vacuity of `C115_partial`. -/
example : ReachableBy HonestManager crowd ∧ crowd.st.state = .active ∧ totalPaid [⟨501, 1, E 4⟩, ⟨501, 1, E 2⟩] ≤ withdrawable crowd ∧
    (∃ e, maturityOf crowd 1 = some e ∧ e ≤ crowd.epoch) ∧ paidWith 1 [⟨501, 1, E 4⟩, ⟨501, 1, E 2⟩] ≤ unstakeOf crowd 1 11 :=
  ⟨crowd_honest, by decide +kernel, by decide +kernel, ⟨60, by decide +kernel, by decide +kernel⟩, by decide +kernel⟩

end LS
