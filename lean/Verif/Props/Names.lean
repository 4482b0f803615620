import Verif.Proofs.NamesStep
import Verif.Props.Late

/-! Token identifiers are only names: C123. -/

namespace LS

open Spec Demo

/-- **C123.** With other identifiers, different ones for different tokens: the transaction fails with the same error or has the same
result with the other identifiers. -/
theorem C123_renamed {f : TokenId → TokenId} (hf : Function.Injective f) (w : World) (op : Op) :
    step (tokWorld f w) (tokOp f op) = (step w op).map (tokWorld f) := by
  obtain ⟨h1, h2⟩ := alike_outcome (tok_step hf w op)
  cases hs : step w op with
  | ok w' =>
    obtain ⟨v, hv, rfl⟩ := h1 w' hs
    exact hv
  | error e => exact h2 e hs

/-- **C123.** The same over any history. -/
theorem C123_history {f : TokenId → TokenId} (hf : Function.Injective f) (ops : List Op) (w : World) :
    run (tokWorld f w) (ops.map (tokOp f)) = tokWorld f (run w ops) := by
  induction ops generalizing w with
  | nil => rfl
  | cons op ops ih =>
    have hs : exec (tokWorld f w) (tokOp f op) = tokWorld f (exec w op) := by
      unfold exec
      rw [C123_renamed hf w op]
      cases step w op <;> rfl
    show run (exec (tokWorld f w) (tokOp f op)) (ops.map (tokOp f)) = _
    rw [hs]
    exact ih _

private theorem tok_init (f : TokenId → TokenId) {w : World} (hw : IsInit w) : tokWorld f w = w := by
  obtain ⟨self, owner, contracts, epoch, funds, acc, fees, rpe, mr, ms, ma, ub, e⟩ := hw
  unfold initWorld at e
  by_cases h1 : 1 ≤ ms
  · by_cases h2 : 1 ≤ ma
    · simp only [req, h1, h2, if_true] at e
      cases e
      rfl
    · simp only [req, h1, h2, if_true, if_false] at e
      cases e
  · simp only [req, h1, if_false] at e
    cases e

/-- **C123.** The same deployment, when the protocol answers the issues with other identifiers and payments name the tokens accordingly,
ends in the same world with the other identifiers. -/
theorem C123_deployed {f : TokenId → TokenId} (hf : Function.Injective f) {w : World} (hw : IsInit w) (ops : List Op) :
    run w (ops.map (tokOp f)) = tokWorld f (run w ops) := by
  rw [← C123_history hf ops w, tok_init f hw]

/-- The parts of the state in which identifiers are written. -/
def Spec.named : Part → Bool
  | .lsSlot | .unstakeSlot | .events => true
  | _ => false

/-- **C123.** In the end all is the same that is not an identifier. -/
theorem C123_same {f : TokenId → TokenId} (hf : Function.Injective f) {w : World} (hw : IsInit w) (ops : List Op) (x : Part)
    (hx : named x = false) : Same (run w ops) (run w (ops.map (tokOp f))) x := by
  rw [C123_deployed hf hw ops]
  cases x <;> first | exact Bool.noConfusion hx | exact rfl | exact ⟨rfl, rfl⟩

/-- **C123.** And the two slots hold the other identifiers. -/
theorem C123_slots {f : TokenId → TokenId} (hf : Function.Injective f) {w : World} (hw : IsInit w) (ops : List Op) :
    (run w (ops.map (tokOp f))).st.lsToken = (run w ops).st.lsToken.map f ∧
    (run w (ops.map (tokOp f))).st.unstakeToken = (run w ops).st.unstakeToken.map f := by
  rw [C123_deployed hf hw ops]
  exact ⟨rfl, rfl⟩

/-- The two identifiers exchanged. -/
def swapped (t : TokenId) : TokenId := if t = 500 then 501 else if t = 501 then 500 else t

theorem swapped_injective : Function.Injective swapped := by
  have h : Function.Involutive swapped := by
    intro t
    by_cases h1 : t = 500
    · subst h1; rfl
    · by_cases h2 : t = 501
      · subst h2; rfl
      · simp [swapped, h1, h2]
  exact h.injective

/-- The history from the deployment to a payout, with the two identifiers exchanged: the same happens, with the liquid token called 501. -/
example : IsInit fresh ∧ (busyEnd.map (tokOp swapped)).contains (.withdraw 11 0 [⟨500, 1, E 5⟩]) = true ∧
    (run fresh (busyEnd.map (tokOp swapped))).st.lsToken = some 501 ∧
    (run fresh (busyEnd.map (tokOp swapped))).st.unstakeToken = some 500 ∧
    unstakeOf (run fresh busyEnd) 1 11 < unstakeOf (run fresh busy) 1 11 ∧
    egldOf (run fresh (busyEnd.map (tokOp swapped))) 11 = egldOf (run fresh busyEnd) 11 :=
  ⟨fresh_isInit, by decide +kernel, by decide +kernel, by decide +kernel, by decide +kernel, by decide +kernel⟩

/-- Different tokens need different identifiers: when token 999 is renamed to the liquid token, a payment of it redeems. -/
example : let f : TokenId → TokenId := fun t => if t = 999 then 500 else t
    Reachable settled ∧ tokWorld f settled = settled ∧ works settled (.unDelegate 12 0 [⟨999, 0, E 5⟩]) = false ∧
    works (tokWorld f settled) (tokOp f (.unDelegate 12 0 [⟨999, 0, E 5⟩])) = true :=
  ⟨settled_reachable, by decide +kernel, by decide +kernel, by decide +kernel⟩

end LS
