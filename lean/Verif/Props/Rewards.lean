import Mathlib.Algebra.Order.BigOperators.Group.Finset
import Mathlib.Algebra.BigOperators.Field
import Verif.Props.Accounting
import Verif.Proofs.Rewards

/-! Rewards reach the holders of LS tokens in proportion, and nothing else raises their value: C72. -/

namespace LS
open Spec Demo

/-- **C72**, one holder.  A transaction that credits `x` EGLD leaves the balance of every holder, and makes it worth its share of `x`
more, to within one unit of EGLD. -/
theorem C72_pro_rata {w w' : World} {op : Op} (hr : Reachable w) (hs : step w op = .ok w') (hS : 0 < supply w)
    (hx : 0 < creditedBy w op) (a : Addr) :
    lsOf w' a = lsOf w a ∧ supply w' = supply w ∧ reserve w' = reserve w + creditedBy w op ∧
    |(valueOf w' a : ℚ) - (valueOf w a : ℚ) - (lsOf w a : ℚ) * (creditedBy w op : ℚ) / (supply w : ℚ)| < 1 := by
  have hl : lsOf w' a = lsOf w a := by
    refine parts_step hr hs (.ls a) ?_
    cases op with
    | addRewards c v => simp [touched]
    | deliver i o =>
      cases o with
      | err => simp [creditedBy] at hx
      | ok g r =>
        simp only [creditedBy] at hx
        split at hx
        · rename_i ps hf; simp [touched, hf, callbackParts]
        · omega
    | _ => simp [creditedBy] at hx
  cases moved_step op hr hs with
  | deposit a h1 _ _ => omega
  | redeem l e h1 _ _ _ => omega
  | credit h1 h2 =>
    refine ⟨hl, h1, h2, ?_⟩
    have hg := gain_near (lsOf w a) (reserve w) (supply w) (creditedBy w op) hS
    rw [show valueOf w' a = lsOf w a * (reserve w + creditedBy w op) / supply w by rw [valueOf, hl, h1, h2]; rfl,
      show valueOf w a = lsOf w a * reserve w / supply w from rfl, abs_lt]
    constructor <;> linarith [hg.1, hg.2]

/-- **C72**, all holders.  Together they gain `x`, less the part of the LS tokens that have been burned by their holders, to within one
unit of EGLD for each. -/
theorem C72_all_of_it {w w' : World} {op : Op} (hr : Reachable w) (hs : step w op = .ok w') (hS : 0 < supply w)
    (hx : 0 < creditedBy w op) (C : Finset Addr) (hC : ∀ a, a ∉ C → lsOf w a = 0) :
    |(∑ a ∈ C, ((valueOf w' a : ℚ) - (valueOf w a : ℚ))) -
      (creditedBy w op : ℚ) * (1 - (w.burntLs : ℚ) / (supply w : ℚ))| ≤ (C.card : ℚ) := by
  have hsum : ∑ a ∈ C, lsOf w a + w.burntLs = supply w := by
    obtain ⟨h, h1, h2⟩ := C05_supply_is_total hr
    rw [IsSum.unique ⟨C, hC, rfl⟩ h1]; exact h2
  have qS : (supply w : ℚ) ≠ 0 := by exact_mod_cast hS.ne'
  have e : (creditedBy w op : ℚ) * (1 - (w.burntLs : ℚ) / (supply w : ℚ)) = ∑ a ∈ C, (lsOf w a : ℚ) * (creditedBy w op : ℚ) / (supply w : ℚ) := by
    rw [← Finset.sum_div, ← Finset.sum_mul]
    have : (∑ a ∈ C, (lsOf w a : ℚ)) = (supply w : ℚ) - (w.burntLs : ℚ) := by rw [← hsum]; push_cast; ring
    rw [this]; field_simp
  conv => lhs; rw [e]
  rw [← Finset.sum_sub_distrib]
  refine (Finset.abs_sum_le_sum_abs _ _).trans ?_
  have := Finset.sum_le_card_nsmul C (fun a => |(valueOf w' a : ℚ) - (valueOf w a : ℚ) - (lsOf w a : ℚ) * (creditedBy w op : ℚ) / (supply w : ℚ)|) 1
    (fun a _ => (C72_pro_rata hr hs hS hx a).2.2.2.le)
  simpa using this

/-- **C72**, nothing else.  In every transaction the rate rises by the credit per LS token, and beyond that by less than rounding: all LS
tokens together gain at most one unit of EGLD or the value of one unit of LS token. -/
theorem C72_only_rewards {w w' : World} {op : Op} (hr : Reachable w) (hs : step w op = .ok w') (hS : 0 < supply w) (hS' : 0 < supply w') :
    rate w + (creditedBy w op : ℚ) / (supply w : ℚ) ≤ rate w' ∧
    rate w' ≤ rate w + (creditedBy w op : ℚ) / (supply w : ℚ) + max (rate w) 1 / (supply w' : ℚ) :=
  rate_step op hr hs hS hS'

/-- **C72**, over any history: the rate has risen by what was credited per LS token along the way, and at most by the rounding of
each transaction more. -/
theorem C72_history {w w' : World} {q d : ℚ} (hr : Reachable w) (hS : 0 < supply w) (h : Earned w w' q d) :
    rate w + q ≤ rate w' ∧ rate w' ≤ rate w + q + d := by
  have key : Reachable w' ∧ 0 < supply w' ∧ rate w + q ≤ rate w' ∧ rate w' ≤ rate w + q + d := by
    induction h with
    | nil => exact ⟨hr, hS, by simp, by simp⟩
    | snoc op _ hs h2 ih =>
      obtain ⟨hr1, h1, i1, i2⟩ := ih
      obtain ⟨j1, j2⟩ := rate_step op hr1 hs h1 h2
      exact ⟨.step op hr1 hs, h2, by linarith, by linarith⟩
  exact key.2.2

/-- A claim in flight over a pool of four holders: 7 EGLD less 4% are credited. -/
def claiming : World := run deposited [.claimRewards 1]

theorem claiming_reachable : Reachable claiming := reachable_run deposited_reachable _

example : Reachable claiming ∧ step claiming (.deliver 0 (.ok (E 7) (E 7))) = .ok (exec claiming (.deliver 0 (.ok (E 7) (E 7)))) ∧
    creditedBy claiming (.deliver 0 (.ok (E 7) (E 7))) = 6720000000000000000 ∧ 0 < supply claiming ∧
    valueOf claiming 12 = E 50 ∧ valueOf (exec claiming (.deliver 0 (.ok (E 7) (E 7)))) 12 = 52210526315789473684 ∧
    (∀ a, a ∉ ({1, 11, 12, 1000} : Finset Addr) → lsOf claiming a = 0) := by
  refine ⟨claiming_reachable, step_exec (by decide +kernel), by decide +kernel, by decide +kernel, by decide +kernel, by decide +kernel,
    fun a ha => ?_⟩
  have h : claiming.ls.map Prod.fst ⊆ [1, 11, 12, 1000] := by decide +kernel
  refine Map.get_of_notMem _ _ a fun hk => ha ?_
  have := h (List.mem_toFinset.1 hk)
  simpa using this

/-- A history with a claim, a donation and a redemption. -/
example : ∃ (w w' : World) (q d : ℚ), Reachable w ∧ 0 < supply w ∧ Earned w w' q d ∧ 0 < q ∧ supply w' < supply w := by
  have c1 : works claiming (.deliver 0 (.ok (E 7) (E 7))) = true := by decide +kernel
  let w1 := exec claiming (.deliver 0 (.ok (E 7) (E 7)))
  have c2 : works w1 (.addRewards 13 (E 2)) = true := by decide +kernel
  let w2 := exec w1 (.addRewards 13 (E 2))
  have c3 : works w2 (.unDelegate 11 0 [⟨500, 0, E 40⟩]) = true := by decide +kernel
  have e1 : Earned claiming claiming 0 0 := .nil
  have e2 := e1.snoc _ (step_exec c1) (by decide +kernel)
  have e3 := e2.snoc _ (step_exec c2) (by decide +kernel)
  have e4 := e3.snoc _ (step_exec c3) (by decide +kernel)
  refine ⟨_, _, _, _, claiming_reachable, by decide +kernel, e4, ?_, by decide +kernel⟩
  have p : 0 < creditedBy claiming (.deliver 0 (.ok (E 7) (E 7))) := by decide +kernel
  have s : 0 < supply claiming := by decide +kernel
  have p' : (0 : ℚ) < creditedBy claiming (.deliver 0 (.ok (E 7) (E 7))) := by exact_mod_cast p
  have s' : (0 : ℚ) < supply claiming := by exact_mod_cast s
  positivity

end LS
