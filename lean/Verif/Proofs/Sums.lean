import Verif.Proofs.Invariants

/-! Sums over all providers of the calls in flight. -/

namespace LS
open Spec

theorem isSum_zero {α : Type} : IsSum (fun _ : α => 0) 0 := ⟨∅, fun _ _ => rfl, by simp⟩

theorem isSum_single {α : Type} [DecidableEq α] (a : α) (v : Nat) : IsSum (fun c => if a = c then v else 0) v := by
  refine ⟨{a}, fun c hc => ?_, by simp⟩
  simp only [Finset.mem_singleton] at hc
  exact if_neg (fun h => hc h.symm)

theorem Spec.IsSum.add {α : Type} {f g : α → Nat} {s t : Nat} (hf : IsSum f s) (hg : IsSum g t) :
    IsSum (fun c => f c + g c) (s + t) := by
  classical
  obtain ⟨S, hS, rfl⟩ := hf
  obtain ⟨T, hT, rfl⟩ := hg
  refine ⟨S ∪ T, fun c hc => ?_, ?_⟩
  · simp only [Finset.mem_union, not_or] at hc
    show f c + g c = 0
    rw [hS c hc.1, hT c hc.2]
  · rw [Finset.sum_add_distrib, ← Finset.sum_subset Finset.subset_union_left (fun a _ ha => hS a ha),
      ← Finset.sum_subset Finset.subset_union_right (fun a _ ha => hT a ha)]

theorem Spec.IsSum.congr {α : Type} {f g : α → Nat} {s : Nat} (hf : IsSum f s) (h : ∀ a, f a = g a) : IsSum g s := by
  have : f = g := funext h
  rw [← this]; exact hf

theorem isSum_undelegations : ∀ l, IsSum (fun c => undelegationsFrom c l) (allUndelegations l)
  | [] => isSum_zero
  | f :: l => by
    have ih := isSum_undelegations l
    cases f with
    | undelegate p a => exact (isSum_single p a).add ih
    | delegate p a => exact ih
    | withdraw p => exact ih
    | claim ps => exact ih
    | whitelist p a u => exact ih

theorem isSum_delegations : ∀ l, IsSum (fun c => delegationsTo c l) (allDelegations l)
  | [] => isSum_zero
  | f :: l => by
    have ih := isSum_delegations l
    cases f with
    | delegate p a => exact (isSum_single p a).add ih
    | undelegate p a => exact ih
    | withdraw p => exact ih
    | claim ps => exact ih
    | whitelist p a u => exact ih

theorem undelegationsFrom_eq (c : Addr) : ∀ l, undelegationsFrom c l = fsum (undelegAmt c) l
  | [] => rfl
  | f :: l => by
    rw [fsum_cons, ← undelegationsFrom_eq c l]
    cases f <;> simp [undelegationsFrom, undelegAmt]

theorem delegationsTo_eq (c : Addr) : ∀ l, delegationsTo c l = fsum (delegAmt c) l
  | [] => rfl
  | f :: l => by
    rw [fsum_cons, ← delegationsTo_eq c l]
    cases f <;> simp [delegationsTo, delegAmt]

theorem figure_recOf (f : ProviderData → Nat) (w : World) (c : Addr) : figure f w c = recOf f w.st.data c := by
  unfold figure provider recOf; cases w.st.data.get none c <;> rfl

theorem pStake_inFlight {w : World} (h : RegInv w) (c : Addr) : figure (·.pStake) w c = delegationsTo c (unsettled w) := by
  rw [figure_recOf, RegOk.ps h c, delegationsTo_eq, unsettled, fsum_append]

theorem pUnstake_inFlight {w : World} (h : RegInv w) (c : Addr) : figure (·.pUnstake) w c = undelegationsFrom c (unsettled w) := by
  rw [figure_recOf, RegOk.pu h c, undelegationsFrom_eq, unsettled, fsum_append]

theorem pStake_total {w : World} (h : RegInv w) : (acct w).pStake = allDelegations (unsettled w) :=
  (isSum_figure w (·.pStake)).unique ((isSum_delegations (unsettled w)).congr fun c => (pStake_inFlight h c).symm)

theorem pUnstake_total {w : World} (h : RegInv w) : (acct w).pUnstake = allUndelegations (unsettled w) :=
  (isSum_figure w (·.pUnstake)).unique ((isSum_undelegations (unsettled w)).congr fun c => (pUnstake_inFlight h c).symm)

theorem Spec.IsSum.le {α : Type} {f : α → Nat} {s : Nat} (h : IsSum f s) (a : α) : f a ≤ s := by
  obtain ⟨S, hS, rfl⟩ := h
  by_cases ha : a ∈ S
  · exact Finset.single_le_sum (f := f) (fun _ _ => Nat.zero_le _) ha
  · rw [hS a ha]; exact Nat.zero_le _

end LS
