import Verif.Proofs.Lists

/-! Callbacks that cannot fail in a reachable world. -/

namespace LS
open Spec

theorem fsum_mem {g : Flight → Nat} {f : Flight} {l : List Flight} (h : f ∈ l) : g f ≤ fsum g l := by
  obtain ⟨i, hi, rfl⟩ := List.getElem_of_mem h
  rw [← fsum_perm (eraseIdx_perm (List.getElem?_eq_getElem hi)), fsum_cons]
  omega

theorem delegate_flight {w : World} (hr : Reachable w) {p : Addr} {a : Nat} (hf : .delegate p a ∈ w.flights) :
    ∃ t d, w.st.lsToken = some t ∧ w.st.data.get none p = some d ∧ a ≤ d.pStake ∧ MIN_EGLD ≤ a ∧ p ∈ w.st.delegList := by
  have hr0 : RegOk w.st.lsToken w.st.unstakeToken w.st.delegList w.st.undelegList w.st.data w.flights w.dead :=
    reachable_regInv hr
  have hp := hr0.flt p a (.inl hf)
  obtain ⟨t, ht⟩ := lsToken_of_provider hr hp
  obtain ⟨d, hd⟩ := Option.ne_none_iff_exists'.1 (hr0.recd p hp)
  refine ⟨t, d, ht, hd, ?_, hr0.pos p a (.inl hf), hp⟩
  have h1 := hr0.ps p
  unfold recOf at h1
  rw [hd] at h1
  have h1' : d.pStake = _ := h1
  have h2 := fsum_mem (g := delegAmt p) hf
  have h3 : delegAmt p (.delegate p a) = a := by simp [delegAmt]
  omega

theorem undelegate_flight {w : World} (hr : Reachable w) {p : Addr} {a : Nat} (hf : .undelegate p a ∈ w.flights) :
    ∃ t d, w.st.lsToken = some t ∧ w.st.data.get none p = some d ∧ a ≤ d.pUnstake ∧ MIN_EGLD ≤ a ∧ p ∈ w.st.delegList := by
  have hr0 : RegOk w.st.lsToken w.st.unstakeToken w.st.delegList w.st.undelegList w.st.data w.flights w.dead :=
    reachable_regInv hr
  have hp := hr0.flt p a (.inr hf)
  obtain ⟨t, ht⟩ := lsToken_of_provider hr hp
  obtain ⟨d, hd⟩ := Option.ne_none_iff_exists'.1 (hr0.recd p hp)
  refine ⟨t, d, ht, hd, ?_, hr0.pos p a (.inr hf), hp⟩
  have h1 := hr0.pu p
  unfold recOf at h1
  rw [hd] at h1
  have h1' : d.pUnstake = _ := h1
  have h2 := fsum_mem (g := undelegAmt p) hf
  have h3 : undelegAmt p (.undelegate p a) = a := by simp [undelegAmt]
  omega

/-- The answer to a delegation, whatever it is, is always processed. -/
theorem delegate_cb_ok {w : World} (hr : Reachable w) {i : Nat} {p : Addr} {a : Nat} (o : Outcome)
    (hf : w.flights[i]? = some (.delegate p a)) :
    ∃ w', runCallback (arrive w i (.delegate p a) o) (.delegate p a) o = .ok w' := by
  obtain ⟨t, d, ht, hd, ha, _⟩ := delegate_flight hr (List.mem_of_getElem? hf)
  cases o with
  | ok g r => exact ⟨_, addLiquidityCb_true_ok.2 ⟨by show w.st.lsToken ≠ none; rw [ht]; simp, d, hd, ha, rfl⟩⟩
  | err => exact ⟨_, addLiquidityCb_false_ok.2 ⟨t, d, ht, hd, ha, rfl⟩⟩

/-- As long as callbacks have the gas they need, no delegation is ever left unsettled by a failed callback. -/
theorem reachable_dead {w : World} (h : ReachableBy Fueled w) : ∀ p a, .delegate p a ∉ w.dead := by
  obtain ⟨w0, h0, ht⟩ := h
  induction ht with
  | nil =>
    obtain ⟨self, owner, contracts, epoch, funds, acc, fees, rpe, mr, ms, ma, ub, _, _, rfl⟩ := isInit_eq h0
    intro p a; simp
  | @snoc w w' op ht hs hg ih =>
    have hr : Reachable w := reachable_trace (.init h0) (trace_mono (fun _ _ _ _ => trivial) ht)
    intro p a
    have hst := fstep (reachable_regInv hr) hs
    generalize w'.flights = fl at hst
    generalize w'.dead = dead at hst ⊢
    cases hst with
    | died i o f e hop hf hcb =>
      rw [List.mem_append, List.mem_singleton]
      rintro (h | rfl)
      · exact ih p a h
      · obtain ⟨w1, h1⟩ := delegate_cb_ok hr o hf
        rw [h1] at hcb; cases hcb
    | starved i o f hop hf => exact absurd hop (hg i o)
    | _ => exact ih p a

/-- Before the LS token is issued the only promises are first delegations of whitelistings. -/
theorem reachable_noFlights {w : World} (h : Reachable w) : w.st.lsToken = none → ∀ f ∈ w.flights, ∃ p v u, f = .whitelist p v u := by
  induction h with
  | init h =>
    obtain ⟨self, owner, contracts, epoch, funds, acc, fees, rpe, mr, ms, ma, ub, _, _, rfl⟩ := isInit_eq h
    simp
  | @step w w' op hr hs ih =>
    intro ht f hf
    have ht0 : w.st.lsToken = none := by
      rcases (frame_step op (reachable_regInv hr) (reachable_issInv hr) hs).lsT with h | ⟨_, _, _, _, _, _, h, _⟩
      · rw [← h]; exact ht
      · exact h
    rcases (fstep (reachable_regInv hr) hs).mem hf with h | ⟨_, _, _, _, rfl, _, _⟩ | ⟨_, _, _, _, rfl, _, _⟩ | ⟨_, _, rfl, h⟩ |
      ⟨_, rfl, h⟩ | ⟨c, v', p', ad, ts, cap, n, apy, _, h, hv⟩
    · exact ih ht0 f h
    · obtain ⟨_, _, _, t, _, _, _, _, _, ht1, _⟩ := delegatePending_ok hs
      rw [ht0] at ht1; cases ht1
    · obtain ⟨_, _, _, t, _, _, _, _, _, ht1, _⟩ := unDelegatePending_ok hs
      rw [ht0] at ht1; cases ht1
    · obtain ⟨_, _, _, ht1, _⟩ := withdrawPending_ok hs
      exact absurd ht0 ht1
    · obtain ⟨_, _, _, ht1, _⟩ := claimRewards_ok hs
      exact absurd ht0 ht1
    · exact ⟨_, _, _, h⟩

end LS
