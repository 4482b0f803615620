import Verif.Props.Accept

/-! The number of providers a batch may use: C103. -/

namespace LS
open Spec Demo

namespace Spec

/-- What the machine makes of a limit: a number that does not fit 64 bits stops the call, of the others 32 bits are kept. -/
def inForce (limit : Nat) : Option Nat := if limit < 2 ^ 64 then some (limit % 2 ^ 32) else none

end Spec

private theorem loop_limit {st : Store} {mn maxP avg : Nat} :
    ∀ {list : List Addr} {sel sel' : List SelInfo} {tot tot' rem : Nat}, selectUndelegationLoop st mn maxP avg list sel tot rem = .ok (sel', tot') →
    (∀ n, inForce st.maxSelectedProviders = some n → sel.length ≤ n) →
    (list = [] ∨ st.maxSelectedProviders < 2 ^ 64) ∧ ∀ n, inForce st.maxSelectedProviders = some n → sel'.length ≤ n := by
  intro list
  induction list with
  | nil =>
    intro sel sel' tot tot' rem h hl
    simp only [selectUndelegationLoop, Except.ok.injEq, Prod.mk.injEq] at h
    obtain ⟨rfl, rfl⟩ := h
    exact ⟨.inl rfl, hl⟩
  | cons a rest ih =>
    intro sel sel' tot tot' rem h hl
    simp only [selectUndelegationLoop, bind_ok, unwrap_ok] at h
    obtain ⟨hd, hhd, h⟩ := h
    unfold toU64 at hhd
    split at hhd
    case isFalse => simp at hhd
    rename_i h64
    have h64' : st.maxSelectedProviders < 2 ^ 64 := h64
    refine ⟨.inr h64', ?_⟩
    have hf : inForce st.maxSelectedProviders = some (asUsize hd) := by
      simp only [Option.some.injEq] at hhd
      subst hhd
      unfold inForce
      rw [if_pos h64']
      rfl
    rw [ite_ok] at h
    rcases h with ⟨_, h⟩ | ⟨hlt, h⟩
    · simp only [Except.ok.injEq, Prod.mk.injEq] at h
      obtain ⟨rfl, rfl⟩ := h
      exact hl
    rw [ite_ok] at h
    rcases h with ⟨_, h⟩ | ⟨_, h⟩
    · simp only [Except.ok.injEq, Prod.mk.injEq] at h
      obtain ⟨rfl, rfl⟩ := h
      exact hl
    simp only [bind_ok] at h
    obtain ⟨d, _, staked, _, take, _, h⟩ := h
    rw [ite_ok] at h
    rcases h with ⟨_, h⟩ | ⟨_, h⟩
    · simp only [bind_ok] at h
      obtain ⟨info, _, h⟩ := h
      refine (ih h fun n hn => ?_).2
      rw [hf] at hn
      simp only [Option.some.injEq] at hn
      subst hn
      simp only [List.length_append, List.length_singleton]
      omega
    · exact (ih h hl).2

/-- **C103.** An un-delegation batch goes to at least one provider, and to no more than the limit in force: the limit set by the owner fits
64 bits, and only its lower 32 bits count. -/
theorem C103_count {w w' : World} {c : Addr} {o : Option Nat} (h : step w (.unDelegatePending c o) = .ok w') :
    ∃ b n, w'.flights = w.flights ++ undelegations b ∧ inForce w.st.maxSelectedProviders = some n ∧ b.length ≤ n ∧ 0 < n := by
  change unDelegatePending w c o = .ok w' at h
  unfold unDelegatePending at h
  simp only [bind_ok, requireUser_ok, requireActive_ok, requireManager_ok, exists_const, cacheNew_ok, Prod.exists,
    csub_ok, Except.ok.injEq] at h
  obtain ⟨h1, c, ⟨t, ht, rfl⟩, h2, h3, amt, hamt, sels, c1, hsel, p, ⟨hp, rfl⟩, w1, hloop, rfl⟩ := h
  obtain ⟨E, D, rfl, _⟩ := undelegateLoop_ok hloop
  unfold getDelegationContract handleUndelegation selectUndelegationProviders at hsel
  simp only [bind_ok, if_true, req_ok, exists_const, Bool.not_false, Bool.false_eq_true, if_false, Prod.exists] at hsel
  obtain ⟨hl0, sel, ts, ⟨mp, hmp, pa, _, psl, _, avg, _, hsel⟩, hne, cfg, hcfg, h⟩ := hsel
  have hl := sels_length h
  obtain ⟨g1, g2⟩ := loop_limit hsel (by simp)
  have h64 := g1.resolve_left hl0
  have hf : inForce w.st.maxSelectedProviders = some (w.st.maxSelectedProviders % 2 ^ 32) := if_pos h64
  have h5 := g2 _ hf
  have h6 : 0 < sel.length := List.length_pos_iff.2 hne
  refine ⟨batchOf sels, _, ?_, hf, ?_, by omega⟩
  · rw [← undelegations_eq]; rfl
  · unfold batchOf; rw [List.length_map]; omega

/-- **C103**, blocked: with a limit that is a multiple of 2^32, or of 2^64 and more, nobody can ask back anything, whatever the state of
the contract. -/
theorem C103_blocked {w : World} (hl : 2 ^ 64 ≤ w.st.maxSelectedProviders ∨ w.st.maxSelectedProviders % 2 ^ 32 = 0) (c : Addr) (o : Option Nat) :
    ¬ ∃ w', step w (.unDelegatePending c o) = .ok w' := by
  rintro ⟨w', h⟩
  obtain ⟨b, n, _, h1, _, h2⟩ := C103_count h
  unfold inForce at h1
  split at h1
  · simp only [Option.some.injEq] at h1; omega
  · cases h1


private theorem setter {w w1 : World} {c : Addr} {v : Nat} (h : step w (.owner c (.maxSelected v)) = .ok w1) :
    1 ≤ v ∧ w1 = { w with st := { w.st with maxSelectedProviders := v } } := by
  change ownerCmd w c (.maxSelected v) = .ok w1 at h
  unfold ownerCmd applyOwnerCmd at h
  simp only [bind_ok, requireUser_ok, requireOwner_ok, req_ok, exists_const, Except.ok.injEq] at h
  obtain ⟨_, _, st, ⟨h1, rfl⟩, rfl⟩ := h
  exact ⟨h1, rfl⟩

/-- "A limit never stops un-delegation, however high it is" is false of the code: in a contract that works the owner raises the limit to
any multiple of 2^32, or to any number from 2^64, and no amount can be asked back by anybody; at 2^32 + 1 batches go to a single provider;
setting it to 2^32 - 1 makes all of it possible again. -/
theorem C103_false : ∃ w : World, Reachable w ∧ works w (.unDelegatePending 1 none) = true ∧
    (∀ v, 1 ≤ v → (2 ^ 64 ≤ v ∨ v % 2 ^ 32 = 0) → ∃ w1, step w (.owner 1 (.maxSelected v)) = .ok w1 ∧
      ∀ c o, ¬ ∃ w2, step w1 (.unDelegatePending c o) = .ok w2) ∧
    (exec w (.unDelegatePending 1 none)).flights.length = 2 ∧
    (run w [.owner 1 (.maxSelected 4294967297), .unDelegatePending 1 none]).flights.length = 1 ∧
    (run w [.owner 1 (.maxSelected 4294967296), .owner 1 (.maxSelected 4294967295), .unDelegatePending 1 none]).flights.length = 2 := by
  refine ⟨redeemed, redeemed_reachable, by decide +kernel, fun v h1 hv => ?_, by decide +kernel, by decide +kernel, by decide +kernel⟩
  have ho : redeemed.owner = 1 := by decide +kernel
  obtain ⟨w1, h⟩ := C47_setters_available (w := redeemed) (.maxSelected v) (by decide +kernel) (by simp) (by rintro ⟨⟩; omega)
  rw [ho] at h
  refine ⟨w1, h, C103_blocked ?_⟩
  obtain ⟨_, rfl⟩ := setter h
  exact hv

/-- **C103, what does hold.**  The full claim ("the owner can set no limit that stops un-delegation") is refuted by `C103_false`.  True is:
in every history in which no delegation failed, whatever limit was in place, once the owner has set one below 2^32 every valid
`unDelegatePending` succeeds as long as some provider has stake.  Missing from the code is an upper bound in the setter and in `init`. -/
theorem C103_partial {w w1 : World} {c u : Addr} {v : Nat} {o : Option Nat} {cfg : ScoringConfig} (hr : ReachableBy NoFailedDelegation w)
    (hs : step w (.owner u (.maxSelected v)) = .ok w1) (hv : v < 2 ^ 32)
    (hc : c ≠ w.self) (ht : w.st.lsToken ≠ none) (ha : w.st.state = .active) (hm : isManager w c = true)
    (hb : ValidBatch (toUndelegate w) o) (hcfg : w.st.scoring = some cfg)
    (hu : cfg.minNodes ≠ cfg.maxNodes ∧ cfg.minApy ≠ cfg.maxApy)
    (hlen : w.st.undelegList.length < 2 ^ 32) (hop : ∃ p ∈ w.st.undelegList, 0 < netStake w p) :
    ∃ w2, step w1 (.unDelegatePending c o) = .ok w2 := by
  have hr1 : ReachableBy NoFailedDelegation w1 := by
    obtain ⟨w0, hi, h0⟩ := hr
    exact ⟨w0, hi, .snoc _ h0 hs (by intro i p a h; cases h)⟩
  obtain ⟨_, rfl⟩ := setter hs
  exact (C37_partial (w := { w with st := { w.st with maxSelectedProviders := v } }) hr1 hc ht ha hm hb hcfg hu hv hlen hop).2

example : ReachableBy NoFailedDelegation (run redeemed [.owner 1 (.maxSelected 4294967296)]) ∧
    works (run redeemed [.owner 1 (.maxSelected 4294967296)]) (.unDelegatePending 1 none) = false ∧
    works (run redeemed [.owner 1 (.maxSelected 4294967296)]) (.owner 1 (.maxSelected 25)) = true ∧
    ValidBatch (toUndelegate redeemed) none ∧ redeemed.st.scoring = some ScoringConfig.default ∧ E 1 < netStake redeemed 21 :=
  ⟨reachableBy_noFail redeemed_noFail rfl, by decide +kernel, by decide +kernel,
    ⟨by decide +kernel, by decide +kernel, .inl (by decide +kernel)⟩, by decide +kernel, by decide +kernel⟩

private def lim (v : Nat) (w : World) : World := { w with st := { w.st with maxSelectedProviders := v } }

private theorem consider_lim (v mn : Nat) (st : Store) (a : Addr) (sel : List SelInfo) (tot : Nat) :
    considerProvider { st with maxSelectedProviders := v } mn a sel tot = considerProvider st mn a sel tot := by
  unfold considerProvider getData
  rfl

private theorem loop_lim (v mn mp : Nat) (st : Store) : ∀ (l : List Addr) (sel : List SelInfo) (tot : Nat),
    selectDelegationLoop { st with maxSelectedProviders := v } mn mp l sel tot = selectDelegationLoop st mn mp l sel tot := by
  intro l
  induction l with
  | nil => intro sel tot; rfl
  | cons a l ih =>
    intro sel tot
    simp only [selectDelegationLoop, consider_lim, ih]

private theorem select_lim {v : Nat} {st : Store} {amt : Nat} {c : Cache} (h1 : st.delegList.length ≤ st.maxSelectedProviders)
    (h2 : st.delegList.length ≤ v) :
    getDelegationContract { st with maxSelectedProviders := v } amt true c = getDelegationContract st amt true c := by
  have hm : ∀ a m, maxProviders { st with maxSelectedProviders := v } a m st.delegList.length = maxProviders st a m st.delegList.length := by
    intro a m
    unfold maxProviders
    have : ∀ q : Nat, min (min q v) st.delegList.length = min (min q st.maxSelectedProviders) st.delegList.length := by intro q; omega
    simp only [this]
  unfold getDelegationContract handleDelegation selectDelegationProviders
  simp only [if_true, hm, loop_lim, getScoringConfig, Bool.not_true, Bool.false_eq_true, if_false]

private theorem send_lim (v : Nat) : ∀ (l : List Selection) (w w' : World), delegateLoop l w = .ok w' → delegateLoop l (lim v w) = .ok (lim v w')
  | [], w, w', h => by cases h; rfl
  | s :: l, w, w', h => by
    unfold delegateLoop at h ⊢
    unfold updateData registerPromise getData at h ⊢
    simp only [bind_ok] at h
    obtain ⟨w2, ⟨d, hd, d', hd', hw2⟩, w3, ⟨m, hm, hw3⟩, h⟩ := h
    cases hw2
    cases hd'
    cases hw3
    have ih := send_lim v l _ w' h
    simp only [bind_ok]
    exact ⟨_, ⟨d, hd, _, rfl, rfl⟩, _, ⟨m, hm, rfl⟩, ih⟩

/-- **C103**, deposits: delegation does not have the problem.  Any two limits that are not below the number of providers, even those above
2^64, let the same `delegatePending` calls through and send the same amounts to the same providers. -/
theorem C103_delegations {w w1 w2 : World} {u c : Addr} {v : Nat} {o : Option Nat} (h0 : w.st.delegList.length ≤ w.st.maxSelectedProviders)
    (hs : step w (.owner u (.maxSelected v)) = .ok w1) (h1 : w.st.delegList.length ≤ v) (h : step w (.delegatePending c o) = .ok w2) :
    step w1 (.delegatePending c o) = .ok { w2 with st := { w2.st with maxSelectedProviders := v } } := by
  obtain ⟨_, rfl⟩ := setter hs
  change delegatePending w c o = .ok w2 at h
  show delegatePending (lim v w) c o = _
  unfold delegatePending at h ⊢
  simp only [bind_ok, Prod.exists] at h ⊢
  obtain ⟨a, k1, ca, k2, b, k3, e, k4, amt, k5, sels, c1, k6, p, k7, w3, k8, k9⟩ := h
  refine ⟨a, k1, ca, k2, b, k3, e, k4, amt, k5, sels, c1, ?_, p, k7, lim v w3, send_lim v _ _ _ k8, ?_⟩
  · rw [← k6]; exact select_lim h0 h1
  · cases k9; rfl

example : Reachable deposited ∧ deposited.st.delegList.length ≤ deposited.st.maxSelectedProviders ∧
    works deposited (.owner 1 (.maxSelected 18446744073709551616)) = true ∧ deposited.st.delegList.length = 2 ∧
    works deposited (.delegatePending 1 none) = true ∧
    (exec deposited (.delegatePending 1 none)).flights.length = 2 :=
  ⟨deposited_reachable, by decide +kernel, by decide +kernel, by decide +kernel, by decide +kernel, by decide +kernel⟩

end LS
