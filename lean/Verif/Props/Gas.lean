import Verif.Model.Gas
import Verif.Props.Batch
import Verif.Props.Access
import Verif.Props.Accounting
import Verif.Props.Wire

/-! The gas the contract sets aside for its own calls (C112). -/

namespace LS
open Spec Demo

/-- What the promises of one transaction need, from the outside: 18 million for a delegation, an un-delegation or a withdrawal,
32 million for the entry of a provider, and 6 million and 2.5 million for every address for a claim of rewards. -/
def Spec.needs : Flight → Nat
  | .delegate _ _ | .undelegate _ _ | .withdraw _ => 18_000_000
  | .whitelist _ _ _ => 32_000_000
  | .claim ps => 6_000_000 + 2_500_000 * ps.length

theorem needs_exact {f : Flight} (h : ∀ ps, f = .claim ps → ps.length < 2 ^ 32) :
    (Wire.encode f).gas.toNat + (Wire.encode f).cbGas.toNat = needs f := by
  obtain ⟨h1, h2⟩ := C98_gas f
  rw [h1, h2]
  cases f with
  | claim ps =>
    have := h ps rfl
    simp only [needs]
    rw [Nat.mod_eq_of_lt (by omega)]
    omega
  | _ => simp only [needs]

theorem gasOf_same (g : Nat) (fs : List Flight) (hf : ∀ x ∈ fs, (Wire.encode x).gas.toNat + (Wire.encode x).cbGas.toNat = g) :
    gasOf fs = g * fs.length := by
  induction fs with
  | nil => simp [gasOf]
  | cons x xs ih =>
    have := ih fun y hy => hf y (List.mem_cons_of_mem _ hy)
    have hx := hf x List.mem_cons_self
    simp only [gasOf, List.map_cons, List.sum_cons, List.length_cons] at this ⊢
    rw [this, hx, Nat.mul_succ, Nat.add_comm]

theorem gasOf_one {f : Flight} (h : ∀ ps, f = .claim ps → ps.length < 2 ^ 32) : gasOf [f] = needs f := by
  simp only [gasOf, List.map_cons, List.map_nil, List.sum_cons, List.sum_nil, needs_exact h, Nat.add_zero]

/-- The promises a transaction registers. -/
def Spec.calls (w w' : World) : List Flight := w'.flights.drop w.flights.length

/-- The five transactions that call providers or their manager. -/
def Spec.calling : Op → Bool
  | .delegatePending .. | .unDelegatePending .. | .withdrawPending .. | .claimRewards .. | .whitelist .. => true
  | _ => false

theorem no_calls {w w' : World} {op : Op} (hr : Reachable w) (hs : step w op = .ok w') (hc : calling op = false) :
    calls w w' = [] := by
  have hfs := fstep (reachable_regInv hr) hs
  unfold calls
  generalize w'.flights = F at hfs ⊢
  generalize w'.dead = D at hfs
  cases hfs with
  | same => exact List.drop_length
  | delegated c o sels hop _ => subst hop; simp [calling] at hc
  | undelegated c o sels hop _ => subst hop; simp [calling] at hc
  | withdrawn c p hop => subst hop; simp [calling] at hc
  | claimed c hop => subst hop; simp [calling] at hc
  | whitelisted c v p ad ts cap n apy hop _ _ => subst hop; simp [calling] at hc
  | settled i o f w2 hop hf hcb => exact List.drop_eq_nil_of_le (List.length_eraseIdx_le ..)
  | died i o f e hop hf hcb => exact List.drop_eq_nil_of_le (List.length_eraseIdx_le ..)
  | starved i o f hop hf => exact List.drop_eq_nil_of_le (List.length_eraseIdx_le ..)

theorem stepWithin_some {L : Nat} {w w' : World} {op : Op} :
    stepWithin L w op = some w' ↔ step w op = .ok w' ∧ gasOf (w'.flights.drop w.flights.length) ≤ L := by
  unfold stepWithin
  cases h : step w op with
  | ok w1 =>
    by_cases hg : gasOf (w1.flights.drop w.flights.length) ≤ L
    · simp only [hg, if_true, Option.some.injEq, Except.ok.injEq]
      exact ⟨fun h => by subst h; exact ⟨rfl, hg⟩, fun h => h.1⟩
    · simp only [hg, if_false, Except.ok.injEq]
      exact ⟨nofun, fun h => by obtain ⟨rfl, h⟩ := h; exact absurd h hg⟩
  | error e => simp

/-- **C112.** What a transaction needs, by what it does. -/
theorem C112_needs {L : Nat} {w w' : World} {op : Op} (hr : Reachable w) (hs : step w op = .ok w')
    (hn : w.st.delegList.length < 2 ^ 32) :
    stepWithin L w op = some w' ↔
      match op with
      | .delegatePending _ _ | .unDelegatePending _ _ => 18_000_000 * (w'.flights.length - w.flights.length) ≤ L
      | .withdrawPending _ _ => 18_000_000 ≤ L
      | .claimRewards _ => 6_000_000 + 2_500_000 * w.st.delegList.length ≤ L
      | .whitelist .. => 32_000_000 ≤ L
      | _ => True := by
  rw [stepWithin_some]
  simp only [hs, true_and]
  by_cases hc : calling op = false
  · have h0 := no_calls hr hs hc
    unfold calls at h0
    rw [h0]
    cases op <;> simp_all [calling, gasOf]
  have hlen : ∀ fs, gasOf fs = 18_000_000 * fs.length → ((18_000_000 * ((w.flights ++ fs).length - w.flights.length) ≤ L) ↔ gasOf fs ≤ L) := by
    intro fs h
    rw [h, List.length_append, Nat.add_sub_cancel_left]
  cases op with
  | delegatePending c o =>
    obtain ⟨b, hb, _⟩ := C17_delegatePending_exact hs
    rw [hb, List.drop_left]
    refine (hlen _ (gasOf_same _ _ fun x hx => ?_)).symm
    obtain ⟨s, _, rfl⟩ := List.mem_map.1 hx
    exact needs_exact (f := .delegate s.1 s.2) nofun
  | unDelegatePending c o =>
    obtain ⟨b, hb, _⟩ := C20_unDelegatePending_exact hr hs
    rw [hb, List.drop_left]
    refine (hlen _ (gasOf_same _ _ fun x hx => ?_)).symm
    obtain ⟨s, _, rfl⟩ := List.mem_map.1 hx
    exact needs_exact (f := .undelegate s.1 s.2) nofun
  | withdrawPending c p =>
    obtain ⟨_, _, _, _, _, E, _, rfl⟩ := withdrawPending_ok hs
    show gasOf ((w.flights ++ [Flight.withdraw p]).drop w.flights.length) ≤ L ↔ _
    rw [List.drop_left, gasOf_one (by intro ps h; cases h)]; simp only [needs]
  | claimRewards c =>
    obtain ⟨_, _, _, _, _, E, _, rfl⟩ := claimRewards_ok hs
    show gasOf ((w.flights ++ [Flight.claim w.st.delegList]).drop w.flights.length) ≤ L ↔ _
    rw [List.drop_left, gasOf_one (by intro ps h; cases h; exact hn)]; simp only [needs]
  | whitelist c v p ad ts cap n apy =>
    obtain ⟨hc, hm, _, _, hn, hcap, hv, _, E, _, _, _, rfl⟩ := whitelist_ok hs
    show gasOf ((w.flights ++ [Flight.whitelist p v c]).drop w.flights.length) ≤ L ↔ _
    rw [List.drop_left, gasOf_one (by intro ps h; cases h)]; simp only [needs]
  | _ => exact absurd rfl hc

example : works deposited (.delegatePending 1 (some (E 60))) = true ∧
    (stepWithin 36_000_000 deposited (.delegatePending 1 (some (E 60)))).isSome = true ∧
    (stepWithin 35_999_999 deposited (.delegatePending 1 (some (E 60)))).isSome = false :=
  ⟨by decide +kernel, by decide +kernel, by decide +kernel⟩

example : works staked (.claimRewards 1) = true ∧ staked.st.delegList.length = 2 ∧
    (stepWithin 11_000_000 staked (.claimRewards 1)).isSome = true ∧
    (stepWithin 10_999_999 staked (.claimRewards 1)).isSome = false :=
  ⟨by decide +kernel, by decide +kernel, by decide +kernel, by decide +kernel⟩

/-- **C112**, the batches. A batch fits if the limit on the providers it may address, which the owner can set to any number from
one, fits. -/
theorem C112_batches_fit {L : Nat} {w w' : World} {c : Addr} {o : Option Nat} {op : Op} (hr : Reachable w)
    (hop : op = .delegatePending c o ∨ op = .unDelegatePending c o) (hs : step w op = .ok w')
    (hn : w.st.delegList.length < 2 ^ 32) (hL : 18_000_000 * w.st.maxSelectedProviders ≤ L) :
    stepWithin L w op = some w' := by
  rw [C112_needs hr hs hn]
  rcases hop with rfl | rfl
  · obtain ⟨b, hb, _⟩ := C17_delegatePending_exact hs
    have hlen := (C18_delegation_targets hr hs hb hn).2.2.1
    have : w'.flights.length - w.flights.length = b.length := by
      rw [hb, List.length_append, Nat.add_sub_cancel_left]; simp [delegations]
    show 18_000_000 * (w'.flights.length - w.flights.length) ≤ L
    omega
  · obtain ⟨b, hb, _, _, _, _, hlen, _⟩ := C20_unDelegatePending_exact hr hs
    have : w'.flights.length - w.flights.length = b.length := by
      rw [hb, List.length_append, Nat.add_sub_cancel_left]; simp [undelegations]
    show 18_000_000 * (w'.flights.length - w.flights.length) ≤ L
    omega

example : Reachable deposited ∧ works deposited (.delegatePending 1 none) = true ∧
    18_000_000 * deposited.st.maxSelectedProviders ≤ 600_000_000 ∧ deposited.st.delegList.length = 2 :=
  ⟨deposited_reachable, by decide +kernel, by decide +kernel, by decide +kernel⟩

/-- **C112**, the way back for a batch: the owner can lower the limit to one at any time, which leaves everything else as it is. -/
theorem C112_owner_can {w : World} (hr : Reachable w) (ho : w.owner ≠ w.self) :
    ∃ w', step w (.owner w.owner (.maxSelected 1)) = .ok w' ∧ Reachable w' ∧ w'.st.maxSelectedProviders = 1 ∧
      w'.flights = w.flights ∧ w'.st.delegList = w.st.delegList ∧ w'.st.r = w.st.r := by
  have h : step w (.owner w.owner (.maxSelected 1)) = .ok { w with st := { w.st with maxSelectedProviders := 1 } } :=
    ownerCmd_ok.2 ⟨ho, rfl, _, rfl, rfl⟩
  exact ⟨_, h, .step _ hr h, rfl, rfl, rfl, rfl⟩

example : Reachable active ∧ active.owner ≠ active.self := ⟨active_reachable, by decide +kernel⟩

theorem list_grows {w w' : World} (hr : Reachable w) (hl : Later w w') : w.st.delegList.length ≤ w'.st.delegList.length :=
  (List.subperm_of_subset (C31_lists_consistent hr).1 fun p hp => (C31_never_removed hr hl hp).1).length_le

/-- **C112**, for ever. Once there are more providers than a claim can pay for, no claim of rewards succeeds again. -/
theorem C112_never_again {L : Nat} {w : World} (hr : Reachable w) (hL : L < 6_000_000 + 2_500_000 * w.st.delegList.length) :
    ∀ w', Later w w' → w'.st.delegList.length < 2 ^ 32 → ∀ c, stepWithin L w' (.claimRewards c) = none := by
  intro w' hl hn c
  have hr' := reachable_trace hr hl
  have := list_grows hr hl
  by_contra h
  obtain ⟨w2, h2⟩ := Option.ne_none_iff_exists'.1 h
  have h3 := (C112_needs hr' (stepWithin_some.1 h2).1 hn).1 h2
  have h4 : 6_000_000 + 2_500_000 * w'.st.delegList.length ≤ L := h3
  omega

/-- The owner raises the number of providers to `n` and the manager enters `n` of them. -/
def manyProviders (n : Nat) : List Op :=
  [.fund 1 (E n), .owner 1 (.maxAddresses n)] ++
    (List.range n).flatMap fun i => [.whitelist 1 (E 1) (1000 + i) 41 (E 1000) 0 10 800, .deliver 0 (.ok 0 0)]

/-- **C112**, false as stated: at the 600 million gas the network allows a transaction, 238 providers are too many. The claim is
possible but for the gas, and it never becomes possible. -/
theorem C112_false : ∃ w, Reachable w ∧ w.st.delegList.length = 238 ∧ works w (.claimRewards 1) = true ∧
    (∀ c, stepWithin 600_000_000 w (.claimRewards c) = none) ∧
    ∀ w', Later w w' → w'.st.delegList.length < 2 ^ 32 → ∀ c, stepWithin 600_000_000 w' (.claimRewards c) = none := by
  have hr : Reachable (run active (manyProviders 238)) := reachable_run active_reachable _
  have h : (run active (manyProviders 238)).st.delegList.length = 238 ∧
      works (run active (manyProviders 238)) (.claimRewards 1) = true := by decide +kernel
  have hf := C112_never_again (L := 600_000_000) hr (by rw [h.1]; omega)
  exact ⟨_, hr, h.1, h.2, hf _ .nil (by rw [h.1]; omega), hf⟩

/-- **C112**, what holds: with at most 237 providers a claim sets aside no more than 600 million. -/
theorem C112_claim_fits_partial {w w' : World} {c : Addr} (hr : Reachable w) (hs : step w (.claimRewards c) = .ok w')
    (hn : w.st.delegList.length ≤ 237) : stepWithin 600_000_000 w (.claimRewards c) = some w' :=
  (C112_needs hr hs (by omega)).2 (by show 6_000_000 + 2_500_000 * w.st.delegList.length ≤ 600_000_000; omega)

/-- **C112**, how to keep it: providers entered one at a time, under a limit of at most 236 that is not lowered. -/
theorem C112_claim_kept_partial {w w' : World} {c : Addr} (hr : ReachableBy (FewAtATime 1) w)
    (hs : step w (.claimRewards c) = .ok w') (hn : w.st.maxDelegationAddresses ≤ 236) :
    stepWithin 600_000_000 w (.claimRewards c) = some w' :=
  C112_claim_fits_partial (reachableBy_reachable hr) hs (by have := C30_partial hr; omega)

private def chkFew (k : Nat) : World → List Op → Bool
  | _, [] => true
  | w, op :: ops => (match op with | .whitelist .. => decide (underWay w < k) | _ => true) &&
      decide (w.st.maxDelegationAddresses ≤ (exec w op).st.maxDelegationAddresses) && chkFew k (exec w op) ops

private theorem few_of_run {k : Nat} (ops : List Op) (h : chkFew k fresh ops = true) : ReachableBy (FewAtATime k) (run fresh ops) := by
  refine ⟨fresh, fresh_isInit, trace_of_run (chkFew k) (fun w op ops h => ?_) ops fresh h⟩
  simp only [chkFew, Bool.and_eq_true] at h
  refine ⟨h.2, fun w' hs => ⟨?_, ?_⟩⟩
  · rintro c v p ad ts cap n apy rfl
    exact of_decide_eq_true h.1.1
  · have := of_decide_eq_true h.1.2
    have he : exec w op = w' := by unfold exec; rw [hs]
    rwa [he] at this

example : ∃ w, ReachableBy (FewAtATime 1) w ∧ works w (.claimRewards 1) = true ∧ w.st.maxDelegationAddresses ≤ 236 ∧
    w.st.delegList.length = 2 :=
  ⟨run fresh [.registerLsToken 1 0, .issued 0 (some 500), .registerUnstakeToken 1 0, .issued 0 (some 501), .owner 1 .stateActive,
      .setScoringConfig 1 ScoringConfig.default, .owner 1 (.maxAddresses 236),
      .whitelist 1 (E 1) 21 41 (E 1000) (E 1500) 10 800, .deliver 0 (.ok 0 0),
      .whitelist 1 (E 1) 22 42 (E 1000) 0 20 900, .deliver 0 (.ok 0 0)],
    few_of_run _ (by decide +kernel), by decide +kernel, by decide +kernel, by decide +kernel⟩

example : Reachable staked ∧ works staked (.claimRewards 1) = true ∧ staked.st.delegList.length = 2 :=
  ⟨staked_reachable, by decide +kernel, by decide +kernel⟩

end LS
