import Verif.Props.Live
import Verif.Proofs.Records

/-! Batches sent to the providers: C17, C18, C19, C20, C32, C36, C37. -/

namespace LS
open Spec Demo

/-- The batch of a list of selections. -/
def batchOf (sels : List Selection) : List (Addr × Nat) := sels.map fun s => (s.address, s.amount)

theorem batchTotal_eq : ∀ sels, batchTotal (batchOf sels) = selSum sels
  | [] => rfl
  | s :: sels => by rw [selSum_cons, ← batchTotal_eq sels]; rfl

theorem batchFor_eq (p : Addr) : ∀ sels, batchFor p (batchOf sels) = selAt p sels
  | [] => rfl
  | s :: sels => by
    have := batchFor_eq p sels
    simp only [batchOf, List.map_cons, batchFor, selAt] at this ⊢
    rw [this]

theorem delegations_eq (sels : List Selection) :
    sels.map (fun s => Flight.delegate s.address s.amount) = delegations (batchOf sels) := by
  simp [delegations, batchOf]

theorem undelegations_eq (sels : List Selection) :
    sels.map (fun s => Flight.undelegate s.address s.amount) = undelegations (batchOf sels) := by
  simp [undelegations, batchOf]

theorem delegations_inj {b b' : List (Addr × Nat)} (h : delegations b = delegations b') : b = b' := by
  unfold delegations at h
  refine List.map_injective_iff.2 ?_ h
  rintro ⟨a, x⟩ ⟨a', x'⟩ h
  simp only [Flight.delegate.injEq] at h
  simp [h]

theorem undelegations_inj {b b' : List (Addr × Nat)} (h : undelegations b = undelegations b') : b = b' := by
  unfold undelegations at h
  refine List.map_injective_iff.2 ?_ h
  rintro ⟨a, x⟩ ⟨a', x'⟩ h
  simp only [Flight.undelegate.injEq] at h
  simp [h]

theorem batchAsked_of {q a : Nat} {o : Option Nat} (h : batchAmount q o = .ok a) : batchAsked q o = a := by
  obtain ⟨_, _, _, _, ⟨rfl, rfl⟩ | rfl⟩ := batchAmount_ok h <;> rfl

theorem valid_of {q a : Nat} {o : Option Nat} (h : batchAmount q o = .ok a) : ValidBatch q o := by
  have hb := batchAmount_ok h
  unfold ValidBatch Whole
  rw [batchAsked_of h]
  have : MIN_EGLD = oneEgld := rfl
  omega

/-- **C17.** A delegation batch: what leaves the queue is what is sent, at most what was asked for, and nothing else in the
accounting moves. -/
theorem C17_delegatePending_exact {w w' : World} {c : Addr} {o : Option Nat} (h : step w (.delegatePending c o) = .ok w') :
    ∃ b, w'.flights = w.flights ++ delegations b ∧ ValidBatch (pendingEgld w) o ∧
      pendingEgld w' + batchTotal b = pendingEgld w ∧ batchTotal b ≤ batchAsked (pendingEgld w) o ∧
      egldOf w' w.self + batchTotal b = egldOf w w.self ∧ (∀ a, a ≠ w.self → egldOf w' a = egldOf w a) ∧
      w'.st.r = { w.st.r with pending := pendingEgld w' } ∧
      (∀ p, provider w' p = (provider w p).map fun d => { d with pStake := d.pStake + batchFor p b }) ∧
      w'.ls = w.ls ∧ w'.nft = w.nft := by
  obtain ⟨_, _, hm, t, amt, sels, left, E, D, _, hamt, hsum, hsub, htar, hE, hE', hD, _, _, rfl⟩ := delegatePending_ok h
  have hb := batchAmount_ok hamt
  refine ⟨batchOf sels, ?_, valid_of hamt, ?_, ?_, ?_, ?_, ?_, ?_, rfl, rfl⟩
  · rw [← delegations_eq]; rfl
  · rw [batchTotal_eq]
    show w.st.r.pending - selSum sels + selSum sels = w.st.r.pending
    omega
  · rw [batchTotal_eq]
    unfold pendingEgld
    rw [batchAsked_of hamt]
    omega
  · rw [batchTotal_eq]; exact hE
  · exact hE'
  · rfl
  · intro p
    rw [batchFor_eq]
    exact hD p

example : works deposited (.delegatePending 1 (some (E 60))) = true ∧
    (exec deposited (.delegatePending 1 (some (E 60)))).flights = delegations [(21, 14422930626810523385), (22, 45577069373189476615)] ∧
    pendingEgld deposited = E 150 := ⟨by decide +kernel, by decide +kernel, by decide +kernel⟩

/-- **C18.** Who receives delegations. -/
theorem C18_delegation_targets {w w' : World} {c : Addr} {o : Option Nat} {b : List (Addr × Nat)} (hr : Reachable w)
    (h : step w (.delegatePending c o) = .ok w') (hb : w'.flights = w.flights ++ delegations b)
    (hn : w.st.delegList.length < 2 ^ 32) :
    (b.map Prod.fst).Nodup ∧
    (∀ p a, (p, a) ∈ b → p ∈ w.st.delegList ∧ (∃ d, provider w p = some d ∧ d.eligible = true) ∧ oneEgld ≤ a) ∧
    b.length ≤ w.st.maxSelectedProviders ∧ b.length ≤ w.st.delegList.length ∧
    b.length ≤ batchAsked (pendingEgld w) o / oneEgld := by
  have hlen := delegatePending_len h (reachable_limits hr).1 hn
  obtain ⟨_, _, hm, t, amt, sels, left, E, D, _, hamt, hsum, hsub, htar, hE, hE', hD, _, _, rfl⟩ := delegatePending_ok h
  have hr0 : RegOk w.st.lsToken w.st.unstakeToken w.st.delegList w.st.undelegList w.st.data w.flights w.dead :=
    reachable_regInv hr
  have hbs : b = batchOf sels := by
    apply delegations_inj
    have hb' : w.flights ++ sels.map (fun s => Flight.delegate s.address s.amount) = w.flights ++ delegations b := hb
    rw [delegations_eq] at hb'
    exact (List.append_cancel_left hb').symm
  have hlen' : (w.flights ++ sels.map (fun s => Flight.delegate s.address s.amount)).length ≤
      w.flights.length + w.st.maxSelectedProviders := hlen
  rw [List.length_append, List.length_map] at hlen'
  have hfst : b.map Prod.fst = sels.map Selection.address := by rw [hbs]; simp [batchOf]
  have hbl : b.length = sels.length := by rw [hbs]; simp [batchOf]
  refine ⟨?_, ?_, by omega, ?_, ?_⟩
  · rw [hfst]; exact hsub.nodup hr0.nd1
  · intro p a hp
    rw [hbs] at hp
    obtain ⟨s, hs, hpa⟩ := List.mem_map.1 hp
    simp only [Prod.mk.injEq] at hpa
    obtain ⟨rfl, rfl⟩ := hpa
    obtain ⟨d, hd, he, ha, _⟩ := htar s hs
    exact ⟨hsub.subset (List.mem_map.2 ⟨s, hs, rfl⟩), ⟨d, hd, he⟩, ha⟩
  · have := hsub.length_le
    rw [List.length_map] at this
    omega
  · unfold pendingEgld
    rw [batchAsked_of hamt, hbl, Nat.le_div_iff_mul_le (show 0 < oneEgld from MIN_EGLD_pos)]
    have := selSum_ge (mn := MIN_EGLD) (l := sels) fun s hs => (htar s hs).choose_spec.2.2.1
    have hone : MIN_EGLD = oneEgld := rfl
    rw [hone] at this
    omega

example : Reachable deposited ∧ works deposited (.delegatePending 1 (some (E 1))) = true ∧
    (exec deposited (.delegatePending 1 (some (E 1)))).flights = delegations [(21, E 1)] ∧ deposited.st.delegList = [21, 22] :=
  ⟨deposited_reachable, by decide +kernel, by decide +kernel, by decide +kernel⟩

/-- **C19 is false of the code**: a capped provider that nobody touches ends up with more than its cap.  Room is computed from
the declared total, which no delegation updates. -/
theorem C19_false : ∃ w p d, Reachable w ∧ provider w p = some d ∧ d.cap ≠ 0 ∧ d.cap < d.staked + d.pStake ∧
    ∃ c v ad ts n apy w0 ops, Reachable w0 ∧ w = run w0 (.whitelist c v p ad ts d.cap n apy :: ops) ∧
      ∀ op ∈ ops, ∀ c' ts' cap' n' apy' e, op ≠ .changeParams c' p ts' cap' n' apy' e := by
  refine ⟨run active [.whitelist 1 (E 1) 21 41 (E 10) (E 15) 10 800, .deliver 0 (.ok 0 0), .delegate 11 (E 100),
    .delegatePending 1 (some (E 5)), .deliver 0 (.ok 0 0), .delegatePending 1 (some (E 5)), .deliver 0 (.ok 0 0),
    .delegatePending 1 (some (E 5)), .deliver 0 (.ok 0 0)], 21,
    ⟨41, E 10, E 15, 10, 800, E 16, 0, true, 0, 0⟩, reachable_run active_reachable _, by decide +kernel, by decide +kernel,
    by decide +kernel, 1, E 1, 41, E 10, 10, 800, active, _, active_reachable, rfl, ?_⟩
  intro op hop c' ts' cap' n' apy' e
  simp only [List.mem_cons, List.not_mem_nil, or_false] at hop
  rintro rfl
  simp at hop

/-- **C19, what does hold.**  The full claim (cumulative) is refuted by `C19_false`.  True of every batch is: a capped provider is
addressed only if, before the batch, its net stake leaves room for one EGLD under the cap; it receives at most the room left by
its declared total; so after the batch its net stake is below twice the cap. -/
theorem C19_partial {w w' : World} {c : Addr} {o : Option Nat} {p : Addr} {d d' : ProviderData} (hr : Reachable w)
    (h : step w (.delegatePending c o) = .ok w') (hd : provider w p = some d) (hd' : provider w' p = some d') (hcap : d.cap ≠ 0)
    (hch : d ≠ d') :
    netStake w p + oneEgld ≤ d.cap ∧ d.totalStaked + (d'.pStake - d.pStake) ≤ d.cap ∧
    netStake w' p = netStake w p + (d'.pStake - d.pStake) ∧
    netStake w' p + oneEgld + d.totalStaked ≤ 2 * d.cap := by
  have hone : MIN_EGLD = oneEgld := rfl
  have hp := pstep p (reachable_regInv hr) h
  unfold provider at hd hd'
  have n1 : netStake w p = d.staked + d.pStake - d.pUnstake := by unfold netStake figure provider; rw [hd]
  have n2 : netStake w' p = d'.staked + d'.pStake - d'.pUnstake := by unfold netStake figure provider; rw [hd']
  rw [n1, n2]
  clear n1 n2
  rw [hd, hd'] at hp
  generalize ho : some d = x at hp
  generalize ho' : some d' = x' at hp
  cases hp with
  | same => rw [← ho'] at ho; cases ho; exact absurd rfl hch
  | sent dd c' o' a hop hm ha he hn hc =>
    cases ho; cases ho'
    rcases hc with hc | hc
    · exact absurd hc hcap
    · dsimp only; omega
  | added => cases ho
  | dropped => cases ho'
  | admin _ _ _ hop => cases hop
  | params _ _ _ _ _ _ _ hop => cases hop
  | asked _ _ _ _ hop => cases hop
  | stakeOk _ _ _ _ _ hop => cases hop
  | stakeErr _ _ _ hop => cases hop
  | unstakeOk _ _ _ _ _ hop => cases hop
  | unstakeErr _ _ _ hop => cases hop
  | returned _ _ _ _ hop => cases hop
  | joined _ _ _ _ _ _ hop => cases hop

example : works deposited (.delegatePending 1 none) = true ∧ netStake deposited 21 = E 1 ∧
    (∃ d, provider deposited 21 = some d ∧ d.cap = E 1500) ∧ netStake (exec deposited (.delegatePending 1 none)) 21 ≠ E 1 :=
  ⟨by decide +kernel, by decide +kernel, ⟨_, rfl, by decide +kernel⟩, by decide +kernel⟩

/-- **C20.** An un-delegation batch. -/
theorem C20_unDelegatePending_exact {w w' : World} {c : Addr} {o : Option Nat} (hr : Reachable w)
    (h : step w (.unDelegatePending c o) = .ok w') :
    ∃ b, w'.flights = w.flights ++ undelegations b ∧ ValidBatch (toUndelegate w) o ∧
      toUndelegate w' + batchTotal b = toUndelegate w ∧ batchTotal b ≤ batchAsked (toUndelegate w) o ∧
      (b.map Prod.fst).Nodup ∧ b.length ≤ w.st.maxSelectedProviders ∧
      (∀ p a, (p, a) ∈ b → p ∈ w.st.undelegList ∧ oneEgld ≤ a ∧ a ≤ netStake w p ∧ Whole (netStake w p - a) ∧
        netStake w' p + a = netStake w p) ∧
      (∀ a, egldOf w' a = egldOf w a) ∧ w'.st.r = { w.st.r with toUnstake := toUndelegate w' } ∧
      (∀ p, provider w' p = (provider w p).map fun d => { d with pUnstake := d.pUnstake + batchFor p b }) ∧
      w'.ls = w.ls ∧ w'.nft = w.nft := by
  have hlen := unDelegatePending_len h
  obtain ⟨_, _, hm, t, amt, sels, left, E, D, _, hamt, hsum, hsub, htar, hE, hD, _, _, rfl⟩ := unDelegatePending_ok h
  have hr0 : RegOk w.st.lsToken w.st.unstakeToken w.st.delegList w.st.undelegList w.st.data w.flights w.dead :=
    reachable_regInv hr
  have hb := batchAmount_ok hamt
  have hnd : (sels.map Selection.address).Nodup := hsub.nodup hr0.nd2
  have hlen' : (w.flights ++ sels.map (fun s => Flight.undelegate s.address s.amount)).length ≤
      w.flights.length + w.st.maxSelectedProviders := hlen
  rw [List.length_append, List.length_map] at hlen'
  refine ⟨batchOf sels, ?_, valid_of hamt, ?_, ?_, ?_, ?_, ?_, hE, rfl, ?_, rfl, rfl⟩
  · rw [← undelegations_eq]; rfl
  · rw [batchTotal_eq]
    show w.st.r.toUnstake - selSum sels + selSum sels = w.st.r.toUnstake
    omega
  · rw [batchTotal_eq]
    unfold toUndelegate
    rw [batchAsked_of hamt]
    omega
  · have : (batchOf sels).map Prod.fst = sels.map Selection.address := by simp [batchOf]
    rw [this]; exact hnd
  · unfold batchOf; rw [List.length_map]; omega
  · intro p a hp
    obtain ⟨s, hs, hpa⟩ := List.mem_map.1 hp
    simp only [Prod.mk.injEq] at hpa
    obtain ⟨rfl, rfl⟩ := hpa
    obtain ⟨d, hd, ha, hn, hle, hdust⟩ := htar s hs
    have hsel : selAt s.address sels = s.amount := by
      rcases selAt_mem (a := s.address) hnd with ⟨_, hx⟩ | ⟨q, hq, hqa, hq2⟩
      · exact absurd (List.mem_map.2 ⟨s, hs, rfl⟩) hx
      · rw [hq2, List.inj_on_of_nodup_map hnd hq hs hqa]
    have hd' := hD s.address
    rw [hd, hsel] at hd'
    have n1 : netStake w s.address = d.staked + d.pStake - d.pUnstake := by unfold netStake figure provider; rw [hd]
    have n2 : ∀ w2 : World, w2.st.data = D → netStake w2 s.address = d.staked + d.pStake - (d.pUnstake + s.amount) := by
      intro w2 h2
      unfold netStake figure provider; rw [h2, hd']; rfl
    rw [n1, n2 _ rfl]
    refine ⟨hsub.subset (List.mem_map.2 ⟨s, hs, rfl⟩), ha, hle, hdust, by omega⟩
  · intro p
    rw [batchFor_eq]
    exact hD p

example : Reachable redeemed ∧ works redeemed (.unDelegatePending 1 none) = true ∧
    (exec redeemed (.unDelegatePending 1 none)).flights = undelegations [(21, 38672954215174376577), (22, 3095466837457202370)] ∧
    netStake redeemed 21 = 38672954215174376577 :=
  ⟨redeemed_reachable, by decide +kernel, by decide +kernel, by decide +kernel⟩

/-- **C32.** After a batch the providers not addressed keep their order and the addressed ones follow, in the order addressed;
the other list does not move. -/
theorem C32_round_robin {w w' : World} {c : Addr} {o : Option Nat} {b : List (Addr × Nat)} (hr : Reachable w) :
    (step w (.delegatePending c o) = .ok w' → w'.flights = w.flights ++ delegations b →
      w'.st.delegList = w.st.delegList.filter (fun p => p ∉ b.map Prod.fst) ++ b.map Prod.fst ∧
      w'.st.undelegList = w.st.undelegList ∧ (b.map Prod.fst).Sublist w.st.delegList) ∧
    (step w (.unDelegatePending c o) = .ok w' → w'.flights = w.flights ++ undelegations b →
      w'.st.undelegList = w.st.undelegList.filter (fun p => p ∉ b.map Prod.fst) ++ b.map Prod.fst ∧
      w'.st.delegList = w.st.delegList ∧ (b.map Prod.fst).Sublist w.st.undelegList) := by
  have hr0 : RegOk w.st.lsToken w.st.unstakeToken w.st.delegList w.st.undelegList w.st.data w.flights w.dead :=
    reachable_regInv hr
  constructor
  · intro h hb
    obtain ⟨_, _, hm, t, amt, sels, left, E, D, _, hamt, hsum, hsub, htar, hE, hE', hD, _, _, rfl⟩ := delegatePending_ok h
    have hb' : w.flights ++ sels.map (fun s => Flight.delegate s.address s.amount) = w.flights ++ delegations b := hb
    rw [delegations_eq] at hb'
    have hbs : batchOf sels = b := delegations_inj (List.append_cancel_left hb')
    have hfst : b.map Prod.fst = sels.map Selection.address := by rw [← hbs]; simp [batchOf]
    rw [hfst]
    refine ⟨?_, rfl, hsub⟩
    show sels.foldl (fun l s => moveToBack l s.address) w.st.delegList = _
    rw [foldMove_sels, foldMove_eq hr0.nd1 (hsub.nodup hr0.nd1)]
  · intro h hb
    obtain ⟨_, _, hm, t, amt, sels, left, E, D, _, hamt, hsum, hsub, htar, hE, hD, _, _, rfl⟩ := unDelegatePending_ok h
    have hb' : w.flights ++ sels.map (fun s => Flight.undelegate s.address s.amount) = w.flights ++ undelegations b := hb
    rw [undelegations_eq] at hb'
    have hbs : batchOf sels = b := undelegations_inj (List.append_cancel_left hb')
    have hfst : b.map Prod.fst = sels.map Selection.address := by rw [← hbs]; simp [batchOf]
    rw [hfst]
    refine ⟨?_, rfl, hsub⟩
    show sels.foldl (fun l s => moveToBack l s.address) w.st.undelegList = _
    rw [foldMove_sels, foldMove_eq hr0.nd2 (hsub.nodup hr0.nd2)]

/-- One EGLD goes to the head of the list, which then moves to the back. -/
example : deposited.st.delegList = [21, 22] ∧ (exec deposited (.delegatePending 1 (some (E 1)))).flights = delegations [(21, E 1)] ∧
    (exec deposited (.delegatePending 1 (some (E 1)))).st.delegList = [22, 21] :=
  ⟨by decide +kernel, by decide +kernel, by decide +kernel⟩

/-- **C36 is false of the code**: the admin of a provider with stake lowers its cap below that stake, and from then on every
`delegatePending` by anybody, of any amount, fails. -/
theorem C36_false : ∃ w w' : World, Reachable w ∧ (∃ c o, works w (.delegatePending c o) = true) ∧
    (∃ ad p ts cap n apy e, isManager w ad = false ∧ step w (.changeParams ad p ts cap n apy e) = .ok w') ∧
    ∀ c o, ¬ ∃ w'', step w' (.delegatePending c o) = .ok w'' := by
  have hr : Reachable (run settled [.delegate 11 (E 50)]) := reachable_run settled_reachable _
  have hw : works (run settled [.delegate 11 (E 50)]) (.changeParams 41 21 0 (E 1) 10 800 true) = true := by decide +kernel
  refine ⟨_, _, hr, ⟨1, none, by decide +kernel⟩, ⟨41, 21, 0, E 1, 10, 800, true, by decide +kernel, step_exec hw⟩, fun c o => ?_⟩
  exact delegatePending_poisoned (a := 21) (l := [22]) (d := ⟨41, 0, E 1, 10, 800, 38672954215174376577, 0, true, 0, 0⟩)
    (by decide +kernel) (by decide +kernel) rfl (by decide) (by decide) c o

/-- A provider whose own figures are consistent: no more asked back than there is, and its stake within its cap. -/
def Consistent (w : World) (p : Addr) : Prop :=
  ∃ d, provider w p = some d ∧ (d.eligible = true → d.pUnstake ≤ d.staked + d.pStake ∧ (d.cap = 0 ∨ netStake w p ≤ d.cap))

/-- A provider that takes another EGLD. -/
def HasRoom (w : World) (p : Addr) : Prop :=
  ∃ d, provider w p = some d ∧ d.eligible = true ∧ (d.cap = 0 ∨ netStake w p + oneEgld ≤ d.cap)

/-- **C36, what does hold.**  The full claim ("no parameter update can make `delegatePending` fail for everyone") is refuted by
`C36_false`.  True is: as long as the eligible providers are consistent and one of them has room, `delegatePending` of any
valid amount by any manager succeeds.  Missing from the code is a check of the new cap against the stake. -/
theorem C36_partial {w : World} {c : Addr} {o : Option Nat} {cfg : ScoringConfig} (hr : ReachableBy HonestManager w)
    (hc : c ≠ w.self) (ht : w.st.lsToken ≠ none) (ha : w.st.state = .active) (hm : isManager w c = true)
    (hv : ValidBatch (pendingEgld w) o) (hcfg : w.st.scoring = some cfg)
    (hu : cfg.minNodes ≠ cfg.maxNodes ∧ cfg.minApy ≠ cfg.maxApy) (hlen : w.st.delegList.length < 2 ^ 32)
    (hall : ∀ p ∈ w.st.delegList, Consistent w p) (hop : ∃ p ∈ w.st.delegList, HasRoom w p) :
    ∃ w', step w (.delegatePending c o) = .ok w' := by
  have hR := reachableBy_reachable hr
  have hsol := C09_solvent hr
  have hone : MIN_EGLD = oneEgld := rfl
  unfold pendingEgld withdrawable feesReserve egldOf at hsol
  unfold ValidBatch batchAsked Whole pendingEgld at hv
  have hnet : ∀ {p d}, provider w p = some d → netStake w p = d.staked + d.pStake - d.pUnstake := by
    intro p d hd; unfold netStake figure; rw [hd]
  have hcapOk := reachable_capOk hR
  apply NoErr.all
  intro e
  refine ne_delegatePending hc ht ha hm (by omega) hv.2.1 (by omega) (by omega) (reachable_limits hR).1 hlen hcfg hu ?_ ?_
  · intro p hp
    obtain ⟨d, hd, hh⟩ := hall p hp
    refine ⟨d, hd, fun he => ?_⟩
    obtain ⟨h1, h2⟩ := hh he
    rw [hnet hd] at h2
    have := hcapOk p d hd
    omega
  · obtain ⟨p, hp, d, hd, he, h2⟩ := hop
    obtain ⟨d', hd', hh⟩ := hall p hp
    rw [hd] at hd'
    cases hd'
    obtain ⟨h1, _⟩ := hh he
    rw [hnet hd] at h2
    refine ⟨p, hp, d, hd, ?_⟩
    unfold isProviderEligible
    rw [if_neg (by simp [he])]
    split
    · rfl
    · next hc0 =>
      have h3 := h2.resolve_left hc0
      have hx : d.totalWithPending = .ok (d.staked + d.pStake - d.pUnstake) := totalWithPending_ok.2 ⟨h1, rfl⟩
      have hy : csub d.cap (d.staked + d.pStake - d.pUnstake) = .ok (d.cap - (d.staked + d.pStake - d.pUnstake)) :=
        csub_ok.2 ⟨by omega, rfl⟩
      rw [hx]
      show (csub d.cap (d.staked + d.pStake - d.pUnstake) >>= fun space => Except.ok (decide (MIN_EGLD ≤ space))) = .ok true
      rw [hy]
      show Except.ok (decide (MIN_EGLD ≤ _)) = Except.ok true
      congr 1
      exact decide_eq_true (by omega)

example : works deposited (.delegatePending 1 none) = true ∧ deposited.st.delegList = [21, 22] ∧
    ValidBatch (pendingEgld deposited) none ∧ (∃ d, provider deposited 22 = some d ∧ d.eligible = true ∧ d.cap = 0) :=
  ⟨by decide +kernel, by decide +kernel, ⟨by decide +kernel, by decide +kernel, .inl (by decide +kernel)⟩,
    ⟨_, rfl, by decide +kernel, by decide +kernel⟩⟩

/-- The state used in `C37_false`: a delegation of 1 EGLD failed after 2.2 of the then 3.5 EGLD were asked back. -/
def dusty : World := run active [.whitelist 1 (E 1) 22 42 (E 1000) 0 20 900, .deliver 0 (.ok 0 0), .delegate 11 1500000000000000000,
  .delegatePending 1 none, .deliver 0 (.ok 0 0), .delegate 11 (E 1), .delegatePending 1 none,
  .unDelegate 11 0 [⟨500, 0, 2200000000000000000⟩], .unDelegatePending 1 none, .deliver 0 .err, .transferLs 1 11 (E 1),
  .unDelegate 11 0 [⟨500, 0, 1300000000000000000⟩]]

/-- **C37 is false of the code**: a remainder of 0.3 EGLD at one provider makes every `unDelegatePending` fail, although the
queue holds a valid amount and the scoring configuration is the default one. -/
theorem C37_false : ∃ w, Reachable w ∧ w.st.state = .active ∧ w.st.scoring = some ScoringConfig.default ∧
    ValidBatch (toUndelegate w) none ∧ (∃ p ∈ w.st.undelegList, 0 < netStake w p ∧ netStake w p < oneEgld) ∧
    ∀ c o, ¬ ∃ w', step w (.unDelegatePending c o) = .ok w' := by
  refine ⟨dusty, reachable_run active_reachable _, by decide +kernel, by decide +kernel,
    ⟨by decide +kernel, by decide +kernel, .inl (by decide +kernel)⟩, ⟨22, by decide +kernel, by decide +kernel, by decide +kernel⟩,
    fun c o => ?_⟩
  exact unDelegatePending_poisoned (a := 22) (l := [])
    (d := ⟨42, E 1000, 0, 20, 900, 2500000000000000000, 0, false, 0, 2200000000000000000⟩)
    (by decide +kernel) (by decide +kernel) (by decide) (by decide) (by decide +kernel) (by decide +kernel) c o

/-- No delegation failed in this transaction. -/
def NoFailedDelegation (w : World) (op : Op) (_ : World) : Prop :=
  ∀ i p a, op = .deliver i .err → w.flights[i]? ≠ some (.delegate p a)

/-- **C37, what does hold.**  The full claim is refuted by `C37_false`.  True is: in every history in which no delegation to a
provider failed, every provider's net stake is zero or at least one EGLD, and `unDelegatePending` of any valid amount succeeds
whenever some provider has stake. -/
theorem C37_partial {w : World} {c : Addr} {o : Option Nat} {cfg : ScoringConfig} (hr : ReachableBy NoFailedDelegation w)
    (hc : c ≠ w.self) (ht : w.st.lsToken ≠ none) (ha : w.st.state = .active) (hm : isManager w c = true)
    (hv : ValidBatch (toUndelegate w) o) (hcfg : w.st.scoring = some cfg)
    (hu : cfg.minNodes ≠ cfg.maxNodes ∧ cfg.minApy ≠ cfg.maxApy) (hms : w.st.maxSelectedProviders < 2 ^ 32)
    (hlen : w.st.undelegList.length < 2 ^ 32) (hop : ∃ p ∈ w.st.undelegList, 0 < netStake w p) :
    (∀ p, Whole (netStake w p)) ∧ ∃ w', step w (.unDelegatePending c o) = .ok w' := by
  have hR := reachableBy_reachable hr
  have hr0 : RegOk w.st.lsToken w.st.unstakeToken w.st.delegList w.st.undelegList w.st.data w.flights w.dead :=
    reachable_regInv hR
  have hone : MIN_EGLD = oneEgld := rfl
  have hw := net_whole hr
  have hnet : ∀ {p d}, provider w p = some d → netStake w p = d.staked + d.pStake - d.pUnstake := by
    intro p d hd; unfold netStake figure; rw [hd]
  have hcapOk := reachable_capOk hR
  refine ⟨fun p => ?_, ?_⟩
  · cases hd : provider w p with
    | none => unfold netStake figure Whole; rw [hd]; exact .inl rfl
    | some d =>
      have := (hw p d hd).2
      rw [hnet hd]
      exact this
  · unfold ValidBatch batchAsked Whole toUndelegate at hv
    apply NoErr.all
    intro e
    refine ne_unDelegatePending hc ht ha hm (by omega) hv.2.1 (by omega) (reachable_limits hR).1 hms hlen hcfg hu ?_ ?_
    · intro p hp
      obtain ⟨d, hd⟩ := Option.ne_none_iff_exists'.1 (hr0.recd p ((hr0.same p).2 hp))
      obtain ⟨h1, h2⟩ := hw p d hd
      have := hcapOk p d hd
      exact ⟨d, hd, h1, by omega, h2⟩
    · obtain ⟨p, hp, h0⟩ := hop
      obtain ⟨d, hd⟩ := Option.ne_none_iff_exists'.1 (hr0.recd p ((hr0.same p).2 hp))
      rw [hnet hd] at h0
      exact ⟨p, hp, d, hd, by omega⟩

/-- None of these transactions delivers a failure. -/
def noFailures : List Op → Bool
  | [] => true
  | op :: ops => (match op with | .deliver _ .err => false | _ => true) && noFailures ops

theorem reachableBy_noFail {w : World} {ops : List Op} (hr : ReachableBy NoFailedDelegation w) (h : noFailures ops = true) :
    ReachableBy NoFailedDelegation (run w ops) := by
  obtain ⟨w0, hi, ht⟩ := hr
  have h2 : Trace NoFailedDelegation w (run w ops) := trace_of_run (fun _ => noFailures) (fun w op ops h => ?_) ops w h
  · refine ⟨w0, hi, ?_⟩
    generalize run w ops = w2 at h2
    induction h2 with
    | nil => exact ht
    | snoc op _ hs hp ih => exact .snoc op ih hs hp
  simp only [noFailures, Bool.and_eq_true] at h
  refine ⟨h.2, fun w' _ i p a ho => ?_⟩
  subst ho
  exact absurd h.1 (by simp)

theorem redeemed_noFail : ReachableBy NoFailedDelegation redeemed := by
  unfold redeemed settled staked deposited providers active
  exact reachableBy_noFail (reachableBy_noFail (reachableBy_noFail (reachableBy_noFail (reachableBy_noFail (reachableBy_noFail
    ⟨_, fresh_isInit, .nil⟩ rfl) rfl) rfl) rfl) rfl) rfl

example : ReachableBy NoFailedDelegation redeemed ∧ 1 ≠ redeemed.self ∧ redeemed.st.lsToken = some 500 ∧ redeemed.st.state = .active ∧
    isManager redeemed 1 = true ∧ ValidBatch (toUndelegate redeemed) none ∧ redeemed.st.scoring = some ScoringConfig.default ∧
    redeemed.st.maxSelectedProviders = 25 ∧ redeemed.st.undelegList = [21, 22] ∧ E 1 < netStake redeemed 21 :=
  ⟨redeemed_noFail, by decide +kernel, by decide +kernel, by decide +kernel, by decide +kernel,
    ⟨by decide +kernel, by decide +kernel, .inl (by decide +kernel)⟩, by decide +kernel, by decide +kernel, by decide +kernel, by decide +kernel⟩

end LS
