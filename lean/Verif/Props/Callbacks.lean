import Verif.Props.Batch
import Verif.Proofs.CallbackLemmas

/-! Callbacks, rewards, fees, whitelisting, events: C21, C22, C23, C24, C29, C40, C41. -/

namespace LS
open Spec Demo

/-- **C21.** The in-flight counters of a provider are the calls whose callback has not taken effect. -/
theorem C21_counters_in_flight {w : World} (hr : Reachable w) (p : Addr) :
    figure (·.pStake) w p = delegationsTo p (unsettled w) ∧ figure (·.pUnstake) w p = undelegationsFrom p (unsettled w) :=
  ⟨pStake_inFlight (reachable_regInv hr) p, pUnstake_inFlight (reachable_regInv hr) p⟩

/-- **C21**, delegations: as long as no callback runs out of gas, the counter is exactly the calls in flight, since the callback of a
delegation never fails. -/
theorem C21_delegations_in_flight {w : World} (hr : ReachableBy Fueled w) (p : Addr) :
    figure (·.pStake) w p = delegationsTo p w.flights ∧ delegationsTo p w.dead = 0 := by
  have h1 := pStake_inFlight (reachable_regInv (reachableBy_reachable hr)) p
  have h0 : ∀ l : List Flight, (∀ q a, Flight.delegate q a ∉ l) → delegationsTo p l = 0 := by
    intro l
    induction l with
    | nil => intro _; rfl
    | cons f l ih =>
      intro h
      have h' := ih fun q a hm => h q a (List.mem_cons_of_mem _ hm)
      cases f with
      | delegate q a => exact absurd List.mem_cons_self (h q a)
      | _ => exact h'
  have h2 := h0 w.dead (reachable_dead hr)
  refine ⟨?_, h2⟩
  rw [h1, unsettled, delegationsTo_eq, fsum_append, ← delegationsTo_eq, ← delegationsTo_eq, h2]
  rfl

example : Reachable staked ∧ figure (·.pStake) staked 21 = 1615627648148068116 ∧ staked.flights ≠ [] :=
  ⟨staked_reachable, by decide +kernel, by decide +kernel⟩

theorem deliver_of_cb {w w' : World} {i : Nat} {o : Outcome} {f : Flight} (hf : w.flights[i]? = some f)
    (h : runCallback (arrive w i f o) f o = .ok w') : step w (.deliver i o) = .ok w' := by
  show deliver w i o = _
  unfold deliver
  rw [hf]
  simp only [h]

/-- **C22**, delegations: the callback of a failed delegation always succeeds, puts exactly the amount back to pending EGLD,
releases exactly the counter, makes the provider ineligible, and changes nothing else. -/
theorem C22_failed_delegation {w : World} (hr : Reachable w) {i : Nat} {p : Addr} {a : Nat}
    (hf : w.flights[i]? = some (.delegate p a)) :
    ∃ w' d, step w (.deliver i .err) = .ok w' ∧ provider w p = some d ∧ a ≤ d.pStake ∧
      w'.flights = w.flights.eraseIdx i ∧ w'.dead = w.dead ∧
      w'.st.r = { w.st.r with pending := pendingEgld w + a } ∧
      provider w' p = some { d with eligible := false, pStake := d.pStake - a } ∧ (∀ q, q ≠ p → provider w' q = provider w q) ∧
      egldOf w' w.self = egldOf w w.self + a ∧ (∀ b, b ≠ w.self → egldOf w' b = egldOf w b) ∧
      w'.ls = w.ls ∧ w'.nft = w.nft ∧ w'.st.delegList = w.st.delegList ∧ w'.st.undelegList = w.st.undelegList := by
  obtain ⟨t, d, ht, hd, ha, _, _⟩ := delegate_flight hr (List.mem_of_getElem? hf)
  have hcb := addLiquidityCb_false_ok (w := arrive w i (.delegate p a) .err) (p := p) (a := a).2 ⟨t, d, ht, hd, ha, rfl⟩
  refine ⟨_, d, deliver_of_cb hf hcb, hd, ha, rfl, rfl, rfl, ?_, ?_, ?_, ?_, rfl, rfl, rfl, rfl⟩
  · have : (w.st.data.set p (some { d with eligible := false, pStake := d.pStake - a })).get none p = _ := Map.get_set ..
    rw [if_pos rfl] at this
    exact this
  · intro q hq
    have : (w.st.data.set p (some { d with eligible := false, pStake := d.pStake - a })).get none q = _ := Map.get_set ..
    rw [if_neg hq.symm] at this
    exact this
  · show (credit w.egld w.self a).get 0 w.self = _
    rw [get_credit, if_pos rfl]; rfl
  · intro b hb
    show (credit w.egld w.self a).get 0 b = _
    rw [get_credit, if_neg hb.symm]; rfl

/-- **C22**, un-delegations. -/
theorem C22_failed_undelegation {w : World} (hr : Reachable w) {i : Nat} {p : Addr} {a : Nat}
    (hf : w.flights[i]? = some (.undelegate p a)) :
    ∃ w' d, step w (.deliver i .err) = .ok w' ∧ provider w p = some d ∧ a ≤ d.pUnstake ∧
      w'.flights = w.flights.eraseIdx i ∧ w'.dead = w.dead ∧
      w'.st.r = { w.st.r with toUnstake := toUndelegate w + a } ∧
      provider w' p = some { d with pUnstake := d.pUnstake - a } ∧ (∀ q, q ≠ p → provider w' q = provider w q) ∧
      (∀ b, egldOf w' b = egldOf w b) ∧
      w'.ls = w.ls ∧ w'.nft = w.nft ∧ w'.st.delegList = w.st.delegList ∧ w'.st.undelegList = w.st.undelegList := by
  obtain ⟨t, d, ht, hd, ha, _, _⟩ := undelegate_flight hr (List.mem_of_getElem? hf)
  have hcb := removeLiquidityCb_false_ok (w := arrive w i (.undelegate p a) .err) (p := p) (a := a).2 ⟨t, d, ht, hd, ha, rfl⟩
  refine ⟨_, d, deliver_of_cb hf hcb, hd, ha, rfl, rfl, rfl, ?_, ?_, ?_, rfl, rfl, rfl, rfl⟩
  · have : (w.st.data.set p (some { d with pUnstake := d.pUnstake - a })).get none p = _ := Map.get_set ..
    rw [if_pos rfl] at this
    exact this
  · intro q hq
    have : (w.st.data.set p (some { d with pUnstake := d.pUnstake - a })).get none q = _ := Map.get_set ..
    rw [if_neg hq.symm] at this
    exact this
  · intro b
    show (credit w.egld w.self 0).get 0 b = _
    rw [get_credit]
    split <;> simp [egldOf, *]

example : staked.flights[0]? = some (.delegate 21 1615627648148068116) ∧
    (exec redeemed (.unDelegatePending 1 none)).flights[1]? = some (.undelegate 22 3095466837457202370) :=
  ⟨by decide +kernel, by decide +kernel⟩

/-- **C23.** Rewards with a fee rate of at most 100 %: the callback succeeds and splits them exactly. -/
theorem C23_rewards_split {w : World} (hr : Reachable w) {i r g : Nat} {ps : List Addr} (hf : w.flights[i]? = some (.claim ps))
    (h0 : 0 < r) (hfee : w.st.feeRate ≤ 10000) :
    ∃ w', step w (.deliver i (.ok g r)) = .ok w' ∧
      w'.flights = w.flights.eraseIdx i ∧ w'.dead = w.dead ∧
      w'.st = { w.st with r := { w.st.r with
        fees := feesReserve w + r * w.st.feeRate / 10000,
        pending := pendingEgld w + (r - r * w.st.feeRate / 10000),
        reserve := reserve w + (r - r * w.st.feeRate / 10000) } } ∧
      r * w.st.feeRate / 10000 ≤ r ∧
      egldOf w' w.self = egldOf w w.self + g ∧ (∀ b, b ≠ w.self → egldOf w' b = egldOf w b) ∧ w'.ls = w.ls ∧ w'.nft = w.nft := by
  have hle : r * w.st.feeRate / 10000 ≤ r := by
    have h1 : r * w.st.feeRate ≤ r * 10000 := Nat.mul_le_mul_left r hfee
    exact Nat.div_le_of_le_mul (by omega)
  have ht : ∃ t, w.st.lsToken = some t := by
    refine Option.ne_none_iff_exists'.1 fun hn => ?_
    obtain ⟨p, v, u, h⟩ := reachable_noFlights hr hn _ (List.mem_of_getElem? hf)
    cases h
  obtain ⟨t, ht⟩ := ht
  have hcb := claimRewardsCb_ok (w := arrive w i (.claim ps) (.ok g r)) (total := r).2 (.inr ⟨h0, t, _, ht, rfl, hle, rfl⟩)
  refine ⟨_, deliver_of_cb hf hcb, rfl, rfl, rfl, hle, ?_, ?_, rfl, rfl⟩
  · show (credit w.egld w.self g).get 0 w.self = _
    rw [get_credit, if_pos rfl]; rfl
  · intro b hb
    show (credit w.egld w.self g).get 0 b = _
    rw [get_credit, if_neg hb.symm]; rfl

theorem share_gt {n r f : Nat} (hn : 0 < n) (h0 : n ≤ r) (hf : n < f) : r < r * f / n := by
  have h1 : r * (n + 1) ≤ r * f := Nat.mul_le_mul_left r hf
  refine (Nat.le_div_iff_mul_le hn).2 (Nat.le_trans ?_ h1)
  rw [Nat.succ_mul, Nat.mul_succ]
  omega

/-- **C23**, a fee rate above 100 %: the callback of any rewards of at least 10000 units fails, and the EGLD stays in the
contract without being credited anywhere. -/
theorem C23_rewards_lost {w : World} {i r g : Nat} {ps : List Addr} (hf : w.flights[i]? = some (.claim ps))
    (h0 : 10000 ≤ r) (hfee : 10000 < w.st.feeRate) :
    ∃ w', step w (.deliver i (.ok g r)) = .ok w' ∧ w'.st = w.st ∧ egldOf w' w.self = egldOf w w.self + g ∧
      w'.flights = w.flights.eraseIdx i ∧ w'.dead = w.dead ++ [.claim ps] := by
  have hlt : ¬ r * w.st.feeRate / 10000 ≤ r := Nat.not_le.2 (share_gt (by decide) h0 hfee)
  have hcb : ∃ e, claimRewardsCb (arrive w i (.claim ps) (.ok g r)) (some r) = .error e := by
    cases hx : claimRewardsCb (arrive w i (.claim ps) (.ok g r)) (some r) with
    | error e => exact ⟨e, rfl⟩
    | ok w1 =>
      rcases claimRewardsCb_ok.1 hx with ⟨h, _⟩ | ⟨_, t, fee, _, rfl, h, _⟩
      · omega
      · exact absurd h hlt
  obtain ⟨e, hcb⟩ := hcb
  refine ⟨{ arrive w i (.claim ps) (.ok g r) with dead := w.dead ++ [.claim ps] }, ?_, rfl, ?_, rfl, rfl⟩
  · show deliver w i (.ok g r) = _
    unfold deliver
    rw [hf]
    show (match claimRewardsCb (arrive w i (.claim ps) (.ok g r)) (some r) with | .ok w' => _ | .error _ => _) = _
    rw [hcb]
    rfl
  · show (credit w.egld w.self g).get 0 w.self = _
    rw [get_credit, if_pos rfl]; rfl

/-- Rewards of 10 EGLD on the way, at the fee of 4 %, and after the owner set 150 %. -/
example : (exec settled (.claimRewards 1)).flights[0]? = some (.claim [21, 22]) ∧
    (exec settled (.claimRewards 1)).st.feeRate = 400 ∧
    (run settled [.owner 1 (.fees 15000), .claimRewards 1]).flights[0]? = some (.claim [21, 22]) ∧
    (run settled [.owner 1 (.fees 15000), .claimRewards 1]).st.feeRate = 15000 :=
  ⟨by decide +kernel, by decide +kernel, by decide +kernel, by decide +kernel⟩

/-- **C24.** `claimFees` by anybody sends exactly the fees reserve to the accumulator and changes nothing else; with an empty
reserve it fails. -/
theorem C24_claimFees_exact {w w' : World} {c : Addr} {acc : Bool} (h : step w (.claimFees c acc) = .ok w') :
    0 < feesReserve w ∧ w.st.accumulator ≠ w.self ∧
    egldOf w' w.st.accumulator = egldOf w w.st.accumulator + feesReserve w ∧
    egldOf w' w.self + feesReserve w = egldOf w w.self ∧
    (∀ b, b ≠ w.self → b ≠ w.st.accumulator → egldOf w' b = egldOf w b) ∧
    w' = { w with egld := w'.egld, st := { w.st with r := { w.st.r with fees := 0 } } } := by
  obtain ⟨_, h0, hne, _, _, m, hm, rfl⟩ := claimFees_ok h
  have hle := debit_le hm
  refine ⟨h0, hne, ?_, ?_, ?_, rfl⟩
  · show (credit m w.st.accumulator w.st.r.fees).get 0 w.st.accumulator = _
    rw [get_credit, if_pos rfl, get_debit hm, if_neg hne.symm]; rfl
  · show (credit m w.st.accumulator w.st.r.fees).get 0 w.self + w.st.r.fees = w.egld.get 0 w.self
    rw [get_credit, if_neg hne, get_debit hm, if_pos rfl]; omega
  · intro b hb1 hb2
    show (credit m w.st.accumulator w.st.r.fees).get 0 b = _
    rw [get_credit, if_neg hb2.symm, get_debit hm, if_neg hb1.symm]; rfl

/-- **C24**, success: with fees to pay, anybody can have them paid to an accumulator that accepts them. -/
theorem C24_claimFees_succeeds {w : World} {c : Addr} (hr : ReachableBy HonestManager w) (hc : c ≠ w.self)
    (h0 : 0 < feesReserve w) (hacc : w.st.accumulator ≠ w.self) : ∃ w', step w (.claimFees c true) = .ok w' := by
  have hsol := C09_solvent hr
  unfold pendingEgld withdrawable feesReserve egldOf at hsol
  unfold feesReserve at h0
  have ht : ∃ t, w.st.lsToken = some t := by
    refine Option.ne_none_iff_exists'.1 fun hn => ?_
    have := reachable_quiet (reachableBy_reachable hr) hn
    rw [this] at h0
    exact absurd h0 (by decide)
  obtain ⟨t, ht⟩ := ht
  have hd : debit w.egld w.self w.st.r.fees = .ok _ := debit_ok.2 ⟨by omega, rfl⟩
  show ∃ w', claimFees w c true = .ok w'
  unfold claimFees claimFeesWith
  simp only [bind_ok, requireUser_ok, req_ok, exists_const, cacheNew_ok, sendEgld_ok, if_true, Except.ok.injEq]
  exact ⟨_, hc, _, ⟨t, ht, rfl⟩, h0, hacc, _, ⟨_, hd, rfl⟩, _, rfl, rfl⟩

example : ∃ w, Reachable w ∧ feesReserve w = 280000000000000000 ∧ works w (.claimFees 13 true) = true ∧ w.st.accumulator = 2 :=
  ⟨settled, settled_reachable, by decide +kernel, by decide +kernel, by decide +kernel⟩

/-- **C29 is false of the code** in one corner: a provider whitelisted before the LS token is issued, whose first delegation
fails, keeps its record and the caller is not paid back. -/
theorem C29_false : ∃ w w' p x u i, Reachable w ∧ w.flights[i]? = some (.whitelist p x u) ∧
    step w (.deliver i .err) = .ok w' ∧ provider w' p ≠ none ∧ egldOf w' u = egldOf w u ∧ 0 < x ∧ w'.flights = [] :=
  ⟨run fresh [.whitelist 1 (E 1) 21 41 0 0 10 800], run fresh [.whitelist 1 (E 1) 21 41 0 0 10 800, .deliver 0 .err],
    21, E 1, 1, 0, reachable_run (.init fresh_isInit) _, by decide +kernel, by decide +kernel, by decide +kernel,
    by decide +kernel, by decide +kernel, by decide +kernel⟩

/-- **C29**, joining.  A provider enters the lists only by the success of its first delegation of at least one EGLD, and then
the caller of the whitelisting gets the pro-rata LS tokens. -/
theorem C29_joins_partial {w w' : World} {op : Op} {p : Addr} (hr : Reachable w) (h : step w op = .ok w')
    (h0 : p ∉ w.st.delegList) (h1 : p ∈ w'.st.delegList) :
    ∃ i g r x u, op = .deliver i (.ok g r) ∧ w.flights[i]? = some (.whitelist p x u) ∧ oneEgld ≤ x ∧ u ≠ w.self ∧
      p ∈ w'.st.undelegList ∧ figure (·.staked) w' p = x ∧
      0 < lsFor (supply w) (reserve w) x ∧ lsOf w' u = lsOf w u + lsFor (supply w) (reserve w) x ∧
      supply w' = supply w + lsFor (supply w) (reserve w) x ∧ reserve w' = reserve w + x := by
  have hreg := reachable_regInv hr
  have hr0 : RegOk w.st.lsToken w.st.unstakeToken w.st.delegList w.st.undelegList w.st.data w.flights w.dead := hreg
  have hreg' : RegOk w'.st.lsToken w'.st.unstakeToken w'.st.delegList w'.st.undelegList w'.st.data w'.flights w'.dead :=
    regInv_step op hreg h
  cases lstep hreg h with
  | same hh => exact absurd ((hh p).1 h1) h0
  | joined i g r q x u hop hf ht hl =>
    subst hop
    have hq : p = q := by
      rw [hl, mem_setInsert] at h1
      exact h1.resolve_left h0
    subst hq
    obtain ⟨hx, hu⟩ := reachable_wl hr p x u (List.mem_of_getElem? hf)
    obtain ⟨f, hf', hcb | ⟨_, rfl⟩⟩ := deliver_ok h
    swap
    · exact absurd h1 h0
    rw [hf] at hf'
    cases hf'
    obtain ⟨t, d, l, _, hd, hq, rfl⟩ := whitelistCb_true_ok.1 hcb
    obtain ⟨hl0, hl1⟩ := lsQuote_iff.1 hq
    have hl1' : l = lsFor (supply w) (reserve w) x := hl1
    subst hl1'
    have hz := hr0.zero p d hd h0
    refine ⟨i, g, r, x, u, rfl, hf, hx, hu, (hreg'.same p).1 h1, ?_, hl0, ?_, rfl, rfl⟩
    · have hg : (w.st.data.set p (some { d with staked := d.staked + x })).get none p = _ := Map.get_set ..
      rw [if_pos rfl] at hg
      have : ∀ w2 : World, w2.st.data = w.st.data.set p (some { d with staked := d.staked + x }) → figure (·.staked) w2 p = x := by
        intro w2 h2
        unfold figure provider
        rw [h2, hg]
        show d.staked + x = x
        omega
      exact this _ rfl
    · show (mintTo w.ls w.self u (lsFor (supply w) (reserve w) x)).get 0 u = _
      rw [get_mintTo, if_pos rfl]; rfl

/-- **C32**, newcomers: a provider that joins is put last in both orders, the others keep their places. -/
theorem C32_newcomer_last {w w' : World} {op : Op} {p : Addr} (hr : Reachable w) (h : step w op = .ok w')
    (h0 : p ∉ w.st.delegList) (h1 : p ∈ w'.st.delegList) :
    w'.st.delegList = w.st.delegList ++ [p] ∧ w'.st.undelegList = w.st.undelegList ++ [p] := by
  obtain ⟨i, g, r, x, u, rfl, hf, _⟩ := C29_joins_partial hr h h0 h1
  have hr0 : RegOk w.st.lsToken w.st.unstakeToken w.st.delegList w.st.undelegList w.st.data w.flights w.dead := reachable_regInv hr
  obtain ⟨f, hf', hcb | ⟨_, rfl⟩⟩ := deliver_ok h
  swap
  · exact absurd h1 h0
  rw [hf] at hf'
  cases hf'
  obtain ⟨t, d, l, _, _, _, rfl⟩ := whitelistCb_true_ok.1 hcb
  exact ⟨if_neg h0, if_neg fun hc => h0 ((hr0.same p).2 hc)⟩

example : providers.st.delegList = [21, 22] ∧
    (run providers [.whitelist 1 (E 1) 23 41 0 0 10 800, .deliver 0 (.ok 0 0)]).st.delegList = [21, 22, 23] := by decide +kernel

/-- **C29**, failing.  The full claim has no condition on the token; see `C29_false`.  Once the LS token is issued, the failure
of the first delegation removes the record and pays the caller back in full. -/
theorem C29_refund_partial {w : World} (hr : Reachable w) {i : Nat} {p : Addr} {x : Nat} {u : Addr}
    (hf : w.flights[i]? = some (.whitelist p x u)) (ht : w.st.lsToken ≠ none) :
    ∃ w', step w (.deliver i .err) = .ok w' ∧ provider w' p = none ∧ p ∉ w'.st.delegList ∧ p ∉ w'.st.undelegList ∧
      egldOf w' u = egldOf w u + x ∧ (∀ b, b ≠ u → egldOf w' b = egldOf w b) ∧
      w'.st.r = w.st.r ∧ (∀ q, q ≠ p → provider w' q = provider w q) ∧ w'.flights = w.flights.eraseIdx i := by
  have hr0 : RegOk w.st.lsToken w.st.unstakeToken w.st.delegList w.st.undelegList w.st.data w.flights w.dead :=
    reachable_regInv hr
  obtain ⟨hx, hu⟩ := reachable_wl hr p x u (List.mem_of_getElem? hf)
  obtain ⟨hp, _⟩ := hr0.wl2 p x u (List.mem_of_getElem? hf)
  have hd : debit (arrive w i (.whitelist p x u) .err).egld w.self x = .ok _ := debit_ok.2 ⟨by
    show x ≤ (credit w.egld w.self x).get 0 w.self
    rw [get_credit, if_pos rfl]; omega, rfl⟩
  have hcb := whitelistCb_false_ok (w := arrive w i (.whitelist p x u) .err) (p := p) (a := x) (u := u).2 ⟨ht, _, hd, rfl⟩
  have hg : ∀ q, (w.st.data.set p none).get none q = _ := fun q => Map.get_set ..
  refine ⟨_, deliver_of_cb hf hcb, ?_, hp, fun h => hp ((hr0.same p).2 h), ?_, ?_, rfl, ?_, rfl⟩
  · have := hg p
    rw [if_pos rfl] at this
    exact this
  · show (credit _ u x).get 0 u = _
    rw [get_credit, if_pos rfl, get_debit hd, if_neg hu.symm]
    show (credit w.egld w.self x).get 0 u + x = _
    rw [get_credit, if_neg hu.symm]; rfl
  · intro b hb
    show (credit _ u x).get 0 b = _
    rw [get_credit, if_neg hb.symm, get_debit hd]
    show (if w.self = b then (credit w.egld w.self x).get 0 b - x else (credit w.egld w.self x).get 0 b) = _
    rw [get_credit]
    split
    · unfold egldOf; omega
    · rfl
  · intro q hq
    have := hg q
    rw [if_neg hq.symm] at this
    exact this

/-- **C29**, once only: a provider with a record (whitelisted, or waiting for its first delegation) cannot be whitelisted. -/
theorem C29_once_partial {w w' : World} {c : Addr} {v : Nat} {p ad : Addr} {ts cap : Nat} {n apy : UInt64}
    (h : step w (.whitelist c v p ad ts cap n apy) = .ok w') : provider w p = none ∧ oneEgld ≤ v ∧
      w'.flights = w.flights ++ [.whitelist p v c] ∧ w'.st.delegList = w.st.delegList := by
  obtain ⟨_, _, _, _, hn, _, hv, _, E, _, _, _, rfl⟩ := whitelist_ok h
  exact ⟨hn, hv, rfl, rfl⟩

/-- In `active` whitelisting works; its first delegation may be answered either way. -/
example : (exec active (.whitelist 1 (E 1) 21 41 (E 1000) (E 1500) 10 800)).flights[0]? = some (.whitelist 21 (E 1) 1) ∧
    (run active [.whitelist 1 (E 1) 21 41 (E 1000) (E 1500) 10 800, .deliver 0 (.ok 0 0)]).st.delegList = [21] ∧
    (run active [.whitelist 1 (E 1) 21 41 (E 1000) (E 1500) 10 800, .deliver 0 .err]).st.delegList = [] ∧
    works providers (.whitelist 1 (E 1) 21 41 (E 1000) (E 1500) 10 800) = false :=
  ⟨by decide +kernel, by decide +kernel, by decide +kernel, by decide +kernel⟩

/-- **C40.** Every event of a successful transaction reports the state in which the transaction ends; and a transaction that
changes any reserve figure emits a liquidity event, `claimFees` excepted. -/
theorem C40_events_report {w w' : World} {op : Op} (hr : Reachable w) (h : step w op = .ok w') :
    ∃ evs, w'.events = w.events ++ evs ∧ (∀ e ∈ evs, Reports w' e) ∧
      (w'.st.r ≠ w.st.r → (∀ c a, op ≠ .claimFees c a) → ∃ e ∈ evs, IsLiquidity e) := by
  obtain ⟨evs, h1, h2, h3⟩ := estep (reachable_regInv hr) h
  refine ⟨evs, h1, h2, fun hne hcf => ?_⟩
  rcases h3 with h3 | ⟨c, a, h3⟩ | h3
  · exact absurd h3 hne
  · exact absurd h3 (hcf c a)
  · exact h3

example : (exec settled (.delegate 11 (E 5))).events ≠ settled.events ∧ works settled (.delegate 11 (E 5)) = true :=
  ⟨by decide +kernel, by decide +kernel⟩

/-- **C41 is false of the code**: an accumulator that calls `claimFees` while being paid is paid twice, once from the fees and
once from the EGLD of everybody else. -/
theorem C41_false : ∃ w w' c, Reachable w ∧
    claimFeesWith (fun w1 => step w1 (.claimFees w.st.accumulator true)) w c = .ok w' ∧
    egldOf w' w.st.accumulator = egldOf w w.st.accumulator + 2 * feesReserve w ∧ 0 < feesReserve w ∧
    pendingEgld w ≤ egldOf w w.self ∧ egldOf w' w'.self < pendingEgld w' := by
  have h : (claimFeesWith (fun w1 => step w1 (.claimFees 2 true)) (run settled [.delegate 11 (E 5)]) 13).toBool = true := by
    decide +kernel
  cases hx : claimFeesWith (fun w1 => step w1 (.claimFees 2 true)) (run settled [.delegate 11 (E 5)]) 13 with
  | error e => rw [hx] at h; cases h
  | ok w' =>
    have key : ∀ x, claimFeesWith (fun w1 => step w1 (.claimFees 2 true)) (run settled [.delegate 11 (E 5)]) 13 = x →
        ∀ w', x = .ok w' → egldOf w' 2 = egldOf (run settled [.delegate 11 (E 5)]) 2 + 2 * feesReserve (run settled [.delegate 11 (E 5)]) ∧
          egldOf w' w'.self < pendingEgld w' := by
      rintro _ rfl w' hw
      have : (match claimFeesWith (fun w1 => step w1 (.claimFees 2 true)) (run settled [.delegate 11 (E 5)]) 13 with
        | .ok w' => decide (egldOf w' 2 = egldOf (run settled [.delegate 11 (E 5)]) 2 + 2 * feesReserve (run settled [.delegate 11 (E 5)]) ∧
          egldOf w' w'.self < pendingEgld w')
        | .error _ => false) = true := by decide +kernel
      rw [hw] at this
      exact of_decide_eq_true this
    obtain ⟨k1, k2⟩ := key _ rfl w' hx
    have hacc : (run settled [.delegate 11 (E 5)]).st.accumulator = 2 := by decide +kernel
    refine ⟨run settled [.delegate 11 (E 5)], w', 13, reachable_run settled_reachable _, ?_, ?_, by decide +kernel, by decide +kernel, k2⟩
    · rw [hacc]; exact hx
    · rw [hacc]; exact k1

/-- **C41, what does hold.**  The full claim (any accumulator) is refuted by `C41_false`.  If whatever the accumulator does
while being paid leaves this contract's storage and balance alone, the fees are paid exactly once. -/
theorem C41_partial {body : World → Res World} {w w' : World} {c : Addr} (h : claimFeesWith body w c = .ok w')
    (hb : ∀ a b, body a = .ok b → b.st = a.st ∧ egldOf b w.self = egldOf a w.self) :
    egldOf w' w.self + feesReserve w = egldOf w w.self ∧ w'.st = { w.st with r := { w.st.r with fees := 0 } } := by
  unfold claimFeesWith at h
  simp only [bind_ok, requireUser_ok, req_ok, exists_const, cacheNew_ok, sendEgld_ok, Except.ok.injEq] at h
  obtain ⟨h1, cc, ⟨t, ht, rfl⟩, h2, h3, w1, ⟨m, hm, rfl⟩, w2, h4, rfl⟩ := h
  obtain ⟨h5, h6⟩ := hb _ _ h4
  have hle := debit_le hm
  constructor
  · have h7 : egldOf w2 w.self + w.st.r.fees = egldOf w w.self := by
      rw [h6]
      show (credit m w.st.accumulator w.st.r.fees).get 0 w.self + w.st.r.fees = w.egld.get 0 w.self
      rw [get_credit, if_neg h3, get_debit hm, if_pos rfl]; exact Nat.sub_add_cancel hle
    exact h7
  · unfold commit
    rw [h5]

example : ∃ w', claimFeesWith (fun w1 => step w1 (.transferLs 12 13 1)) settled 13 = .ok w' := by
  have : (claimFeesWith (fun w1 => step w1 (.transferLs 12 13 1)) settled 13).toBool = true := by decide +kernel
  cases h : claimFeesWith (fun w1 => step w1 (.transferLs 12 13 1)) settled 13 with
  | ok w' => exact ⟨w', rfl⟩
  | error e => rw [h] at this; cases this

end LS
