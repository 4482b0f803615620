import Verif.Proofs.Network
import Verif.Proofs.Refusal

/-! The network of contract and mocks: C56–C59. -/

namespace LS
open Spec Demo

/-! ### C56 -/

private theorem allCarried_eq : ∀ l, allCarried l = fsum carried l
  | [] => rfl
  | f :: l => by rw [fsum_cons, ← allCarried_eq l]; rfl

/-- **C56.** EGLD is neither created nor lost: in every transaction the EGLD of all accounts, of the delegations in flight and of
the token issues awaited changes only by what comes in (`fund`, an answer) and what goes out (an accepted delegation, a
successful issue). -/
theorem C56_egld_conserved {w w' : World} {op : Op} (hr : Reachable w) (hs : step w op = .ok w') {t t' : Nat}
    (ht : IsSum (egldOf w) t) (ht' : IsSum (egldOf w') t') :
    t' + allCarried w'.flights + costs w'.issues + leaving w op = t + allCarried w.flights + costs w.issues + entering w op := by
  have h := egld_step op (reachable_regInv hr) hs
  have e1 : t = tot w.egld := ht.unique (isSum_tot w.egld)
  have e2 : t' = tot w'.egld := ht'.unique (isSum_tot w'.egld)
  rw [e1, e2, allCarried_eq, allCarried_eq]
  exact h

/-- **C56**, the whole network: the EGLD of all accounts, all mocks, on its way, and paid for issues awaited changes only by `fund`,
by deposits at mocks, and by the cost of an issued token, in whatever order requests are served and answers arrive, and also when a
callback runs out of gas. -/
theorem C56_network_conserves {n n' : Net} {op : NetOp} (hr : AnyNet n) (hs : netStep n op = .ok n') {a b a' b' : Nat}
    (ha : IsSum (egldOf n.w) a) (hb : IsSum (mockBalance n) b) (ha' : IsSum (egldOf n'.w) a') (hb' : IsSum (mockBalance n') b') :
    a' + b' + allOnTheWay n'.msgs + costs n'.w.issues + netOut n op = a + b + allOnTheWay n.msgs + costs n.w.issues + netIn op := by
  have h := net_egld hr hs (show IsSum (mbal n.mocks) b from hb) (show IsSum (mbal n'.mocks) b' from hb')
  have e1 : a = tot n.w.egld := ha.unique (isSum_tot n.w.egld)
  have e2 : a' = tot n'.w.egld := ha'.unique (isSum_tot n'.w.egld)
  unfold outside at h
  omega

/-- The sums exist. -/
theorem C56_sums (n : Net) : (∃ a, IsSum (egldOf n.w) a) ∧ ∃ b, IsSum (mockBalance n) b :=
  ⟨⟨_, isSum_tot n.w.egld⟩, isSum_mbal n.mocks⟩

/-- What the mock at `p` holds for the contract, staked and unbonding. -/
def mockHeld (n : Net) (p : Addr) : Nat := (mockBooks n p).stake + (mockBooks n p).unbonding

/-- **C51**, the network: what the contract owes is covered by the EGLD in its account, the deposits and un-delegated amounts the mocks
have on record for it, and what is on its way, in whatever order requests are served and answers arrive, and whichever callbacks run out
of gas.  (What a mock has on record it may have spent on rewards: `C58_funds_needed`.) -/
theorem C51_network_solvent {n : Net} (hr : AnyNet n) :
    ∃ h u, IsSum (mockHeld n) h ∧ IsSum (userTokens n.w) u ∧
      reserve n.w + (u + n.w.burntUnstake) + feesReserve n.w + n.w.migratedPending ≤
        egldOf n.w n.w.self + h + allOnTheWay n.msgs + n.w.migratedVirtual := by
  obtain ⟨B, hB, hb⟩ := any_refines hr
  obtain ⟨h, u, hh, hu, hle⟩ := C51_system_solvent hB
  refine ⟨h, u, hh.congr fun p => ?_, hu, hle⟩
  have e : mbooks n.mocks p = mockBooks n p := rfl
  unfold held mockHeld
  rw [hb p, e]

/-! ### C57 -/

private theorem dues_eq (n : Net) : ∀ ps, dues n.w.epoch n.mocks ps = allDue n ps
  | [] => rfl
  | p :: ps => by rw [dues, dues_eq n ps]; rfl

/-- **C57.** A claim of rewards reaching the delegation manager pays exactly the rewards due at the providers it names, each provider
paying its part, and leaves nothing due; when one of the providers cannot pay, it fails and nothing moves. -/
theorem C57_claim_pays_due {n n' : Net} {i : Nat} {ps : List Addr} (hr : AnyNet n)
    (hm : n.msgs[i]? = some (.claim ps, none)) (hs : netStep n (.serve i) = .ok n') :
    n'.w = n.w ∧ n'.msgs.length = n.msgs.length ∧ (∀ j, j ≠ i → n'.msgs[j]? = n.msgs[j]?) ∧
    (∀ p, p ∉ ps → n'.mocks.get none p = n.mocks.get none p) ∧
    ((∀ p ∈ ps, n.mocks.get none p ≠ none ∧ rewardAt n p ≤ mockBalance n p) →
      n'.msgs[i]? = some (.claim ps, some (.ok (allDue n ps) (allDue n ps))) ∧
      ∀ p ∈ ps, mockBalance n' p + rewardAt n p = mockBalance n p ∧ mockBooks n' p = mockBooks n p ∧ rewardAt n' p = 0) ∧
    ((∃ p ∈ ps, n.mocks.get none p = none ∨ mockBalance n p < rewardAt n p) →
      n'.msgs[i]? = some (.claim ps, some .err) ∧ n'.mocks = n.mocks) := by
  obtain ⟨hreach, hmsgs⟩ := any_inv hr
  have hf : n.w.flights[i]? = some (.claim ps) := by rw [← hmsgs, List.getElem?_map, hm]; rfl
  have hnd := claims_nodup hreach ps (List.mem_of_getElem? hf)
  have hi : i < n.msgs.length := (List.getElem?_eq_some_iff.1 hm).1
  obtain ⟨f, hm', rfl⟩ := net_serve.1 hs
  rw [hm] at hm'; cases hm'
  have hset : ∀ x : Flight × Option Outcome, (n.msgs.set i x)[i]? = some x := fun x => List.getElem?_set_self hi
  have hfund : ∀ p, (n.mocks.get none p ≠ none ∧ rewardAt n p ≤ mockBalance n p) ↔
      ∃ m, n.mocks.get none p = some m ∧ rewardDue m n.w.epoch ≤ m.egld := by
    intro p
    unfold rewardAt mockBalance
    cases n.mocks.get none p with
    | none => simp
    | some m => simp
  refine ⟨rfl, List.length_set .., fun j hj => List.getElem?_set_ne (Ne.symm hj), ?_⟩
  rcases respond_claim (now := n.w.epoch) (ms := n.mocks) (ps := ps) with ⟨t, ms', h, h'⟩ | ⟨e, h, h'⟩
  · obtain ⟨h1, h2, h3⟩ := claimMulti_exact hnd h
    simp only [h']
    rw [dues_eq] at h1
    subst h1
    refine ⟨h3, fun _ => ⟨hset _, fun p hp => ?_⟩, ?_⟩
    · obtain ⟨m, e1, e2, e3⟩ := h2 p hp
      have e3 : ms'.get none p = some (claimed m n.w.epoch) := e3
      refine ⟨?_, ?_, ?_⟩
      · unfold mockBalance rewardAt; simp only [e1, e3]
        show m.egld - rewardDue m n.w.epoch + rewardDue m n.w.epoch = m.egld
        omega
      · unfold mockBooks; simp only [e1, e3]; rfl
      · unfold rewardAt; simp only [e3]; exact claimed_due m _
    · rintro ⟨p, hp, hbad⟩
      obtain ⟨m, e1, e2, e3⟩ := h2 p hp
      have hok := (hfund p).2 ⟨m, e1, e2⟩
      rcases hbad with hbad | hbad
      · exact absurd hbad hok.1
      · omega
  · simp only [h']
    refine ⟨fun _ _ => trivial, fun hall => ?_, fun _ => ⟨hset _, trivial⟩⟩
    obtain ⟨x, hx⟩ := claimMulti_possible (now := n.w.epoch) (ms := n.mocks) hnd fun p hp => (hfund p).1 (hall p hp)
    rw [hx] at h; cases h

/-- **C57**, end to end: with nothing in flight and the providers able to pay, a manager's `claimRewards`, served and answered, takes the
rewards due from the listed providers and books them: the fee share to the fees, the rest to the reserve and to the EGLD waiting to be
delegated.  Nothing else changes in the contract. -/
theorem C57_rewards_end_to_end {n n1 : Net} {m : Addr} (hr : NetReachable n) (h0 : n.msgs = [])
    (hfund : ∀ p ∈ n.w.st.delegList, n.mocks.get none p ≠ none ∧ rewardAt n p ≤ mockBalance n p) (hfee : n.w.st.feeRate ≤ 10000)
    (hs : netStep n (.call (.claimRewards m)) = .ok n1) :
    ∃ n2 n3 R fee, netStep n1 (.serve 0) = .ok n2 ∧ netStep n2 (.answer 0) = .ok n3 ∧ n3.msgs = [] ∧
      R = allDue n n.w.st.delegList ∧ fee = R * n.w.st.feeRate / 10000 ∧ fee ≤ R ∧
      n3.w.st = { n.w.st with r := { n.w.st.r with
        fees := feesReserve n.w + fee, pending := pendingEgld n.w + (R - fee), reserve := reserve n.w + (R - fee) } } ∧
      egldOf n3.w n.w.self = egldOf n.w n.w.self + R ∧ (∀ a, a ≠ n.w.self → egldOf n3.w a = egldOf n.w a) ∧
      n3.w.ls = n.w.ls ∧ n3.w.nft = n.w.nft ∧
      (∀ p ∈ n.w.st.delegList, mockBalance n3 p + rewardAt n p = mockBalance n p ∧ rewardAt n3 p = 0) := by
  obtain ⟨hreach, hmsgs⟩ := net_inv hr
  obtain ⟨_, w1, hw1, rfl⟩ := net_call.1 hs
  have hf0 : n.w.flights = [] := by rw [← hmsgs, h0]; rfl
  have hr1 := NetReach.step (.call (.claimRewards m)) hr trivial hs
  have hreach1 := (net_inv hr1).1
  obtain ⟨_, _, _, ht, _, E, hE, rfl⟩ := claimRewards_ok hw1
  generalize hn1 : ({ n with
    w := { n.w with egld := E, flights := n.w.flights ++ [.claim n.w.st.delegList] },
    msgs := n.msgs ++ (({ n.w with egld := E, flights := n.w.flights ++ [.claim n.w.st.delegList] } : World).flights.drop
      n.w.flights.length).map (·, none) } : Net) = n1 at hr1
  have hn1m : n1.msgs = [(.claim n.w.st.delegList, none)] := by rw [← hn1, h0, hf0]; rfl
  have hn1w : n1.w = { n.w with egld := E, flights := [.claim n.w.st.delegList] } := by rw [← hn1, hf0]; rfl
  have hn1k : n1.mocks = n.mocks := by rw [← hn1]
  have hat : ∀ p, rewardAt n1 p = rewardAt n p := fun p => by unfold rewardAt; rw [hn1k, hn1w]
  have hdue : ∀ l, allDue n1 l = allDue n l := by
    intro l
    induction l with
    | nil => rfl
    | cons p l ih => rw [allDue, allDue, ih, hat]
  have hbal : ∀ p, mockBalance n1 p = mockBalance n p := fun p => by unfold mockBalance; rw [hn1k]
  obtain ⟨n2, hn2⟩ : ∃ n2, netStep n1 (.serve 0) = .ok n2 := ⟨_, net_serve.2 ⟨.claim n.w.st.delegList, by rw [hn1m]; rfl, rfl⟩⟩
  obtain ⟨a1, a2, _, _, a3, _⟩ := C57_claim_pays_due (any_of_net hr1) (by rw [hn1m]; rfl) hn2
  obtain ⟨a3, a4⟩ := a3 fun p hp => by rw [hn1k, hat, hbal]; exact hfund p hp
  rw [hdue] at a3
  have hw2 : n2.w.flights[0]? = some (.claim n.w.st.delegList) := by rw [a1, hn1w]; rfl
  have hreach2 : Reachable n2.w := by rw [a1]; exact (net_inv hr1).1
  have hEe : ∀ a, egldOf n2.w a = egldOf n.w a := fun a => by unfold egldOf; rw [a1, hn1w]; exact hE a
  have hm2 : n2.msgs.length = 1 := by rw [a2, hn1m]; rfl
  have hdone : ∃ n3 fee, netStep n2 (.answer 0) = .ok n3 ∧ n3.msgs = [] ∧ n3.mocks = n2.mocks ∧ n3.w.epoch = n.w.epoch ∧
      fee = allDue n n.w.st.delegList * n.w.st.feeRate / 10000 ∧ fee ≤ allDue n n.w.st.delegList ∧
      n3.w.st = { n.w.st with r := { n.w.st.r with
        fees := feesReserve n.w + fee, pending := pendingEgld n.w + (allDue n n.w.st.delegList - fee),
        reserve := reserve n.w + (allDue n n.w.st.delegList - fee) } } ∧
      egldOf n3.w n.w.self = egldOf n.w n.w.self + allDue n n.w.st.delegList ∧
      (∀ a, a ≠ n.w.self → egldOf n3.w a = egldOf n.w a) ∧ n3.w.ls = n.w.ls ∧ n3.w.nft = n.w.nft := by
    generalize allDue n n.w.st.delegList = R at a3
    have hlast : n2.msgs.eraseIdx 0 = [] := List.length_eq_zero_iff.1 (by rw [List.length_eraseIdx, hm2]; rfl)
    by_cases hR : 0 < R
    · obtain ⟨w3, b1, b2, b3, b4, b5, b6, b7, b8, b9⟩ := C23_rewards_split (g := R) hreach2 hw2 hR (by rw [a1, hn1w]; exact hfee)
      have hep : w3.epoch = n2.w.epoch := by
        obtain ⟨f', hf', hcb⟩ := deliver_ok b1
        rw [hw2] at hf'; cases hf'
        rcases hcb with hcb | ⟨_, rfl⟩
        · rcases claimRewardsCb_ok.1 hcb with ⟨_, rfl⟩ | ⟨_, t, fee, _, _, _, rfl⟩ <;> rfl
        · rfl
      refine ⟨_, R * n.w.st.feeRate / 10000, net_answer.2 ⟨_, _, w3, a3, b1, rfl⟩, hlast, rfl, ?_, rfl, ?_, ?_, ?_, ?_, ?_, ?_⟩
      · show w3.epoch = _; rw [hep, a1, hn1w]
      · rw [a1, hn1w] at b5; exact b5
      · show w3.st = _; rw [b4, a1, hn1w]; rfl
      · show egldOf w3 n.w.self = _
        have : n2.w.self = n.w.self := by rw [a1, hn1w]
        rw [this, hEe] at b6; exact b6
      · intro a ha
        have : n2.w.self = n.w.self := by rw [a1, hn1w]
        rw [this] at b7
        show egldOf w3 a = _
        rw [b7 a ha, hEe]
      · show w3.ls = _; rw [b8, a1, hn1w]
      · show w3.nft = _; rw [b9, a1, hn1w]
    · have hR : R = 0 := by omega
      subst hR
      have hstep : step n2.w (.deliver 0 (.ok 0 0)) = .ok (arrive n2.w 0 (.claim n.w.st.delegList) (.ok 0 0)) :=
        deliver_of_cb hw2 (claimRewardsCb_ok.2 (.inl ⟨rfl, rfl⟩))
      have hcr : ∀ a, egldOf (arrive n2.w 0 (.claim n.w.st.delegList) (.ok 0 0)) a = egldOf n2.w a := by
        intro a
        unfold egldOf
        show (credit n2.w.egld n2.w.self 0).get 0 a = _
        rw [get_credit]
        split <;> simp_all
      have hz : 0 * n.w.st.feeRate / 10000 = 0 := by rw [Nat.zero_mul, Nat.zero_div]
      refine ⟨_, 0, net_answer.2 ⟨_, _, _, a3, hstep, rfl⟩, hlast, rfl, ?_, hz.symm, Nat.le_refl _, ?_, ?_, ?_, ?_, ?_⟩
      · show n2.w.epoch = _; rw [a1, hn1w]
      · show n2.w.st = _; rw [a1, hn1w]; rfl
      · exact (hcr _).trans (hEe _)
      · exact fun a _ => (hcr _).trans (hEe _)
      · show n2.w.ls = _; rw [a1, hn1w]
      · show n2.w.nft = _; rw [a1, hn1w]
  obtain ⟨n3, fee, c1, c2, c3, c3', c4, c5, c6, c7, c8, c9, c10⟩ := hdone
  refine ⟨n2, n3, _, fee, hn2, c1, c2, rfl, c4, c5, c6, c7, c8, c9, c10, fun p hp => ?_⟩
  obtain ⟨d1, _, d3⟩ := a4 p hp
  rw [hat, hbal] at d1
  have e1 : mockBalance n3 p = mockBalance n2 p := by unfold mockBalance; rw [c3]
  have e2 : rewardAt n3 p = rewardAt n2 p := by unfold rewardAt; rw [c3, c3', a1, hn1w]
  rw [e1, e2]
  exact ⟨d1, d3⟩

/-- **C57**, splitting: claiming at one epoch and again later pays at most what a single claim at the later epoch would pay, and at most one
unit of the smallest denomination less. -/
theorem C57_splitting {m m1 m2 m' : Mock} {e1 e2 : UInt64} {r1 r2 r : Nat} (hl : m.lastClaim ≤ e1) (he : e1 ≤ e2)
    (h1 : m.claimRewards e1 = .ok (m1, r1)) (h2 : m1.claimRewards e2 = .ok (m2, r2)) (h : m.claimRewards e2 = .ok (m', r)) :
    r1 + r2 ≤ r ∧ r ≤ r1 + r2 + 1 := by
  obtain ⟨rfl, _, rfl⟩ := claimRewards_mock h1
  obtain ⟨rfl, _, rfl⟩ := claimRewards_mock h2
  obtain ⟨rfl, _, rfl⟩ := claimRewards_mock h
  have hl : m.lastClaim.toNat ≤ e1.toNat := hl
  have he : e1.toNat ≤ e2.toNat := he
  by_cases h0 : 0 < rewardDue m e1
  · rw [if_pos h0]
    unfold rewardDue
    simp only
    generalize m.deposit * 10 / 100 = c
    have e : e2.toNat - m.lastClaim.toNat = (e1.toNat - m.lastClaim.toNat) + (e2.toNat - e1.toNat) := by omega
    rw [e, Nat.mul_add]
    generalize c * (e1.toNat - m.lastClaim.toNat) = x
    generalize c * (e2.toNat - e1.toNat) = y
    omega
  · rw [if_neg h0]
    have : rewardDue { m with egld := m.egld - rewardDue m e1 } e2 = rewardDue m e2 := rfl
    have h00 : rewardDue m e1 = 0 := by omega
    constructor
    · rw [h00]; show 0 + rewardDue m e2 ≤ _; omega
    · rw [h00]; show _ ≤ 0 + rewardDue m e2 + 1; omega

/-! ### C58 -/

/-- **C58.** Exit through the mocks.  When nothing is in flight, the un-delegation queue is empty and the mocks have the EGLD that is
unbonding there, it is enough to wait ten epochs: a manager then collects by `withdrawPending` calls alone so much that every holder of
unstake tokens matured by then, whoever comes first, is paid in full. -/
theorem C58_network_exit {n : Net} {m : Addr} {e : UInt64} (hr : NetReachable n) (h0 : n.msgs = []) (hq : toUndelegate n.w = 0)
    (ha : n.w.st.state = .active) (hl : n.w.st.lsToken ≠ none) (hu : n.w.st.unstakeToken ≠ none)
    (hm : m ≠ n.w.self) (hmg : m ∈ n.w.st.managers ∨ m = n.w.owner)
    (he : n.w.epoch.toNat + 10 ≤ e.toNat) (hfund : ∀ p, (mockBooks n p).unbonding ≤ mockBalance n p) :
    ∃ n', NetTrace (Winding m e) n n' ∧ n'.w.epoch = e ∧ (∀ k a, unstakeOf n'.w k a = unstakeOf n.w k a) ∧
      (∀ k, maturityOf n'.w k = maturityOf n.w k) ∧ (∃ u, IsSum (userTokens n'.w) u ∧ u + n'.w.burntUnstake = withdrawable n'.w) ∧
      ∀ c ps, c ≠ n.w.self →
        (∀ p ∈ ps, n.w.st.unstakeToken = some p.token ∧ 0 < p.amount ∧ ∃ t, maturityOf n.w p.nonce = some t ∧ t ≤ e) →
        (∀ k, paidWith k ps ≤ unstakeOf n.w k c) →
        ∃ n'', netStep n' (.call (.withdraw c 0 ps)) = .ok n'' ∧ egldOf n''.w c = egldOf n'.w c + totalPaid ps := by
  have hmg' : isManager n.w m = true := by
    unfold isManager
    rcases hmg with h | h
    · simp [h]
    · simp [h]
  have hf0 : n.w.flights = [] := by rw [← (net_inv hr).2, h0]; rfl
  have h1 : netStep n (.call (.advance e)) = .ok { n with w := { n.w with epoch := e } } := by
    refine net_call.2 ⟨rfl, { n.w with epoch := e }, advance_ok.2 ⟨?_, rfl⟩, ?_⟩
    · rw [UInt64.le_iff_toNat_le]; omega
    · rw [h0]; show _ = Net.mk _ ([] ++ (n.w.flights.drop _).map _) _; rw [hf0]; rfl
  have hr1 := NetReach.step (.call (.advance e)) hr trivial h1
  have hrd : Ready e n.mocks := by
    intro p mk hp
    have hf := hfund p
    unfold mockBooks mockBalance at hf
    rw [hp] at hf
    refine ⟨hf, fun hpos => ?_⟩
    obtain ⟨e0, h1, h2⟩ := (net_mocks hr p mk hp).since hpos
    have h1 : e0.toNat ≤ n.w.epoch.toNat := h1
    have hlt : e.toNat < 2 ^ 64 := e.toNat_lt
    have hadd : (e0 + UNBOND_PERIOD).toNat = e0.toNat + 10 := by
      rw [UInt64.toNat_add]
      show (e0.toNat + 10) % 2 ^ 64 = _
      exact Nat.mod_eq_of_lt (by omega)
    rw [h2, UInt64.lt_iff_toNat_lt, UInt64.le_iff_toNat_le, hadd]
    exact ⟨by show 0 < _; omega, by omega⟩
  obtain ⟨n', htr, hm', hc, hz⟩ := net_collect_all (m := m) (e := e) (l := n.w.st.delegList) hr1 h0 hm hmg' ha hl (fun _ h => h) hrd
  have hr' := htr.reachable (fun _ _ h => h.1) hr1
  obtain ⟨B, hB, _⟩ := net_refines hr'
  have hrB := sysReachable_mono (Q := InOrder) (fun _ _ h => h.1) hB
  have hby := (honest_trace hB).1
  have hfl : n'.w.flights = [] := by rw [← (net_inv hr').2, hm']; rfl
  obtain ⟨hU, hpay⟩ := exit_world (w := { n.w with epoch := e }) hby hfl (C38_none_failed hrB) hc hz hq ha hl hu
  have htr0 : NetTrace (Winding m e) n { n with w := { n.w with epoch := e } } :=
    .snoc (.call (.advance e)) .nil ⟨trivial, .inl rfl⟩ h1
  refine ⟨n', htr0.trans htr, hc.epoch, fun k a => by unfold unstakeOf; rw [hc.nft], fun k => by unfold maturityOf; rw [hc.attrs],
    hU, fun c ps h1 h2 h3 => ?_⟩
  obtain ⟨w'', hw'', heg⟩ := hpay c ps h1 h2 h3
  exact ⟨_, net_call.2 ⟨rfl, w'', hw'', rfl⟩, heg⟩

/-! ### C59 -/

/-- **C59.** The mocks never refuse: a delegation or un-delegation of the contract, served in order, is accepted. -/
theorem C59_no_refusal {n n' : Net} {i : Nat} {f : Flight} (hr : NetReachable n) (ho : NetInOrder n (.serve i))
    (hm : n.msgs[i]? = some (f, none)) (hs : netStep n (.serve i) = .ok n') (hf : ∃ p a, f = .delegate p a ∨ f = .undelegate p a) :
    n'.msgs[i]? = some (f, some (.ok 0 0)) := by
  have hi : i < n.msgs.length := (List.getElem?_eq_some_iff.1 hm).1
  have hmv : moves f = true := by obtain ⟨p, a, rfl | rfl⟩ := hf <;> rfl
  obtain ⟨f', hm', rfl⟩ := net_serve.1 hs
  rw [hm] at hm'; cases hm'
  rw [← accepted_of hr (netInv hr) hm ho hmv]
  exact List.getElem?_set_self hi

/-- **C59**, the records: every listed provider is a mock, and while no request to it is on its way the contract's record of it states the
mock's own figures. -/
theorem C59_records_match {n : Net} {p : Addr} (hr : NetReachable n) (hp : p ∈ n.w.st.delegList)
    (hm : ∀ e ∈ n.msgs, target e.1 ≠ some p) :
    ∃ m, n.mocks.get none p = some m ∧ figure (·.staked) n.w p = m.deposit ∧ figure (·.unstaked) n.w p = m.undAmount := by
  obtain ⟨m, hmk⟩ := Option.ne_none_iff_exists'.1 ((netInv hr).listed p hp)
  obtain ⟨B, hB, hb⟩ := net_refines hr
  obtain ⟨h1, h2⟩ := C38_records_match (sysReachable_mono (Q := InOrder) (fun _ _ h => h.1) hB) hp hm
  have hbk : mbooks n.mocks p = ⟨m.deposit, m.undAmount⟩ := by unfold mbooks; rw [hmk]
  rw [hb p, hbk] at h1 h2
  exact ⟨m, hmk, h1, h2⟩

/-! ### Concrete networks -/

/-- A check of `NetInOrder`. -/
def netInOrder (n : Net) : NetOp → Bool
  | .serve i => inOrder ⟨n.w, n.msgs, []⟩ (.serve i .err)
  | .answer i => inOrder ⟨n.w, n.msgs, []⟩ (.answer i)
  | .lose _ => false
  | _ => true

theorem netInOrder_sound {n : Net} {op : NetOp} (h : netInOrder n op = true) : NetInOrder n op := by
  cases op with
  | serve i => exact inOrder_sound (s := ⟨n.w, n.msgs, []⟩) (op := .serve i .err) h
  | answer i => exact inOrder_sound (s := ⟨n.w, n.msgs, []⟩) (op := .answer i) h
  | lose i => cases h
  | _ => trivial

/-- Running a list of steps, dropping those that fail or are out of order. -/
def netRun (n : Net) (ops : List NetOp) : Net :=
  ops.foldl (fun n op => if netInOrder n op then (match netStep n op with | .ok n' => n' | .error _ => n) else n) n

theorem netRun_reachable : ∀ {ops : List NetOp} {n : Net}, NetReachable n → NetReachable (netRun n ops)
  | [], _, h => h
  | op :: ops, n, h => by
    show NetReachable (netRun (if netInOrder n op then (match netStep n op with | .ok n' => n' | .error _ => n) else n) ops)
    refine netRun_reachable ?_
    cases ho : netInOrder n op with
    | false => exact h
    | true =>
      cases hs : netStep n op with
      | error e => simpa [hs] using h
      | ok n' => simpa [hs] using .step op h (netInOrder_sound ho) hs

/-- Two mocks with some EGLD, whitelisted; 150 EGLD deposited and delegated to them. -/
def stakedOps : List NetOp := [
  .call (.registerLsToken 1 0), .call (.issued 0 (some 500)), .call (.registerUnstakeToken 1 0), .call (.issued 0 (some 501)),
  .call (.owner 1 .stateActive), .call (.setScoringConfig 1 ScoringConfig.default),
  .deploy 21, .deploy 22, .deposit 21 (E 100), .deposit 22 (E 100),
  .call (.whitelist 1 (E 1) 21 41 (E 1000) (E 1500) 10 800), .serve 0, .answer 0,
  .call (.whitelist 1 (E 1) 22 42 (E 1000) 0 20 900), .serve 0, .answer 0,
  .call (.delegate 11 (E 100)), .call (.delegate 12 (E 50)), .call (.delegatePending 1 none),
  .serve 0, .serve 1, .answer 0, .answer 0]

def stakedNet : Net := netRun ⟨fresh, [], []⟩ (stakedOps ++ [.call (.advance 73)])

/-- Non-vacuity of `C56_egld_conserved` and `C56_network_conserves`: EGLD in accounts, at mocks and on its way. -/
example : NetReachable (netRun ⟨fresh, [], []⟩ (stakedOps.take 19)) ∧ Reachable (netRun ⟨fresh, [], []⟩ (stakedOps.take 19)).w ∧
    allOnTheWay (netRun ⟨fresh, [], []⟩ (stakedOps.take 19)).msgs = E 150 ∧
    mockBalance (netRun ⟨fresh, [], []⟩ (stakedOps.take 19)) 21 = E 101 ∧
    (netStep (netRun ⟨fresh, [], []⟩ (stakedOps.take 19)) (.serve 0)).toOption.isSome = true :=
  ⟨netRun_reachable (.init fresh_isInit), (net_inv (netRun_reachable (.init fresh_isInit))).1, by decide +kernel, by decide +kernel,
    by decide +kernel⟩

/-- Non-vacuity of `C57_rewards_end_to_end`: after 73 epochs two percent (a fifth of ten) of the 152 EGLD are due at two providers. -/
example : NetReachable stakedNet ∧ stakedNet.msgs = [] ∧ stakedNet.w.st.delegList = [21, 22] ∧
    (∀ p ∈ stakedNet.w.st.delegList, stakedNet.mocks.get none p ≠ none ∧ rewardAt stakedNet p ≤ mockBalance stakedNet p) ∧
    stakedNet.w.st.feeRate ≤ 10000 ∧ E 3 < allDue stakedNet stakedNet.w.st.delegList ∧
    (netStep stakedNet (.call (.claimRewards 1))).toOption.isSome = true :=
  ⟨netRun_reachable (.init fresh_isInit), by decide +kernel, by decide +kernel, by decide +kernel, by decide +kernel,
    by decide +kernel, by decide +kernel⟩

/-- A claim on its way to the manager. -/
def claimingNet : Net := netRun stakedNet [.call (.claimRewards 1)]

/-- Non-vacuity of `C57_claim_pays_due`. -/
example : NetReachable claimingNet ∧ claimingNet.msgs[0]? = some (.claim [21, 22], none) ∧ 0 < rewardAt claimingNet 21 ∧
    0 < rewardAt claimingNet 22 :=
  ⟨netRun_reachable (netRun_reachable (.init fresh_isInit)), by decide +kernel, by decide +kernel, by decide +kernel⟩

/-- Non-vacuity of `C57_splitting`: here splitting costs one unit. -/
example : ∃ m1 m2 m', (⟨0, 300, 1, 0, 0, 1000⟩ : Mock).claimRewards 14 = .ok (m1, 1) ∧ m1.claimRewards 38 = .ok (m2, 1) ∧
    (⟨0, 300, 1, 0, 0, 1000⟩ : Mock).claimRewards 38 = .ok (m', 3) := ⟨_, _, _, rfl, rfl, rfl⟩

/-- 140 LS tokens redeemed and asked back from the mocks. -/
def leavingNet : Net := netRun stakedNet [
  .call (.unDelegate 11 0 [⟨500, 0, E 90⟩]), .call (.unDelegate 12 0 [⟨500, 0, E 50⟩]), .call (.unDelegatePending 1 none),
  .serve 0, .serve 1, .answer 0, .answer 0]

/-- Non-vacuity of `C58_network_exit`: tokens held by users, all EGLD for them still at the mocks. -/
example : NetReachable leavingNet ∧ leavingNet.msgs = [] ∧ toUndelegate leavingNet.w = 0 ∧ leavingNet.w.st.state = .active ∧
    withdrawable leavingNet.w = 0 ∧ unstakeOf leavingNet.w 1 11 = E 90 ∧ unstakeOf leavingNet.w 1 12 = E 50 ∧
    (mockBooks leavingNet 21).unbonding + (mockBooks leavingNet 22).unbonding = E 140 ∧
    (∀ p ∈ [21, 22], (mockBooks leavingNet p).unbonding ≤ mockBalance leavingNet p) ∧
    leavingNet.w.epoch = 73 ∧ ((maturityOf leavingNet.w 1).any fun e => decide (e ≤ 83)) = true :=
  ⟨netRun_reachable (netRun_reachable (.init fresh_isInit)), by decide +kernel, by decide +kernel, by decide +kernel, by decide +kernel,
    by decide +kernel, by decide +kernel, by decide +kernel, by decide +kernel, by decide +kernel, by decide +kernel⟩

/-- The hypothesis on the mocks' funds in `C58_network_exit` cannot be dropped: the mock pays rewards out of the EGLD delegated to it when
nothing was deposited for them, and what is unbonding there can then not be withdrawn. -/
theorem C58_funds_needed : ∃ n : Net, NetReachable n ∧ n.msgs = [] ∧ 21 ∈ n.w.st.delegList ∧
    mockBalance n 21 < (mockBooks n 21).unbonding ∧ (netStep n (.call (.advance 100000))).toOption.isSome = true ∧
    (netRun n [.call (.advance 100000), .call (.withdrawPending 1 21), .serve 0]).msgs = [(.withdraw 21, some .err)] :=
  ⟨netRun ⟨fresh, [], []⟩ (stakedOps.take 8 ++ stakedOps.drop 10 ++ [.call (.advance 730), .call (.claimRewards 1), .serve 0, .answer 0,
      .call (.unDelegate 11 0 [⟨500, 0, E 90⟩]), .call (.unDelegate 12 0 [⟨500, 0, E 50⟩]), .call (.unDelegatePending 1 none),
      .serve 0, .serve 1, .answer 0, .answer 0]),
    netRun_reachable (.init fresh_isInit), by decide +kernel, by decide +kernel, by decide +kernel, by decide +kernel, by decide +kernel⟩

/-- Delegations sent but not served, and everything asked back from the same mocks. -/
def crossingNet : Net := netRun ⟨fresh, [], []⟩ (stakedOps.take 19 ++ [
  .call (.unDelegate 11 0 [⟨500, 0, E 90⟩]), .call (.unDelegate 12 0 [⟨500, 0, E 50⟩]), .call (.unDelegatePending 1 none),
  .serve 0, .serve 1])

/-- Non-vacuity of `C59_no_refusal`: an un-delegation of stake whose delegation has been served but not answered, larger than the recorded
stake. -/
example : NetReachable crossingNet ∧ netInOrder crossingNet (.serve 2) = true ∧
    (netStep crossingNet (.serve 2)).toOption.isSome = true ∧
    (∃ a, crossingNet.msgs[2]? = some (.undelegate 21 a, none) ∧ figure (·.staked) crossingNet.w 21 < a) :=
  ⟨netRun_reachable (.init fresh_isInit), by decide +kernel, by decide +kernel, ⟨37057326567026308461, by decide +kernel, by decide +kernel⟩⟩

/-- Non-vacuity of `C59_records_match`. -/
example : NetReachable leavingNet ∧ 22 ∈ leavingNet.w.st.delegList ∧ leavingNet.msgs = [] ∧ 0 < figure (·.staked) leavingNet.w 22 ∧
    0 < figure (·.unstaked) leavingNet.w 22 :=
  ⟨netRun_reachable (netRun_reachable (.init fresh_isInit)), by decide +kernel, by decide +kernel, by decide +kernel, by decide +kernel⟩

/-- Running a list of steps in any order, dropping those that fail. -/
def anyNetRun (n : Net) (ops : List NetOp) : Net := ops.foldl (fun n op => match netStep n op with | .ok n' => n' | .error _ => n) n

theorem anyNetRun_any : ∀ {ops : List NetOp} {n : Net}, AnyNet n → AnyNet (anyNetRun n ops)
  | [], _, h => h
  | op :: ops, n, h => by
    show AnyNet (anyNetRun (match netStep n op with | .ok n' => n' | .error _ => n) ops)
    refine anyNetRun_any ?_
    cases hs : netStep n op with
    | error e => exact h
    | ok n' => exact .step op h trivial hs

/-- A claim served, its EGLD on the way back; two delegations served in the wrong order, the callback of one of them lost. -/
def messyNet : Net := anyNetRun stakedNet [.call (.claimRewards 1), .serve 0, .call (.delegate 13 (E 30)), .call (.delegatePending 1 none),
  .serve 2, .serve 1, .lose 2]

/-- Non-vacuity of `C51_network_solvent` and `C56_network_conserves`: a callback was lost, rewards are on their way and one more answer
can be lost. -/
example : AnyNet messyNet ∧ messyNet.w.dead ≠ [] ∧ 0 < allOnTheWay messyNet.msgs ∧ messyNet.msgs.length = 2 ∧
    E 100 < mockHeld messyNet 21 + mockHeld messyNet 22 ∧ (netStep messyNet (.lose 0)).toOption.isSome = true :=
  ⟨anyNetRun_any (any_of_net (netRun_reachable (.init fresh_isInit))), by decide +kernel, by decide +kernel, by decide +kernel,
    by decide +kernel, by decide +kernel⟩

end LS
