import Verif.Props.Exit
import Verif.Props.Queue

/-! Out of every state of the network everybody can be paid: C89, C90. -/

namespace LS
open Spec Demo

/-- **C89.** The un-delegation queue, however small or large and whatever the state of the providers, is emptied by a deposit of
exactly its amount, also when that is less than one EGLD: all of it becomes withdrawable at once, and the depositor gets the LS
tokens as for any other deposit. -/
theorem C89_emptied {w : World} {c : Addr} (ha : w.st.state = .active) (ht : w.st.lsToken ≠ none) (hc : c ≠ w.self)
    (hq : 0 < toUndelegate w) (hf : toUndelegate w ≤ egldOf w c) (hw : 0 < lsFor (supply w) (reserve w) (toUndelegate w)) :
    ∃ w', step w (.delegate c (toUndelegate w)) = .ok w' ∧ toUndelegate w' = 0 ∧
      withdrawable w' = withdrawable w + toUndelegate w ∧ pendingEgld w' = pendingEgld w ∧
      lsOf w' c = lsOf w c + lsFor (supply w) (reserve w) (toUndelegate w) := by
  have hs : IsSplit (toUndelegate w) (toUndelegate w) (toUndelegate w) 0 :=
    ⟨rfl, Nat.le_refl _, fun _ => ⟨.inl (Nat.sub_self _), .inl rfl⟩, fun j hj _ _ _ => hj⟩
  obtain ⟨w', hw'⟩ := C15_deposit_iff.2 ⟨ha, ht, hc, hq, hf, hw, fun i u h hu => by
    obtain ⟨_, rfl⟩ := h.unique hs
    exact absurd hu (Nat.lt_irrefl 0)⟩
  obtain ⟨i, u, h1, h2, h3, h4, _⟩ := C14_delegate_split hw'
  obtain ⟨rfl, rfl⟩ := h1.unique hs
  exact ⟨w', hw', by omega, h3, h4, (C01_delegate_mints_pro_rata hw').2.1⟩

/-- The half EGLD of `C53_false`, which nobody can ask back and for want of which a matured position is not paid: account 12 deposits
it, and the position is paid. -/
example : stuck.st.state = .active ∧ stuck.st.lsToken ≠ none ∧ 12 ≠ stuck.self ∧ toUndelegate stuck = 500000000000000000 ∧
    toUndelegate stuck ≤ egldOf stuck 12 ∧ 0 < lsFor (supply stuck) (reserve stuck) (toUndelegate stuck) ∧
    works stuck (.withdraw 1 0 [⟨501, 1, 500000000000000000⟩]) = false ∧
    works (exec stuck (.delegate 12 500000000000000000)) (.withdraw 1 0 [⟨501, 1, 500000000000000000⟩]) = true :=
  ⟨by decide +kernel, by decide +kernel, by decide +kernel, by decide +kernel, by decide +kernel, by decide +kernel, by decide +kernel,
    by decide +kernel⟩

/-- The step serves a request or brings an answer, in order. -/
def Calming (n : Net) (op : NetOp) : Prop := NetInOrder n op ∧ ∃ i, op = .serve i ∨ op = .answer i

/-- What settling does not change. -/
def Still : Part → Prop
  | .identity | .owner | .clock | .switch | .lsSlot | .unstakeSlot | .issuing | .queue | .feeRate | .accumulator | .roundsPerEpoch
  | .minimumRounds | .maxAddresses | .maxSelected | .unbondPeriod | .scoring | .managers | .migrationSc | .registry _
  | .attributes _ | .lastNonce | .unstakes _ _ | .migrated | .burnt => True
  | _ => False

private theorem funded_one {ms : Mocks} {p q : Addr} {f : Mock → Res (Mock × Nat)}
    (hf : ∀ m m' g, f m = .ok (m', g) → m.deposit + m.undAmount ≤ m.egld → m'.deposit + m'.undAmount ≤ m'.egld)
    (h : ∀ m, ms.get none q = some m → m.deposit + m.undAmount ≤ m.egld) :
    ∀ m, (onMock ms p f).2.get none q = some m → m.deposit + m.undAmount ≤ m.egld := by
  unfold onMock
  cases hp : ms.get none p with
  | none => exact h
  | some m0 =>
    cases hm : f m0 with
    | error e => simpa only [hm] using h
    | ok x =>
      obtain ⟨m', g⟩ := x
      simp only [hm]
      intro m hg
      rw [Map.get_set] at hg
      by_cases hpq : p = q
      · rw [if_pos hpq] at hg
        cases hg
        exact hf m0 m' g hm (h m0 (by rw [← hpq]; exact hp))
      · rw [if_neg hpq] at hg
        exact h m hg

private theorem funded_iff {n : Net} : Funded n ↔ ∀ p m, n.mocks.get none p = some m → m.deposit + m.undAmount ≤ m.egld := by
  unfold Funded
  constructor
  · intro h p m hp
    have := h p
    unfold mockBooks mockBalance at this
    rw [hp] at this
    exact this
  · intro h p
    unfold mockBooks mockBalance
    cases hp : n.mocks.get none p with
    | none => exact Nat.le_refl 0
    | some m => exact h p m hp

private theorem funded_respond {now : UInt64} {ms : Mocks} {f : Flight} (hc : ∀ ps, f ≠ .claim ps)
    (h : ∀ p m, ms.get none p = some m → m.deposit + m.undAmount ≤ m.egld) :
    ∀ p m, (respond now ms f).2.get none p = some m → m.deposit + m.undAmount ≤ m.egld := by
  intro q
  cases f with
  | claim ps => exact absurd rfl (hc ps)
  | delegate p a =>
    refine funded_one (fun m m' g hm hle => ?_) (h q)
    cases hm
    show m.deposit + a + m.undAmount ≤ m.egld + a
    omega
  | whitelist p a u =>
    refine funded_one (fun m m' g hm hle => ?_) (h q)
    cases hm
    show m.deposit + a + m.undAmount ≤ m.egld + a
    omega
  | undelegate p a =>
    refine funded_one (fun m m' g hm hle => ?_) (h q)
    obtain ⟨m1, h1, h2⟩ := bind_ok.1 hm
    cases h2
    obtain ⟨_, h3, rfl⟩ := unDelegate_mock.1 h1
    show m.deposit - a + (m.undAmount + a) ≤ m.egld
    omega
  | withdraw p =>
    refine funded_one (fun m m' g hm hle => ?_) (h q)
    obtain ⟨_, _, _, _, _, _, rfl⟩ := withdraw_mock.1 hm
    show m.deposit + 0 ≤ m.egld - m.undAmount
    omega

private theorem still_deliver {w w' : World} {f : Flight} {o : Outcome} (hr : Reachable w) (hf : w.flights[0]? = some f)
    (ho : o = .err → ∀ p a, f ≠ .undelegate p a) (h : step w (.deliver 0 o) = .ok w') {x : Part} (hx : Still x) : Same w w' x := by
  refine parts_step hr h x ?_
  simp only [touched, hf]
  intro hm
  cases f with
  | undelegate p a =>
    cases o with
    | err => exact ho rfl p a rfl
    | ok g r => cases x <;> simp [callbackParts, Still] at hm hx
  | whitelist p a u =>
    cases o with
    | err =>
      rcases Classical.em (w.st.lsToken = none) with hn | hn
      · simp only [callbackParts, if_pos hn] at hm
        cases x <;> simp [Still] at hm hx
      · simp only [callbackParts, if_neg hn] at hm
        cases x <;> simp [Still] at hm hx
    | ok g r => cases x <;> simp [callbackParts, Still] at hm hx
  | _ => cases o <;> cases x <;> simp [callbackParts, Still] at hm hx

private theorem net_rest : ∀ {l : List (Flight × Option Outcome)} {n : Net}, NetReachable n → n.msgs = l →
    ∃ n', NetTrace Calming n n' ∧ n'.msgs = [] ∧ (∀ x, Still x → Same n.w n'.w x) ∧
      (Funded n → (∀ ps, (.claim ps, none) ∉ l) → Funded n')
  | [], n, _, h0 => ⟨n, .nil, h0, fun x _ => Spec.Same.refl _ x, fun h _ => h⟩
  | (f, x) :: l, n, hr, h0 => by
    obtain ⟨n1, o, ht1, hr1, hm1, hw1, hF1⟩ : ∃ n1 o, NetTrace Calming n n1 ∧ NetReachable n1 ∧ n1.msgs = (f, some o) :: l ∧
        n1.w = n.w ∧ (Funded n → (∀ ps, (.claim ps, none) ∉ (f, x) :: l) → Funded n1) := by
      cases x with
      | some o => exact ⟨n, o, .nil, hr, h0, rfl, fun h _ => h⟩
      | none =>
        have hm0 : n.msgs[0]? = some (f, none) := by rw [h0]; rfl
        have ho : NetInOrder n (.serve 0) := fun j hj => absurd hj (Nat.not_lt_zero _)
        have hs := net_serve.2 ⟨f, hm0, rfl⟩
        refine ⟨_, _, .snoc _ .nil ⟨ho, 0, .inl rfl⟩ hs, .step _ hr ho hs, by rw [h0]; rfl, rfl, fun hF hc => ?_⟩
        exact funded_iff.2 (funded_respond (fun ps h => hc ps (by rw [h]; exact List.mem_cons_self)) (funded_iff.1 hF))
    have hmsgs := (net_inv hr1).2
    have hf : n1.w.flights[0]? = some f := by rw [← hmsgs, hm1]; rfl
    obtain ⟨w', hw'⟩ := deliver_possible o hf
    have ho2 : NetInOrder n1 (.answer 0) := fun j hj => absurd hj (Nat.not_lt_zero _)
    have hs2 := net_answer.2 ⟨_, _, w', (by rw [hm1]; rfl : n1.msgs[0]? = some (f, some o)), hw', rfl⟩
    have hr2 := NetReach.step (.answer 0) hr1 ho2 hs2
    obtain ⟨n', ht, hm', hc, hF'⟩ := net_rest (l := l) hr2 (by show n1.msgs.eraseIdx 0 = _; rw [hm1]; rfl)
    refine ⟨n', (NetTrace.snoc _ ht1 ⟨ho2, 0, .inr rfl⟩ hs2).trans ht, hm', fun x hx => ?_, fun hF hcl => ?_⟩
    · rw [← hw1]
      refine Spec.Same.trans (still_deliver (net_inv hr1).1 hf (fun ho p a hfa => ?_) hw' hx) (hc x hx)
      have := (netInv hr1).accepted (f, some o) (by rw [hm1]; exact List.mem_cons_self) (by rw [ho])
      rw [hfa] at this
      cases this
    · exact hF' (show Funded _ from hF1 hF hcl) fun ps h => hcl ps (List.mem_cons_of_mem _ h)

/-- **C90**, coming to rest: whatever is on its way in the network, requests served and answers brought in order lead to a state in
which nothing is; settings, clock, unstake tokens and their maturities and the queue are as before. -/
theorem C90_rest {n : Net} (hr : NetReachable n) :
    ∃ n', NetTrace Calming n n' ∧ n'.msgs = [] ∧ ∀ x, Still x → Same n.w n'.w x := by
  obtain ⟨n', h1, h2, h3, _⟩ := net_rest hr rfl
  exact ⟨n', h1, h2, h3⟩

/-- What is needed for everybody to be paid: a deposit of `q` EGLD by `c`, time passing to epoch `e`, withdrawal calls of manager `m`, and
requests and answers arriving in order. -/
def PayingAll (m c : Addr) (q : Nat) (e : UInt64) (n : Net) (op : NetOp) : Prop :=
  NetInOrder n op ∧ match op with
    | .call x => x = .delegate c q ∨ x = .advance e ∨ ∃ p, x = .withdrawPending m p
    | .deploy _ | .deposit _ _ => False
    | _ => True

/-- **C90.** From every reachable state of the network with an active contract and funded mocks (no claim being on its way to the
manager), whatever is on its way, however the providers stand and whether or not batches are possible: one deposit of the size of the
queue (none if it is empty), ten epochs and withdrawal calls of one manager are enough for every holder of unstake tokens matured by
then, whoever comes first, to be paid in full. -/
theorem C90_all_paid {n : Net} {m c : Addr} {e : UInt64} (hr : NetReachable n) (ha : n.w.st.state = .active)
    (hl : n.w.st.lsToken ≠ none) (hu : n.w.st.unstakeToken ≠ none) (hm : MayManage n.w m) (hF : Funded n)
    (hcl : ∀ ps, (.claim ps, none) ∉ n.msgs) (he : n.w.epoch.toNat + 10 ≤ e.toNat)
    (hd : 0 < toUndelegate n.w → c ≠ n.w.self ∧ toUndelegate n.w ≤ egldOf n.w c ∧
      0 < lsFor (supply n.w) (reserve n.w) (toUndelegate n.w)) :
    ∃ n', NetTrace (PayingAll m c (toUndelegate n.w) e) n n' ∧ n'.w.epoch = e ∧
      (∀ k a, unstakeOf n'.w k a = unstakeOf n.w k a) ∧
      (∃ u, IsSum (userTokens n'.w) u ∧ u + n'.w.burntUnstake = withdrawable n'.w) ∧
      ∀ a ps, a ≠ n.w.self →
        (∀ p ∈ ps, n.w.st.unstakeToken = some p.token ∧ 0 < p.amount ∧ ∃ t, maturityOf n.w p.nonce = some t ∧ t ≤ e) →
        (∀ k, paidWith k ps ≤ unstakeOf n.w k a) →
        ∃ n'', netStep n' (.call (.withdraw a 0 ps)) = .ok n'' ∧ egldOf n''.w a = egldOf n'.w a + totalPaid ps := by
  obtain ⟨n1, ht1, hm1, hs1, hq1, hF1⟩ : ∃ n1, NetTrace (PayingAll m c (toUndelegate n.w) e) n n1 ∧ n1.msgs = n.msgs ∧
      (∀ x, Still x → x ≠ .queue → Same n.w n1.w x) ∧ toUndelegate n1.w = 0 ∧ Funded n1 := by
    rcases Nat.eq_zero_or_pos (toUndelegate n.w) with h | h
    · exact ⟨n, .nil, rfl, fun x _ _ => Spec.Same.refl _ x, h, hF⟩
    · obtain ⟨d1, d2, d3⟩ := hd h
      obtain ⟨w', hw', hq', _⟩ := C89_emptied ha hl d1 h d2 d3
      have hfl : w'.flights = n.w.flights := by
        refine parts_step (net_inv hr).1 hw' .calls ?_
        simp [touched]
      have hs := net_call.2 ⟨(rfl : isDeliver (.delegate c (toUndelegate n.w)) = false), w', hw', rfl⟩
      refine ⟨_, .snoc (.call (.delegate c (toUndelegate n.w))) .nil ⟨trivial, .inl rfl⟩ hs, ?_, fun x hx hne => ?_, hq', hF⟩
      · show n.msgs ++ (w'.flights.drop n.w.flights.length).map _ = _
        rw [hfl, List.drop_length]
        exact List.append_nil _
      · refine parts_step (net_inv hr).1 hw' x ?_
        cases x <;> simp [touched, Still] at hx hne ⊢
  have hr1 : NetReachable n1 := ht1.reachable (fun _ _ h => h.1) hr
  obtain ⟨n2, ht2, hm2, hs2, hF2⟩ := net_rest hr1 rfl
  have hF2 := hF2 hF1 (by rw [hm1]; exact hcl)
  have hr2 : NetReachable n2 := ht2.reachable (fun _ _ h => h.1) hr1
  have hs : ∀ x, Still x → x ≠ .queue → Same n.w n2.w x := fun x hx hne => Spec.Same.trans (hs1 x hx hne) (hs2 x hx)
  have hid : n2.w.self = n.w.self := (hs .identity trivial (by simp)).1
  have how : n2.w.owner = n.w.owner := hs .owner trivial (by simp)
  have hck : n2.w.epoch = n.w.epoch := hs .clock trivial (by simp)
  have hst : n2.w.st.state = n.w.st.state := hs .switch trivial (by simp)
  have hls : n2.w.st.lsToken = n.w.st.lsToken := (hs .lsSlot trivial (by simp)).1
  have hus : n2.w.st.unstakeToken = n.w.st.unstakeToken := (hs .unstakeSlot trivial (by simp)).1
  have hmg : n2.w.st.managers = n.w.st.managers := hs .managers trivial (by simp)
  have hnf : ∀ k a, unstakeOf n2.w k a = unstakeOf n.w k a := fun k a => hs (.unstakes k a) trivial (by simp)
  have hmt : ∀ k, maturityOf n2.w k = maturityOf n.w k := fun k => by
    have : n2.w.attrs.get none k = n.w.attrs.get none k := hs (.attributes k) trivial (by simp)
    unfold maturityOf; rw [this]
  have hq2 : toUndelegate n2.w = toUndelegate n1.w := hs2 .queue trivial
  obtain ⟨n3, ht3, hep, hun, hmat, hsum, hpay⟩ := C58_network_exit (m := m) (e := e) hr2 hm2 (hq2.trans hq1) (by rw [hst]; exact ha)
    (by rw [hls]; exact hl) (by rw [hus]; exact hu) (by rw [hid]; exact hm.1) (by rw [hmg, how]; exact hm.2) (by rw [hck]; exact he)
    (fun p => by have := hF2 p; omega)
  refine ⟨n3, (ht1.trans (ht2.mono fun _ op h => ?_)).trans (ht3.mono fun _ op h => ?_), hep,
    fun k a => (hun k a).trans (hnf k a), hsum, fun a ps h1 h2 h3 => ?_⟩
  · obtain ⟨ho, i, rfl | rfl⟩ := h <;> exact ⟨ho, trivial⟩
  · obtain ⟨ho, h⟩ := h
    refine ⟨ho, ?_⟩
    cases op with
    | call x => exact .inr h
    | _ => exact h
  · exact hpay a ps (by rw [hid]; exact h1) (fun p hp => by rw [hus, hmt]; exact h2 p hp) (fun k => by rw [hnf]; exact h3 k)

private theorem funded_all {n : Net} (h : ∀ p ∈ n.mocks.keys, (mockBooks n p).stake + (mockBooks n p).unbonding ≤ mockBalance n p) :
    Funded n := fun p => by
  by_cases hp : p ∈ n.mocks.keys
  · exact h p hp
  · unfold mockBooks
    rw [Map.get_of_notMem _ _ p hp]
    exact Nat.zero_le _

/-- 90 LS tokens redeemed and asked back, two un-delegations on their way, one of them served, and 50 more LS tokens redeemed. -/
def midNet : Net := netRun stakedNet [.call (.unDelegate 11 0 [⟨500, 0, E 90⟩]), .call (.unDelegatePending 1 none), .serve 1,
  .call (.unDelegate 12 0 [⟨500, 0, E 50⟩])]

example : NetReachable midNet ∧ midNet.w.st.state = .active ∧ midNet.w.st.lsToken ≠ none ∧ midNet.w.st.unstakeToken ≠ none ∧
    MayManage midNet.w 1 ∧ Funded midNet ∧ (∀ x ∈ midNet.msgs, ∃ p a, x.1 = .undelegate p a) ∧
    midNet.msgs.map (fun x => x.2.isSome) = [false, true] ∧ toUndelegate midNet.w = E 50 ∧ midNet.w.epoch = 73 ∧ 13 ≠ midNet.w.self ∧
    toUndelegate midNet.w ≤ egldOf midNet.w 13 ∧ 0 < lsFor (supply midNet.w) (reserve midNet.w) (toUndelegate midNet.w) ∧
    unstakeOf midNet.w 1 11 = E 90 ∧ unstakeOf midNet.w 1 12 = E 50 ∧ withdrawable midNet.w = 0 := by
  refine ⟨netRun_reachable (netRun_reachable (.init fresh_isInit)), by decide +kernel, by decide +kernel, by decide +kernel,
    ⟨by decide +kernel, by decide +kernel⟩, funded_all (by decide +kernel), ?_, by decide +kernel, by decide +kernel, by decide +kernel,
    by decide +kernel, by decide +kernel, by decide +kernel, by decide +kernel, by decide +kernel, by decide +kernel⟩
  have h : midNet.msgs.all (fun x => match x.1 with | .undelegate _ _ => true | _ => false) = true := by decide +kernel
  intro x hx
  have := List.all_eq_true.1 h x hx
  obtain ⟨f, o⟩ := x
  cases f with
  | undelegate p a => exact ⟨p, a, rfl⟩
  | _ => cases this

/-- The network of `C70_first_needed`, in which no batch takes anything: `C90_all_paid` applies. -/
example : NetReachable stuckNet ∧ stuckNet.msgs = [] ∧ MayManage stuckNet.w 1 ∧ Funded stuckNet ∧
    toUndelegate stuckNet.w = 1200000000000000000 ∧ 13 ≠ stuckNet.w.self ∧ toUndelegate stuckNet.w ≤ egldOf stuckNet.w 13 ∧
    0 < lsFor (supply stuckNet.w) (reserve stuckNet.w) (toUndelegate stuckNet.w) :=
  ⟨netRun_reachable (.init fresh_isInit), by decide +kernel, ⟨by decide +kernel, by decide +kernel⟩, funded_all (by decide +kernel),
    by decide +kernel, by decide +kernel, by decide +kernel, by decide +kernel⟩

end LS
