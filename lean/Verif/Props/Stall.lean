import Verif.Props.Line
import Verif.Props.Network

/-! C114: one provider and the rewards of the others. -/

namespace LS
open Spec Demo

/-- A provider that cannot pay the rewards due at it. -/
def Spec.CannotPay (n : Net) (p : Addr) : Prop := mockBalance n p < rewardAt n p

/-- Nothing is paid in at `p`, and no request to `p` alone (to stake, un-stake or withdraw) is served.  Claims are. -/
def Spec.Unhelped (p : Addr) (n : Net) : NetOp → Prop
  | .deposit q _ => q ≠ p
  | .serve i => ∀ f o, n.msgs[i]? = some (f, o) → target f ≠ some p
  | _ => True

/-! ### Proofs -/

private theorem short_iff {n : Net} {p : Addr} : CannotPay n p ↔ ∃ m, n.mocks.get none p = some m ∧ m.egld < rewardDue m n.w.epoch := by
  unfold CannotPay mockBalance rewardAt
  cases n.mocks.get none p with
  | none => simp
  | some m => simp

private theorem due_mono (m : Mock) {a b : UInt64} (h : a ≤ b) : rewardDue m a ≤ rewardDue m b := by
  have h : a.toNat ≤ b.toNat := h
  unfold rewardDue
  exact Nat.div_le_div_right (Nat.mul_le_mul_left _ (by omega))

private theorem short_keep {n n' : Net} {p : Addr} (h : CannotPay n p) (hk : n'.mocks.get none p = n.mocks.get none p)
    (he : n.w.epoch ≤ n'.w.epoch) : CannotPay n' p := by
  obtain ⟨m, hm, hlt⟩ := short_iff.1 h
  exact short_iff.2 ⟨m, hk.trans hm, Nat.lt_of_lt_of_le hlt (due_mono m he)⟩

private theorem onMock_other {ms : Mocks} {p q : Addr} {k : Mock → Res (Mock × Nat)} (h : q ≠ p) :
    (onMock ms q k).2.get none p = ms.get none p := by
  unfold onMock
  cases hm : ms.get none q with
  | none => rfl
  | some m =>
    cases hk : k m with
    | error e => simp only [hk]
    | ok x => simp only [hk]; rw [Map.get_set, if_neg h]

/-- How far a step of the network takes the contract. -/
private theorem net_later {n n' : Net} {op : NetOp} (hs : netStep n op = .ok n') : Later n.w n'.w := by
  cases op with
  | call op =>
    obtain ⟨_, w', hw, rfl⟩ := net_call.1 hs
    exact .snoc op .nil hw trivial
  | deploy p => obtain ⟨_, rfl⟩ := net_deploy.1 hs; exact .nil
  | deposit p v => obtain ⟨m, _, rfl⟩ := net_deposit.1 hs; exact .nil
  | serve i => obtain ⟨f, _, rfl⟩ := net_serve.1 hs; exact .nil
  | answer i =>
    obtain ⟨f, o, w', _, hw, rfl⟩ := net_answer.1 hs
    exact .snoc _ .nil hw trivial
  | lose i =>
    obtain ⟨f, o, w', _, hw, rfl⟩ := net_lose.1 hs
    exact .snoc _ .nil hw trivial

private theorem later_join {a b c : World} (h : Later a b) (h' : Later b c) : Later a c := by
  induction h' with
  | nil => exact h
  | snoc op _ hs hP ih => exact .snoc op ih hs hP

private theorem short_step {n n' : Net} {op : NetOp} {p : Addr} (hr : AnyNet n) (h : CannotPay n p) (hu : Unhelped p n op)
    (hs : netStep n op = .ok n') : CannotPay n' p := by
  have he := epoch_later (any_inv hr).1 (net_later hs)
  refine short_keep h ?_ he
  cases op with
  | call op => obtain ⟨_, w', hw, rfl⟩ := net_call.1 hs; rfl
  | deploy q =>
    obtain ⟨hq, rfl⟩ := net_deploy.1 hs
    obtain ⟨m, hm, _⟩ := short_iff.1 h
    have hne : q ≠ p := by rintro rfl; rw [hm] at hq; cases hq
    show (n.mocks.set q _).get none p = _
    rw [Map.get_set, if_neg hne]
  | deposit q v =>
    obtain ⟨m, _, rfl⟩ := net_deposit.1 hs
    show (n.mocks.set q _).get none p = _
    rw [Map.get_set, if_neg hu]
  | serve i =>
    obtain ⟨f, hm, rfl⟩ := net_serve.1 hs
    have ht := hu f none hm
    show (respond n.w.epoch n.mocks f).2.get none p = _
    cases f with
    | claim ps =>
      by_cases hp : p ∈ ps
      · have hfail := (C57_claim_pays_due hr hm hs).2.2.2.2.2 ⟨p, hp, .inr h⟩
        exact congrArg (fun ms : Mocks => ms.get none p) hfail.2
      · exact (C57_claim_pays_due hr hm hs).2.2.2.1 p hp
    | delegate q a => exact onMock_other fun e => ht (by rw [e]; rfl)
    | whitelist q a c => exact onMock_other fun e => ht (by rw [e]; rfl)
    | undelegate q a => exact onMock_other fun e => ht (by rw [e]; rfl)
    | withdraw q => exact onMock_other fun e => ht (by rw [e]; rfl)
  | answer i => obtain ⟨f, o, w', _, hw, rfl⟩ := net_answer.1 hs; rfl
  | lose i => obtain ⟨f, o, w', _, hw, rfl⟩ := net_lose.1 hs; rfl

private theorem stall_trace {n n' : Net} {p : Addr} (hr : AnyNet n) (hb : CannotPay n p) (ht : NetTrace (Unhelped p) n n') :
    AnyNet n' ∧ CannotPay n' p ∧ Later n.w n'.w := by
  induction ht with
  | nil => exact ⟨hr, hb, .nil⟩
  | snoc op _ hu hs ih =>
    obtain ⟨h1, h2, h3⟩ := ih
    exact ⟨.step op h1 trivial hs, short_step h1 h2 hu hs, later_join h3 (net_later hs)⟩

/-! ### C114 -/

/-- Long after a delegation: the first provider has less EGLD than the rewards due at it, the second has plenty. -/
def shortNet : Net := netRun stakedNet [.deposit 22 (E 1000), .call (.advance 20000)]

/-- **C114**, one for all: a listed provider `p` that cannot pay its rewards stays so, and listed, through every history in which nothing
is paid in at it and no request to it alone is served, whatever else happens.  All that time every `claimRewards` names it, and every
claim naming it fails when served: no provider pays. -/
theorem C114_blocked {n n' : Net} {p : Addr} (hr : AnyNet n) (hp : p ∈ n.w.st.delegList) (hb : CannotPay n p)
    (ht : NetTrace (Unhelped p) n n') :
    CannotPay n' p ∧ p ∈ n'.w.st.delegList ∧
    (∀ m n1, netStep n' (.call (.claimRewards m)) = .ok n1 →
      ∃ ps, p ∈ ps ∧ n1.msgs = n'.msgs ++ [(.claim ps, none)]) ∧
    (∀ i ps n1, n'.msgs[i]? = some (.claim ps, none) → p ∈ ps → netStep n' (.serve i) = .ok n1 →
      n1.msgs[i]? = some (.claim ps, some .err) ∧ n1.mocks = n'.mocks ∧ n1.w = n'.w) := by
  obtain ⟨hr', hb', hl⟩ := stall_trace hr hb ht
  have hp' := (C31_never_removed (any_inv hr).1 hl hp).1
  refine ⟨hb', hp', fun m n1 hs => ?_, fun i ps n1 hm hps hs => ?_⟩
  · obtain ⟨_, w', hw, rfl⟩ := net_call.1 hs
    obtain ⟨_, _, _, _, _, E, _, rfl⟩ := claimRewards_ok hw
    refine ⟨n'.w.st.delegList, hp', ?_⟩
    show n'.msgs ++ ((n'.w.flights ++ [_]).drop n'.w.flights.length).map (·, none) = _
    rw [List.drop_left]; rfl
  · obtain ⟨h1, _, _, _, _, h2⟩ := C57_claim_pays_due hr' hm hs
    obtain ⟨h2, h3⟩ := h2 ⟨p, hps, .inr hb'⟩
    exact ⟨h2, h3, h1⟩

/-- **C114**, the answer: the failure of a claim arriving at the contract changes none of its storage and no balance. -/
theorem C114_nothing {n n' : Net} {i : Nat} {ps : List Addr} (hr : AnyNet n) (hm : n.msgs[i]? = some (.claim ps, some .err))
    (hs : netStep n (.answer i) = .ok n') :
    n'.w.st = n.w.st ∧ (∀ a, egldOf n'.w a = egldOf n.w a) ∧ n'.w.ls = n.w.ls ∧ n'.w.nft = n.w.nft ∧ n'.mocks = n.mocks := by
  obtain ⟨f, o, w', hm', hw, rfl⟩ := net_answer.1 hs
  rw [hm] at hm'; cases hm'
  have hf : n.w.flights[i]? = some (.claim ps) := by rw [← (any_inv hr).2, List.getElem?_map, hm]; rfl
  have hd : step n.w (.deliver i .err) = .ok (arrive n.w i (.claim ps) .err) := deliver_of_cb hf rfl
  rw [hd] at hw
  cases hw
  refine ⟨rfl, fun a => ?_, rfl, rfl, rfl⟩
  unfold egldOf
  show (credit n.w.egld n.w.self 0).get 0 a = _
  rw [get_credit]
  split <;> simp_all

/-- **C114**, the cure: what is missing, paid in at the provider, lets it pay; other providers are not affected. -/
theorem C114_cure {n n' : Net} {p : Addr} {v : Nat} (hs : netStep n (.deposit p v) = .ok n') (hv : rewardAt n p ≤ mockBalance n p + v) :
    ¬ CannotPay n' p ∧ rewardAt n' p = rewardAt n p ∧ n'.w = n.w ∧ ∀ q, q ≠ p → (CannotPay n' q ↔ CannotPay n q) := by
  obtain ⟨m, hm, rfl⟩ := net_deposit.1 hs
  have hget : ∀ q, (n.mocks.set p (some (m.depositEgld v))).get none q = if p = q then some (m.depositEgld v) else n.mocks.get none q :=
    fun q => Map.get_set ..
  have hrw : rewardAt { n with mocks := n.mocks.set p (some (m.depositEgld v)) } p = rewardAt n p := by
    unfold rewardAt
    simp only [hget, if_true, hm]
    rfl
  refine ⟨?_, hrw, rfl, fun q hq => ?_⟩
  · unfold CannotPay
    rw [hrw]
    have : mockBalance { n with mocks := n.mocks.set p (some (m.depositEgld v)) } p = mockBalance n p + v := by
      unfold mockBalance
      simp only [hget, if_true, hm]
      rfl
    omega
  · unfold CannotPay mockBalance rewardAt
    simp only [hget, if_neg (Ne.symm hq)]

/-- **C114**, partial: when every listed provider can pay, the rewards of all arrive with one claim (`C57_rewards_end_to_end`).  Missing:
one that cannot pay keeps the others from paying (`C114_false`, `C114_blocked`). -/
theorem C114_partial {n n1 : Net} {m : Addr} (hr : NetReachable n) (h0 : n.msgs = [])
    (hfund : ∀ p ∈ n.w.st.delegList, ¬ CannotPay n p) (hfee : n.w.st.feeRate ≤ 10000)
    (hs : netStep n (.call (.claimRewards m)) = .ok n1) :
    ∃ n2 n3, netStep n1 (.serve 0) = .ok n2 ∧ netStep n2 (.answer 0) = .ok n3 ∧
      egldOf n3.w n.w.self = egldOf n.w n.w.self + allDue n n.w.st.delegList ∧ ∀ p ∈ n.w.st.delegList, rewardAt n3 p = 0 := by
  obtain ⟨n2, n3, R, fee, h1, h2, _, rfl, _, _, _, h3, _, _, _, h4⟩ := C57_rewards_end_to_end hr h0
    (fun p hp => ⟨(netInv hr).listed p hp, Nat.le_of_not_lt (hfund p hp)⟩) hfee hs
  exact ⟨n2, n3, h1, h2, h3, fun p hp => (h4 p hp).2⟩

private theorem ok_of_some {n : Net} {op : NetOp} (h : (netStep n op).toOption.isSome = true) : ∃ n', netStep n op = .ok n' := by
  cases hs : netStep n op with
  | ok n' => exact ⟨n', rfl⟩
  | error e => rw [hs] at h; cases h

/-- **C114 is false of the code**: two listed providers, one of which cannot pay; the other owes six hundred EGLD of rewards and has
them.  A manager's `claimRewards` is accepted, served and answered, and nothing is credited, nothing has moved. -/
theorem C114_false : ∃ n n1 n2 n3 : Net, NetReachable n ∧ n.msgs = [] ∧ n.w.st.delegList = [21, 22] ∧ CannotPay n 21 ∧
    E 600 < rewardAt n 22 ∧ ¬ CannotPay n 22 ∧
    netStep n (.call (.claimRewards 1)) = .ok n1 ∧ netStep n1 (.serve 0) = .ok n2 ∧ netStep n2 (.answer 0) = .ok n3 ∧
    n3.msgs = [] ∧ n3.w.st = n.w.st ∧ (∀ a, egldOf n3.w a = egldOf n.w a) ∧ n3.mocks = n.mocks := by
  have hr : NetReachable shortNet := netRun_reachable (netRun_reachable (.init fresh_isInit))
  have h0 : shortNet.msgs = [] := by decide +kernel
  have hl : shortNet.w.st.delegList = [21, 22] := by decide +kernel
  have hb : CannotPay shortNet 21 := by unfold CannotPay; decide +kernel
  obtain ⟨n1, h1⟩ := ok_of_some (n := shortNet) (op := .call (.claimRewards 1)) (by decide +kernel)
  have hw := (net_call.1 h1).2
  obtain ⟨ps, hps, hm⟩ := (C114_blocked (any_of_net hr) (by rw [hl]; decide) hb .nil).2.2.1 1 n1 h1
  rw [h0] at hm
  have hr1 : NetReachable n1 := .step (.call (.claimRewards 1)) hr trivial h1
  obtain ⟨n2, h2⟩ : ∃ n2, netStep n1 (.serve 0) = .ok n2 := ⟨_, net_serve.2 ⟨.claim ps, by rw [hm]; rfl, rfl⟩⟩
  have hb1 : CannotPay n1 21 := (C114_blocked (any_of_net hr) (by rw [hl]; decide) hb (.snoc (.call (.claimRewards 1)) .nil trivial h1)).1
  have hl1 := (C114_blocked (any_of_net hr) (by rw [hl]; decide) hb (.snoc (.call (.claimRewards 1)) .nil trivial h1)).2.1
  obtain ⟨a1, a2, a3⟩ := (C114_blocked (any_of_net hr1) hl1 hb1 .nil).2.2.2 0 ps n2 (by rw [hm]; rfl) hps h2
  have hr2 : AnyNet n2 := .step _ (any_of_net hr1) trivial h2
  have hlen : n2.msgs.length = 1 := by
    have := (C57_claim_pays_due (any_of_net hr1) (i := 0) (ps := ps) (by rw [hm]; rfl) h2).2.1
    rw [this, hm]; rfl
  have hf : n2.w.flights[0]? = some (.claim ps) := by rw [← (any_inv hr2).2, List.getElem?_map, a1]; rfl
  obtain ⟨n3, h3⟩ : ∃ n3, netStep n2 (.answer 0) = .ok n3 :=
    ⟨_, net_answer.2 ⟨_, _, _, a1, deliver_of_cb hf rfl, rfl⟩⟩
  obtain ⟨b1, b2, _, _, b3⟩ := C114_nothing hr2 a1 h3
  obtain ⟨w1, hw1, e1⟩ := hw
  obtain ⟨_, _, _, _, _, G, hG, rfl⟩ := claimRewards_ok hw1
  have s1 : n1.w.st = shortNet.w.st := by rw [e1]
  have s2 : ∀ a, egldOf n1.w a = egldOf shortNet.w a := fun a => by rw [e1]; exact hG a
  have s3 : n1.mocks = shortNet.mocks := by rw [e1]
  refine ⟨shortNet, n1, n2, n3, hr, h0, hl, hb, by decide +kernel, by unfold CannotPay; decide +kernel, h1, h2, h3, ?_, ?_, ?_, ?_⟩
  · obtain ⟨_, _, _, _, _, rfl⟩ := net_answer.1 h3
    exact List.length_eq_zero_iff.1 (by show (n2.msgs.eraseIdx 0).length = 0; rw [List.length_eraseIdx, hlen]; rfl)
  · rw [b1, a3, s1]
  · intro a; rw [b2, a3, s2]
  · rw [b3, a2, s3]

private theorem calls_unhelped {p : Addr} : ∀ {cs : List Op} {n : Net}, NetTrace (Unhelped p) n (netRun n (cs.map .call))
  | [], _ => .nil
  | c :: cs, n => by
    show NetTrace _ n (netRun (if netInOrder n (.call c) then (match netStep n (.call c) with | .ok n' => n' | .error _ => n) else n) _)
    rw [if_pos (show netInOrder n (.call c) = true from rfl)]
    cases hs : netStep n (.call c) with
    | error e => exact calls_unhelped
    | ok n' => exact (NetTrace.snoc (.call c) .nil trivial hs).trans calls_unhelped

/-- Non-vacuity of `C114_blocked`: a history without help in which a user deposits and a hundred epochs pass. -/
example : AnyNet shortNet ∧ 21 ∈ shortNet.w.st.delegList ∧ CannotPay shortNet 21 ∧
    ∃ n', NetTrace (Unhelped 21) shortNet n' ∧ shortNet.w.epoch < n'.w.epoch ∧ reserve shortNet.w < reserve n'.w := by
  refine ⟨any_of_net (netRun_reachable (netRun_reachable (.init fresh_isInit))), by decide +kernel, by unfold CannotPay; decide +kernel, ?_⟩
  exact ⟨netRun shortNet [.call (.delegate 11 (E 5)), .call (.advance 20100)],
    calls_unhelped (cs := [.delegate 11 (E 5), .advance 20100]), by decide +kernel, by decide +kernel⟩

/-- Non-vacuity of `C114_cure`. -/
example : CannotPay shortNet 21 ∧ (netStep shortNet (.deposit 21 (E 100))).toOption.isSome = true ∧
    rewardAt shortNet 21 ≤ mockBalance shortNet 21 + E 100 :=
  ⟨by unfold CannotPay; decide +kernel, by decide +kernel, by decide +kernel⟩

/-- Non-vacuity of `C114_partial`: without the long wait both can pay. -/
example : NetReachable stakedNet ∧ stakedNet.msgs = [] ∧ (∀ p ∈ stakedNet.w.st.delegList, ¬ CannotPay stakedNet p) ∧
    stakedNet.w.st.feeRate ≤ 10000 ∧ (netStep stakedNet (.call (.claimRewards 1))).toOption.isSome = true :=
  ⟨netRun_reachable (.init fresh_isInit), by decide +kernel, by unfold CannotPay; decide +kernel, by decide +kernel, by decide +kernel⟩

end LS
