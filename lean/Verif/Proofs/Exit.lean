import Verif.Spec.Exit
import Verif.Props.Network
import Verif.Props.Parts
import Verif.Props.Losses

/-! Lemmas for leaving: un-delegating the whole queue, settling a batch, and what winding up leaves alone. -/

namespace LS
open Spec

theorem Spec.NetTrace.mono {P Q : Net → NetOp → Prop} (h : ∀ n op, P n op → Q n op) {a b : Net} (ht : NetTrace P a b) : NetTrace Q a b := by
  induction ht with
  | nil => exact .nil
  | snoc op _ hp hs ih => exact .snoc op ih (h _ _ hp) hs

theorem Same.trans {a b c : World} {x : Part} (h : Same a b x) (h' : Same b c x) : Same a c x := by
  cases x <;> simp only [Same] at h h' ⊢ <;> first
    | exact h'.trans h
    | exact ⟨h'.1.trans h.1, h'.2.trans h.2⟩
    | exact ⟨h'.1.trans h.1, h'.2.1.trans h.2.1, h'.2.2.trans h.2.2⟩

theorem Same.refl (w : World) (x : Part) : Same w w x := by
  cases x <;> simp only [Same, and_self]

/-- What neither asking back nor collecting changes. -/
def calm (s : Addr) : Part → Bool
  | .identity | .owner | .clock | .switch | .lsSlot | .unstakeSlot | .managers | .attributes _ | .unstakes _ _ | .ls _ | .supply | .reserve
  | .pending | .delegOrder => true
  | .egld a => decide (a ≠ s)
  | _ => false

theorem deliver_possible {w : World} {i : Nat} {f : Flight} (o : Outcome) (hf : w.flights[i]? = some f) :
    ∃ w', step w (.deliver i o) = .ok w' := by
  show ∃ w', deliver w i o = .ok w'
  unfold deliver
  rw [hf]
  simp only
  split
  · exact ⟨_, rfl⟩
  · exact ⟨_, rfl⟩

/-- In the network no delegation ever failed. -/
theorem net_noFail {n : Net} (hr : NetReachable n) : ReachableBy NoFailedDelegation n.w := by
  induction hr with
  | @init w hi => exact ⟨w, hi, .nil⟩
  | @step n n' op hr ho hs ih =>
    obtain ⟨w0, hi, ht⟩ := ih
    cases op with
    | call op =>
      obtain ⟨hd, w', hw, rfl⟩ := net_call.1 hs
      refine ⟨w0, hi, .snoc op ht hw ?_⟩
      intro i p a hop
      subst hop
      cases hd
    | deploy p => obtain ⟨_, rfl⟩ := net_deploy.1 hs; exact ⟨w0, hi, ht⟩
    | deposit p v => obtain ⟨_, _, rfl⟩ := net_deposit.1 hs; exact ⟨w0, hi, ht⟩
    | serve i => obtain ⟨_, _, rfl⟩ := net_serve.1 hs; exact ⟨w0, hi, ht⟩
    | answer i =>
      obtain ⟨f, o, w', he, hw, rfl⟩ := net_answer.1 hs
      refine ⟨w0, hi, .snoc _ ht hw ?_⟩
      intro j p a hop hf
      cases hop
      have hfl : n.w.flights[i]? = some f := by rw [← (net_inv hr).2, List.getElem?_map, he]; rfl
      rw [hfl] at hf
      cases hf
      exact absurd ((netInv hr).accepted _ (List.mem_of_getElem? he) rfl) (by simp [moves])
    | lose i => exact ho.elim

theorem net_honest {n : Net} (hr : NetReachable n) : ReachableBy HonestManager n.w := by
  obtain ⟨B, hB, _⟩ := net_refines hr
  exact (honest_trace hB).1

/-- An un-delegation accepted by a mock moves stake to unbonding there. -/
theorem respond_undelegate {now : UInt64} {ms : Mocks} {p : Addr} {a : Nat} (h : (respond now ms (.undelegate p a)).1 = .ok 0 0) (q : Addr) :
    mbal (respond now ms (.undelegate p a)).2 q = mbal ms q ∧
      (mbooks (respond now ms (.undelegate p a)).2 q).stake + (mbooks (respond now ms (.undelegate p a)).2 q).unbonding =
        (mbooks ms q).stake + (mbooks ms q).unbonding := by
  cases hm : ms.get none p with
  | none =>
    have : respond now ms (.undelegate p a) = (.err, ms) := by simp only [respond, onMock, hm]
    rw [this] at h; cases h
  | some m =>
    cases hu : m.unDelegate now a with
    | error e =>
      have : respond now ms (.undelegate p a) = (.err, ms) := by simp only [respond, onMock, hm, hu]; rfl
      rw [this] at h; cases h
    | ok m' =>
      have : respond now ms (.undelegate p a) = (.ok 0 0, ms.set p (some m')) := by simp only [respond, onMock, hm, hu]; rfl
      rw [this]
      obtain ⟨_, hle, rfl⟩ := unDelegate_mock.1 hu
      show mbal (ms.set p _) q = _ ∧ (mbooks (ms.set p _) q).stake + (mbooks (ms.set p _) q).unbonding = _
      rw [mbal_set, mbooks_set]
      by_cases hq : p = q
      · subst hq
        rw [if_pos rfl, if_pos rfl]
        unfold mbal mbooks
        rw [hm]
        refine ⟨rfl, ?_⟩
        show m.deposit - a + (m.undAmount + a) = m.deposit + m.undAmount
        omega
      · rw [if_neg hq, if_neg hq]
        exact ⟨rfl, rfl⟩

/-- Serving and answering a batch of un-delegations. -/
theorem net_settle {P : Net → NetOp → Prop} (hS : ∀ n i, NetInOrder n (.serve i) → P n (.serve i))
    (hA : ∀ n i, NetInOrder n (.answer i) → P n (.answer i)) (hP : ∀ n op, P n op → NetInOrder n op) :
    ∀ {b : List (Addr × Nat)} {n : Net}, NetReachable n → n.msgs = (undelegations b).map (·, none) → Funded n →
    ∃ n', NetTrace P n n' ∧ n'.msgs = [] ∧ (∀ x, calm n.w.self x = true ∨ x = .queue → Same n.w n'.w x) ∧ Funded n'
  | [], n, _, h0, hF => ⟨n, .nil, h0, fun x _ => Same.refl _ x, hF⟩
  | (p, a) :: b, n, hr, h0, hF => by
    have h0 : n.msgs = (.undelegate p a, none) :: (undelegations b).map (·, none) := h0
    obtain ⟨hreach, hmsgs⟩ := net_inv hr
    have hm0 : n.msgs[0]? = some (.undelegate p a, none) := by rw [h0]; rfl
    have ho : NetInOrder n (.serve 0) := fun j hj => absurd hj (Nat.not_lt_zero _)
    have hacc := accepted_of hr (netInv hr) hm0 ho rfl
    have hs1 := net_serve.2 ⟨_, hm0, rfl⟩
    rw [hacc] at hs1
    obtain ⟨n1, hn1⟩ : ∃ n1 : Net, n1 = { n with
      msgs := n.msgs.set 0 (.undelegate p a, some (.ok 0 0)), mocks := (respond n.w.epoch n.mocks (.undelegate p a)).2 } := ⟨_, rfl⟩
    rw [← hn1] at hs1
    have hr1 : NetReachable n1 := .step (.serve 0) hr ho hs1
    have hF1 : Funded n1 := by
      intro q
      obtain ⟨e1, e2⟩ := respond_undelegate hacc q
      have := hF q
      rw [hn1]
      show (mbooks _ q).stake + (mbooks _ q).unbonding ≤ mbal _ q
      rw [e1, e2]
      exact this
    have hm1 : n1.msgs = (.undelegate p a, some (.ok 0 0)) :: (undelegations b).map (·, none) := by rw [hn1, h0]; rfl
    have hw1 : n1.w = n.w := by rw [hn1]
    have hf : n1.w.flights[0]? = some (.undelegate p a) := by
      rw [hw1, ← hmsgs, h0]; rfl
    obtain ⟨w', hw'⟩ := deliver_possible (.ok 0 0) hf
    have ho2 : NetInOrder n1 (.answer 0) := fun j hj => absurd hj (Nat.not_lt_zero _)
    have hs2 := net_answer.2 ⟨_, _, w', (by rw [hm1]; rfl : n1.msgs[0]? = some (.undelegate p a, some (.ok 0 0))), hw', rfl⟩
    have hr2 := NetReach.step (.answer 0) hr1 ho2 hs2
    obtain ⟨n', ht, hm', hc, hF'⟩ := net_settle hS hA hP (b := b) hr2 (by show n1.msgs.eraseIdx 0 = _; rw [hm1]; rfl) (show Funded _ from hF1)
    have hsame : ∀ x, calm n1.w.self x = true ∨ x = .queue → Same n1.w w' x := by
      intro x hx
      refine C64_only_its_parts (net_inv hr1).1 hw' x ?_
      simp only [touched, hf, callbackParts]
      cases x <;> simp [calm] at hx ⊢
      exact hx
    refine ⟨n', (NetTrace.snoc _ (NetTrace.snoc _ .nil (hS _ _ ho) hs1) (hA _ _ ho2) hs2).trans ht, hm', fun x hx => ?_, hF'⟩
    rw [← hw1] at hx ⊢
    have hself : w'.self = n1.w.self := (hsame .identity (.inl rfl)).1
    refine (hsame x hx).trans (hc x ?_)
    show calm w'.self x = true ∨ _
    rw [hself]; exact hx

theorem calm_self {w w' : World} (h : Same w w' .identity) (x : Part) : calm w'.self x = calm w.self x := by rw [h.1]

/-- A manager asks the whole queue back. -/
theorem net_askBack {n : Net} {m : Addr} {e : UInt64} (hr : NetReachable n) (h0 : n.msgs = []) (ha : n.w.st.state = .active)
    (hl : n.w.st.lsToken ≠ none) (hm : MayManage n.w m) (hb : CanBatch n.w) (hq : oneEgld ≤ toUndelegate n.w)
    (hg : FirstCanGive n.w (toUndelegate n.w)) (hF : Funded n) :
    ∃ n', NetTrace (AskingBack m e) n n' ∧ n'.msgs = [] ∧ (∀ x, calm n.w.self x = true → Same n.w n'.w x) ∧ toUndelegate n'.w = 0 ∧
      Funded n' := by
  obtain ⟨⟨cfg, hcfg, hne⟩, hms, hlen⟩ := hb
  obtain ⟨p, hp, hpl⟩ := hg
  have hmg : isManager n.w m = true := by
    unfold isManager
    rcases hm.2 with h | h <;> simp [h]
  have hone : 0 < oneEgld := MIN_EGLD_pos
  have hpm := List.mem_of_head? hp
  obtain ⟨hp1, hp2⟩ := List.mem_filter.1 hpm
  obtain ⟨_, w1, hw1⟩ := C37_partial (c := m) (o := none) (net_noFail hr) hm.1 hl ha hmg
    ⟨hq, Nat.le_refl _, .inl (Nat.sub_self _)⟩ hcfg hne hms hlen ⟨p, hp1, by omega⟩
  have hreach := (net_inv hr).1
  obtain ⟨b, hfl, _, hsum, _⟩ := C20_unDelegatePending_exact hreach hw1
  have hfirst := (C54_first hreach hw1 hfl hms rfl hp hpl).1
  have hf0 : n.w.flights = [] := by rw [← (net_inv hr).2, h0]; rfl
  have hs1 := net_call.2 ⟨rfl, w1, hw1, rfl⟩
  have hr1 := NetReach.step (.call (.unDelegatePending m none)) hr trivial hs1
  obtain ⟨n', ht, hm', hc, hF'⟩ := net_settle (P := AskingBack m e) (fun _ _ h => ⟨h, trivial⟩) (fun _ _ h => ⟨h, trivial⟩)
    (fun _ _ h => h.1) (b := b) hr1 (by
      show n.msgs ++ (w1.flights.drop n.w.flights.length).map (·, none) = _
      rw [h0, hfl, hf0]; rfl) (show Funded _ from hF)
  have hsame : ∀ x, calm n.w.self x = true → Same n.w w1 x := by
    intro x hx
    refine C64_only_its_parts hreach hw1 x ?_
    unfold touched
    cases x <;> simp [calm] at hx ⊢
  refine ⟨n', (NetTrace.snoc _ .nil ⟨trivial, .inr (.inl rfl)⟩ hs1).trans ht, hm', fun x hx => ?_, ?_, hF'⟩
  · refine (hsame x hx).trans (hc x (.inl ?_))
    rw [calm_self (hsame .identity rfl)]; exact hx
  · have h1 : toUndelegate n'.w = toUndelegate w1 := hc .queue (.inr rfl)
    have h2 : batchAsked (toUndelegate n.w) none = toUndelegate n.w := rfl
    omega

/-- Winding up touches the clock, the contract's own EGLD and its figures, nothing of anybody. -/
theorem winding_calm {n n' : Net} {m : Addr} {e : UInt64} (hr : NetReachable n) (h0 : ∀ x ∈ n.msgs, ∃ p, x.1 = .withdraw p)
    (ht : NetTrace (Winding m e) n n') :
    (∀ x ∈ n'.msgs, ∃ p, x.1 = .withdraw p) ∧ ∀ x, calm n.w.self x = true ∨ x = .queue → x ≠ .clock → Same n.w n'.w x := by
  induction ht with
  | nil => exact ⟨h0, fun x _ _ => Same.refl _ x⟩
  | @snoc n1 n2 op ht hp hs ih =>
    obtain ⟨im, ic⟩ := ih
    have hr1 : NetReachable n1 := ht.reachable (fun _ _ h => h.1) hr
    have hcs := calm_self (ic .identity (.inl rfl) (by simp))
    have fin : ∀ {w' : World}, (∀ x, calm n1.w.self x = true ∨ x = .queue → x ≠ .clock → Same n1.w w' x) →
        ∀ x, calm n.w.self x = true ∨ x = .queue → x ≠ .clock → Same n.w w' x := fun h x hx hc =>
      (ic x hx hc).trans (h x (by rw [hcs]; exact hx) hc)
    obtain ⟨ho, hp⟩ := hp
    cases op with
    | call op =>
      obtain ⟨hd, w', hw, rfl⟩ := net_call.1 hs
      have hreach := (net_inv hr1).1
      rcases hp with rfl | ⟨p, rfl⟩
      · obtain ⟨_, rfl⟩ := advance_ok.1 hw
        refine ⟨fun x hx => ?_, fin fun x hx hc => C64_only_its_parts hreach hw x ?_⟩
        · have hx : x ∈ n1.msgs ++ (n1.w.flights.drop n1.w.flights.length).map (·, none) := hx
          rw [List.drop_length, List.map_nil, List.append_nil] at hx
          exact im x hx
        · simp [touched, hc]
      · obtain ⟨_, _, _, _, _, E, _, rfl⟩ := withdrawPending_ok hw
        refine ⟨fun x hx => ?_, fin fun x hx hc => C64_only_its_parts hreach hw x ?_⟩
        · have hx : x ∈ n1.msgs ++ ((n1.w.flights ++ [Flight.withdraw p]).drop n1.w.flights.length).map (·, none) := hx
          rw [List.drop_left] at hx
          rcases List.mem_append.1 hx with hx | hx
          · exact im x hx
          · have : x = (.withdraw p, none) := by simpa using hx
            exact ⟨p, by rw [this]⟩
        · cases x <;> simp [calm, touched] at hx ⊢
    | deploy p => exact hp.elim
    | deposit p v => exact hp.elim
    | serve i =>
      obtain ⟨f, hf, rfl⟩ := net_serve.1 hs
      refine ⟨fun x hx => ?_, ic⟩
      rcases List.mem_or_eq_of_mem_set hx with hx | rfl
      · exact im x hx
      · exact im (f, none) (List.mem_of_getElem? hf)
    | answer i =>
      obtain ⟨f, o, w', he, hw, rfl⟩ := net_answer.1 hs
      obtain ⟨p, hfp⟩ := im _ (List.mem_of_getElem? he)
      have hfp : f = .withdraw p := hfp
      subst hfp
      have hfl : n1.w.flights[i]? = some (.withdraw p) := by rw [← (net_inv hr1).2, List.getElem?_map, he]; rfl
      refine ⟨fun x hx => im x (List.mem_of_mem_eraseIdx hx), fin fun x hx hc => C64_only_its_parts (net_inv hr1).1 hw x ?_⟩
      simp only [touched, hfl]
      cases o <;> cases x <;> simp [calm, callbackParts] at hx ⊢
      exact hx
    | lose i => exact ho.elim

end LS
