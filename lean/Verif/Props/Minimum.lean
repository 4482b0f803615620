import Verif.Proofs.Dust
import Verif.Props.Network

/-! The smallest amounts: C95. -/

namespace LS
open Spec Demo

/-- What the protocol's staking contracts ask of a request beyond what the mock checks: no delegation and no un-delegation of less than one
EGLD, and no deposit left below one EGLD except none at all. -/
def Spec.Allowed (ms : Mocks) : Flight → Prop
  | .delegate _ a | .whitelist _ a _ => oneEgld ≤ a
  | .undelegate p a => ∃ m, ms.get none p = some m ∧ oneEgld ≤ a ∧ a ≤ m.deposit ∧ Whole (m.deposit - a)
  | .withdraw _ | .claim _ => True

private theorem joining_min {w : World} (hr : Reachable w) {p : Addr} {x : Nat} {u : Addr} (h : .whitelist p x u ∈ w.flights) :
    oneEgld ≤ x := by
  induction hr with
  | init hi =>
    obtain ⟨self, owner, contracts, epoch, funds, acc, fees, rpe, mr, ms, ma, ub, _, _, rfl⟩ := isInit_eq hi
    cases h
  | @step w w' op hr hs ih =>
    have hst := fstep (reachable_regInv hr) hs
    generalize w'.flights = fl at hst h
    generalize w'.dead = dd at hst
    cases hst with
    | same => exact ih h
    | delegated c o sels hop h1 =>
      rcases List.mem_append.1 h with h | h
      · exact ih h
      · obtain ⟨_, _, h⟩ := List.mem_map.1 h; cases h
    | undelegated c o sels hop h1 =>
      rcases List.mem_append.1 h with h | h
      · exact ih h
      · obtain ⟨_, _, h⟩ := List.mem_map.1 h; cases h
    | withdrawn c q hop =>
      rcases List.mem_append.1 h with h | h
      · exact ih h
      · cases List.mem_singleton.1 h
    | claimed c hop =>
      rcases List.mem_append.1 h with h | h
      · exact ih h
      · cases List.mem_singleton.1 h
    | whitelisted c v q ad ts cap k apy hop hv hc =>
      rcases List.mem_append.1 h with h | h
      · exact ih h
      · cases List.mem_singleton.1 h; exact hv
    | settled i o f w'' hop hf hcb => exact ih (List.mem_of_mem_eraseIdx h)
    | died i o f e hop hf hcb => exact ih (List.mem_of_mem_eraseIdx h)
    | starved i o f hop hf => exact ih (List.mem_of_mem_eraseIdx h)

/-- **C95.** Every request of the contract, when it is served in order, keeps to the protocol's smallest amounts. -/
theorem C95_allowed {n : Net} {i : Nat} {f : Flight} (hr : NetReachable n) (ho : NetInOrder n (.serve i))
    (hm : n.msgs[i]? = some (f, none)) : Allowed n.mocks f := by
  obtain ⟨hreach, hmsgs⟩ := net_inv hr
  have hreg : RegOk n.w.st.lsToken n.w.st.unstakeToken n.w.st.delegList n.w.st.undelegList n.w.st.data n.w.flights n.w.dead :=
    reachable_regInv hreach
  have hfl : f ∈ n.w.flights := by
    rw [← hmsgs]; exact List.mem_map.2 ⟨_, List.mem_of_getElem? hm, rfl⟩
  cases f with
  | delegate p a => exact hreg.pos p a (.inl hfl)
  | undelegate p a =>
    obtain ⟨m, hmk⟩ := Option.ne_none_iff_exists'.1 ((netInv hr).listed p (hreg.flt p a (.inr hfl)))
    obtain ⟨h1, h2⟩ := clean_of hr hm ho hmk
    exact ⟨m, hmk, hreg.pos p a (.inr hfl), h1, h2⟩
  | whitelist p x u => exact joining_min hreach hfl
  | withdraw p => trivial
  | claim ps => trivial

private theorem claimMulti_deposit {now : UInt64} : ∀ {ps : List Addr} {ms ms' : Mocks} {t : Nat}, claimMulti now ps ms = .ok (ms', t) →
    (∀ q m, ms.get none q = some m → Whole m.deposit) → ∀ q m, ms'.get none q = some m → Whole m.deposit
  | [], ms, ms', t, h, hw => by cases h; exact hw
  | p :: ps, ms, ms', t, h, hw => by
    obtain ⟨m, m', r, t', hm, hc, h, _⟩ := claimMulti_cons.1 h
    refine claimMulti_deposit h fun q k hk => ?_
    rw [Map.get_set] at hk
    split at hk
    · cases hk
      have : m'.deposit = m.deposit := by
        unfold Mock.claimRewards at hc
        split at hc
        · obtain ⟨_, _, hc⟩ := bind_ok.1 hc
          cases hc; rfl
        · cases hc; rfl
      rw [this]; exact hw p m hm
    · exact hw q k hk

private theorem respond_whole {now : UInt64} {ms : Mocks} {f : Flight} (ha : Allowed ms f)
    (hw : ∀ q m, ms.get none q = some m → Whole m.deposit) : ∀ q m, (respond now ms f).2.get none q = some m → Whole m.deposit := by
  have gen : ∀ (p : Addr) (k : Mock → Res (Mock × Nat)), (∀ m m' g, ms.get none p = some m → k m = .ok (m', g) → Whole m'.deposit) →
      ∀ q m, (onMock ms p k).2.get none q = some m → Whole m.deposit := by
    intro p k hk q m hq
    unfold onMock at hq
    cases hm : ms.get none p with
    | none => simp only [hm] at hq; exact hw q m hq
    | some m0 =>
      cases hkm : k m0 with
      | error e => simp only [hm, hkm] at hq; exact hw q m hq
      | ok x =>
        obtain ⟨m', g⟩ := x
        simp only [hm, hkm] at hq
        rw [Map.get_set] at hq
        split at hq
        · next e => cases hq; exact hk m0 _ g hm hkm
        · exact hw q m hq
  cases f with
  | delegate p a =>
    refine gen p _ fun m m' g _ h => ?_
    cases h
    have ha : oneEgld ≤ a := ha
    exact .inr (show oneEgld ≤ m.deposit + a by omega)
  | whitelist p a u =>
    refine gen p _ fun m m' g _ h => ?_
    cases h
    have ha : oneEgld ≤ a := ha
    exact .inr (show oneEgld ≤ m.deposit + a by omega)
  | undelegate p a =>
    refine gen p _ fun m m' g hm h => ?_
    obtain ⟨x, hx, h⟩ := bind_ok.1 h
    cases h
    obtain ⟨_, _, rfl⟩ := unDelegate_mock.1 hx
    obtain ⟨m0, hm0, _, _, h0⟩ := ha
    rw [hm] at hm0; cases hm0
    exact h0
  | withdraw p =>
    refine gen p _ fun m m' g hm h => ?_
    have : m'.deposit = m.deposit := by
      unfold Mock.withdraw at h
      obtain ⟨_, _, h⟩ := bind_ok.1 h
      obtain ⟨_, _, h⟩ := bind_ok.1 h
      obtain ⟨_, _, h⟩ := bind_ok.1 h
      obtain ⟨_, _, h⟩ := bind_ok.1 h
      cases h; rfl
    rw [this]; exact hw p m hm
  | claim ps =>
    rcases respond_claim (now := now) (ms := ms) (ps := ps) with ⟨t, ms', h1, h'⟩ | ⟨e, _, h'⟩
    · rw [h']; exact claimMulti_deposit h1 hw
    · rw [h']; exact hw

/-- **C95**, the deposits: at all times each provider holds nothing for the contract or at least one EGLD. -/
theorem C95_whole {n : Net} {p : Addr} {m : Mock} (hr : NetReachable n) (hm : n.mocks.get none p = some m) : Whole m.deposit := by
  suffices h : ∀ q k, n.mocks.get none q = some k → Whole k.deposit from h p m hm
  clear hm
  induction hr with
  | init hi => intro q k hk; cases hk
  | @step n n' op hr ho hs ih =>
    cases op with
    | lose i => exact ho.elim
    | call op => obtain ⟨hd, w', hw, rfl⟩ := net_call.1 hs; exact ih
    | deploy r =>
      obtain ⟨hn, rfl⟩ := net_deploy.1 hs
      intro q k hk
      have hk : (n.mocks.set r (some Mock.new)).get none q = some k := hk
      rw [Map.get_set] at hk
      split at hk
      · cases hk; exact .inl rfl
      · exact ih q k hk
    | deposit r v =>
      obtain ⟨m, hn, rfl⟩ := net_deposit.1 hs
      intro q k hk
      have hk : (n.mocks.set r (some (m.depositEgld v))).get none q = some k := hk
      rw [Map.get_set] at hk
      split at hk
      · cases hk; exact ih r m hn
      · exact ih q k hk
    | serve i =>
      obtain ⟨f, he, rfl⟩ := net_serve.1 hs
      exact respond_whole (C95_allowed hr ho he) ih
    | answer i => obtain ⟨f, o, w', he, hw, rfl⟩ := net_answer.1 hs; exact ih

/-- A mock that enforces the smallest amounts as well. -/
noncomputable def Spec.strictRespond (now : UInt64) (ms : Mocks) (f : Flight) : Outcome × Mocks :=
  open Classical in if Allowed ms f then respond now ms f else (.err, ms)

/-- **C95**, the consequence: with mocks enforcing the smallest amounts the network behaves in the same way; nothing more is refused. -/
theorem C95_strict {n n' : Net} {i : Nat} (hr : NetReachable n) (ho : NetInOrder n (.serve i)) :
    netStep n (.serve i) = .ok n' ↔ ∃ f, n.msgs[i]? = some (f, none) ∧
      n' = { n with msgs := n.msgs.set i (f, some (strictRespond n.w.epoch n.mocks f).1),
                    mocks := (strictRespond n.w.epoch n.mocks f).2 } := by
  have e : ∀ f, n.msgs[i]? = some (f, none) → strictRespond n.w.epoch n.mocks f = respond n.w.epoch n.mocks f :=
    fun f hf => if_pos (C95_allowed hr ho hf)
  rw [net_serve]
  constructor
  · rintro ⟨f, hf, rfl⟩; exact ⟨f, hf, by rw [e f hf]⟩
  · rintro ⟨f, hf, rfl⟩; exact ⟨f, hf, by rw [e f hf]⟩

/-- Non-vacuity: two un-delegations of more than the recorded stake, one taking everything, one leaving 12 EGLD. -/
example : NetReachable crossingNet ∧ netInOrder crossingNet (.serve 2) = true ∧ netInOrder crossingNet (.serve 3) = true ∧
    crossingNet.msgs[2]? = some (.undelegate 21 37057326567026308461, none) ∧
    crossingNet.msgs[3]? = some (.undelegate 22 102942673432973691539, none) ∧
    figure (·.staked) crossingNet.w 21 < 37057326567026308461 ∧ figure (·.staked) crossingNet.w 22 < 102942673432973691539 ∧
    ((crossingNet.mocks.get none 21).any fun m => decide (m.deposit = 37057326567026308461)) = true ∧
    ((crossingNet.mocks.get none 22).any fun m => decide (m.deposit = 102942673432973691539 + E 12)) = true :=
  ⟨netRun_reachable (.init fresh_isInit), by decide +kernel, by decide +kernel, by decide +kernel, by decide +kernel, by decide +kernel,
    by decide +kernel, by decide +kernel, by decide +kernel⟩

/-- Delegations sent but not served, and everything asked back from the same mocks. -/
def Spec.waitingNet : Net := netRun ⟨fresh, [], []⟩ (stakedOps.take 19 ++ [
  .call (.unDelegate 11 0 [⟨500, 0, E 90⟩]), .call (.unDelegate 12 0 [⟨500, 0, E 50⟩]), .call (.unDelegatePending 1 none)])

/-- **C95**, the order: an un-delegation that overtakes the delegation before it asks for more than is there. -/
theorem C95_order_needed : ∃ (n : Net) (i : Nat) (f : Flight), NetReachable n ∧ n.msgs[i]? = some (f, none) ∧ ¬ Allowed n.mocks f := by
  refine ⟨waitingNet, 2, .undelegate 21 37057326567026308461, netRun_reachable (.init fresh_isInit), by decide +kernel, ?_⟩
  rintro ⟨m, hm, _, hle, _⟩
  have h : ((waitingNet.mocks.get none 21).any fun m => decide (m.deposit < 37057326567026308461)) = true := by decide +kernel
  rw [hm] at h
  have : m.deposit < 37057326567026308461 := of_decide_eq_true h
  omega

end LS
