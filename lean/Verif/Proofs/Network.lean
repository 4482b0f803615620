import Verif.Proofs.Egld
import Verif.Proofs.NftLemmas
import Verif.Props.System
import Verif.Props.Solvent

/-! The network of contract and mocks refines the contract with providers of `Model/Providers.lean`. -/

namespace LS
open Spec

/-- What the mock at `p` holds. -/
def mbooks (ms : Mocks) (p : Addr) : Books :=
  match ms.get none p with
  | some m => ⟨m.deposit, m.undAmount⟩
  | none => ⟨0, 0⟩

theorem mbooks_set (ms : Mocks) (p : Addr) (m : Mock) (q : Addr) :
    mbooks (ms.set p (some m)) q = if p = q then ⟨m.deposit, m.undAmount⟩ else mbooks ms q := by
  unfold mbooks
  rw [Map.get_set]
  by_cases h : p = q
  · rw [if_pos h, if_pos h]
  · rw [if_neg h, if_neg h]

theorem rewards_eq (m : Mock) (now : UInt64) : m.rewards now = rewardDue m now := by
  unfold Mock.rewards rewardDue MAX_PERCENTAGE APY EPOCHS_IN_YEAR
  have h1 : m.deposit * 10000 / 100000 = m.deposit * 10 / 100 := by omega
  rw [h1]
  split
  · rfl
  · next h =>
    have : now.toNat - m.lastClaim.toNat = 0 := by
      have := UInt64.lt_iff_toNat_lt.not.1 h
      omega
    rw [this, Nat.mul_zero, Nat.zero_div]

theorem claimRewards_mock {m m' : Mock} {now : UInt64} {r : Nat} (h : m.claimRewards now = .ok (m', r)) :
    r = rewardDue m now ∧ r ≤ m.egld ∧ m' = { m with lastClaim := if 0 < r then now else m.lastClaim, egld := m.egld - r } := by
  unfold Mock.claimRewards at h
  rw [rewards_eq] at h
  split at h
  · next h0 =>
    obtain ⟨_, hq, h⟩ := bind_ok.1 h
    have hq := req_ok.1 hq
    cases h
    exact ⟨rfl, hq, by rw [if_pos h0]⟩
  · next h0 =>
    cases h
    exact ⟨by omega, Nat.zero_le _, by simp⟩

theorem claimRewards_mock_iff {m : Mock} {now : UInt64} : (∃ x, m.claimRewards now = .ok x) ↔ rewardDue m now ≤ m.egld := by
  constructor
  · rintro ⟨⟨m', r⟩, h⟩
    obtain ⟨rfl, h, _⟩ := claimRewards_mock h
    exact h
  · intro h
    unfold Mock.claimRewards
    rw [rewards_eq]
    split
    · rw [show req (rewardDue m now ≤ m.egld) .insufficientFunds = .ok () from by simp [req, h]]
      exact ⟨_, rfl⟩
    · exact ⟨_, rfl⟩

theorem unDelegate_mock {m m' : Mock} {now : UInt64} {a : Nat} : m.unDelegate now a = .ok m' ↔
    0 < a ∧ a ≤ m.deposit ∧ m' = { m with
      deposit := m.deposit - a, undAmount := m.undAmount + a, undEpoch := now + UNBOND_PERIOD } := by
  unfold Mock.unDelegate
  simp only [bind_ok, req_ok, exists_const, Except.ok.injEq, and_assoc, eq_comm (a := m')]

theorem withdraw_mock {m m' : Mock} {now : UInt64} {g : Nat} : m.withdraw now = .ok (m', g) ↔
    0 < m.undAmount ∧ 0 < m.undEpoch ∧ m.undEpoch ≤ now ∧ m.undAmount ≤ m.supply ∧ m.undAmount ≤ m.egld ∧ g = m.undAmount ∧
    m' = { m with supply := m.supply - m.undAmount, undEpoch := 0, undAmount := 0, egld := m.egld - m.undAmount } := by
  unfold Mock.withdraw
  simp only [bind_ok, req_ok, exists_const, csub_ok, Except.ok.injEq, Prod.mk.injEq]
  constructor
  · rintro ⟨h1, ⟨h2, h3⟩, s, ⟨h4, rfl⟩, h5, rfl, rfl⟩
    exact ⟨h1, h2, h3, h4, h5, rfl, rfl⟩
  · rintro ⟨h1, h2, h3, h4, h5, rfl, rfl⟩
    exact ⟨h1, ⟨h2, h3⟩, _, ⟨h4, rfl⟩, h5, rfl, rfl⟩

/-- What one step of `claimMulti` does. -/
theorem claimMulti_cons {now : UInt64} {p : Addr} {ps : List Addr} {ms ms' : Mocks} {t : Nat} :
    claimMulti now (p :: ps) ms = .ok (ms', t) ↔ ∃ m m' r t', ms.get none p = some m ∧ m.claimRewards now = .ok (m', r) ∧
      claimMulti now ps (ms.set p (some m')) = .ok (ms', t') ∧ t = r + t' := by
  rw [claimMulti]
  cases hm : ms.get none p with
  | none => simp
  | some m =>
    simp only [bind_ok, Prod.exists, Except.ok.injEq, Prod.mk.injEq, Option.some.injEq]
    constructor
    · rintro ⟨m', r, h, ms1, t', h', rfl, rfl⟩
      exact ⟨m, m', r, t', rfl, h, h', rfl⟩
    · rintro ⟨_, m', r, t', rfl, h, h', rfl⟩
      exact ⟨m', r, h, ms', t', h', rfl, rfl⟩

theorem claimMulti_books {now : UInt64} : ∀ {ps : List Addr} {ms ms' : Mocks} {t : Nat}, claimMulti now ps ms = .ok (ms', t) →
    ∀ q, mbooks ms' q = mbooks ms q
  | [], ms, ms', t, h, q => by cases h; rfl
  | p :: ps, ms, ms', t, h, q => by
    obtain ⟨m, m', r, t', hm, hc, h, _⟩ := claimMulti_cons.1 h
    rw [claimMulti_books h q, mbooks_set]
    split
    · next e =>
      subst e
      obtain ⟨_, _, rfl⟩ := claimRewards_mock hc
      unfold mbooks; rw [hm]
    · rfl

/-- The answer of a mock is one that `Model/Providers.lean` allows. -/
theorem respond_books {now : UInt64} {ms : Mocks} {f : Flight} {p : Addr} (ht : target f = some p) :
    ∃ b, serveOne (mbooks ms p) f (respond now ms f).1 = .ok b ∧
      ∀ q, mbooks (respond now ms f).2 q = if p = q then b else mbooks ms q := by
  have gen : ∀ (f : Flight) (k : Mock → Res (Mock × Nat)),
      (∀ m m' g, ms.get none p = some m → k m = .ok (m', g) → serveOne (mbooks ms p) f (.ok g 0) = .ok ⟨m'.deposit, m'.undAmount⟩) →
      ∃ b, serveOne (mbooks ms p) f (onMock ms p k).1 = .ok b ∧
        ∀ q, mbooks (onMock ms p k).2 q = if p = q then b else mbooks ms q := by
    intro f k hk
    have herr : serveOne (mbooks ms p) f .err = .ok (mbooks ms p) := by cases f <;> rfl
    have hsame : ∀ q, mbooks ms q = if p = q then mbooks ms p else mbooks ms q := by
      intro q; split
      · next e => rw [e]
      · rfl
    unfold onMock
    cases hm : ms.get none p with
    | none => exact ⟨_, herr, hsame⟩
    | some m =>
      cases hkm : k m with
      | error e => simp only; rw [hkm]; exact ⟨_, herr, hsame⟩
      | ok x =>
        obtain ⟨m', g⟩ := x
        simp only; rw [hkm]
        exact ⟨_, hk m m' g hm hkm, fun q => mbooks_set ms p m' q⟩
  have hb : ∀ m, ms.get none p = some m → mbooks ms p = ⟨m.deposit, m.undAmount⟩ := by
    intro m hm; unfold mbooks; rw [hm]
  cases f with
  | claim ps => cases ht
  | delegate q a =>
    cases ht
    refine gen _ _ fun m m' g hm h => ?_
    cases h; rw [hb m hm]; rfl
  | whitelist q a u =>
    cases ht
    refine gen _ _ fun m m' g hm h => ?_
    cases h; rw [hb m hm]; rfl
  | undelegate q a =>
    cases ht
    refine gen _ _ fun m m' g hm h => ?_
    obtain ⟨m1, h1, h⟩ := bind_ok.1 h
    obtain ⟨h0, hle, rfl⟩ := unDelegate_mock.1 h1
    cases h; rw [hb m hm]
    show (csub m.deposit a).bind _ = _
    rw [csub, if_pos hle]; rfl
  | withdraw q =>
    cases ht
    refine gen _ _ fun m m' g hm h => ?_
    obtain ⟨_, _, _, _, _, rfl, rfl⟩ := withdraw_mock.1 h
    rw [hb m hm]
    show (csub m.undAmount m.undAmount).bind _ = _
    rw [csub, if_pos (Nat.le_refl _), Nat.sub_self]; rfl

theorem respond_claim {now : UInt64} {ms : Mocks} {ps : List Addr} :
    (∃ t ms', claimMulti now ps ms = .ok (ms', t) ∧ respond now ms (.claim ps) = (.ok t t, ms')) ∨
    (∃ e, claimMulti now ps ms = .error e ∧ respond now ms (.claim ps) = (.err, ms)) := by
  cases h : claimMulti now ps ms with
  | ok x => exact .inl ⟨x.2, x.1, rfl, by rw [respond, h]⟩
  | error e => exact .inr ⟨e, rfl, by rw [respond, h]⟩

/-! ### Steps of the network -/

theorem net_call {n n' : Net} {op : Op} : netStep n (.call op) = .ok n' ↔ isDeliver op = false ∧ ∃ w', step n.w op = .ok w' ∧
    n' = { n with w := w', msgs := n.msgs ++ (w'.flights.drop n.w.flights.length).map (·, none) } := by
  show (if isDeliver op then _ else _) = _ ↔ _
  cases hd : isDeliver op with
  | true => simp
  | false => simp only [Bool.false_eq_true, if_false, bind_ok, Except.ok.injEq, true_and, eq_comm (a := n')]

theorem net_deploy {n n' : Net} {p : Addr} : netStep n (.deploy p) = .ok n' ↔ n.mocks.get none p = none ∧
    n' = { n with mocks := n.mocks.set p (some Mock.new) } := by
  unfold netStep
  cases hm : n.mocks.get none p with
  | none => simp [hm, eq_comm (a := n')]
  | some m => simp [hm]

theorem net_deposit {n n' : Net} {p : Addr} {v : Nat} : netStep n (.deposit p v) = .ok n' ↔ ∃ m, n.mocks.get none p = some m ∧
    n' = { n with mocks := n.mocks.set p (some (m.depositEgld v)) } := by
  unfold netStep
  cases hm : n.mocks.get none p with
  | none => simp [hm]
  | some m => simp [hm, eq_comm (a := n')]

theorem net_serve {n n' : Net} {i : Nat} : netStep n (.serve i) = .ok n' ↔ ∃ f, n.msgs[i]? = some (f, none) ∧
    n' = { n with
      msgs := n.msgs.set i (f, some (respond n.w.epoch n.mocks f).1), mocks := (respond n.w.epoch n.mocks f).2 } := by
  unfold netStep
  cases hm : n.msgs[i]? with
  | none => simp [hm]
  | some e =>
    obtain ⟨f, a⟩ := e
    cases a with
    | none => simp [hm, eq_comm (a := n')]
    | some o => simp [hm]

theorem net_answer {n n' : Net} {i : Nat} : netStep n (.answer i) = .ok n' ↔ ∃ f o w', n.msgs[i]? = some (f, some o) ∧
    step n.w (.deliver i o) = .ok w' ∧ n' = { n with w := w', msgs := n.msgs.eraseIdx i } := by
  unfold netStep
  cases hm : n.msgs[i]? with
  | none => simp [hm]
  | some e =>
    obtain ⟨f, a⟩ := e
    cases a with
    | none => simp [hm]
    | some o => simp [hm, bind_ok, eq_comm (a := n')]

theorem net_lose {n n' : Net} {i : Nat} : netStep n (.lose i) = .ok n' ↔ ∃ f o w', n.msgs[i]? = some (f, some o) ∧
    step n.w (.starve i o) = .ok w' ∧ n' = { n with w := w', msgs := n.msgs.eraseIdx i } := by
  unfold netStep
  cases hm : n.msgs[i]? with
  | none => simp [hm]
  | some e =>
    obtain ⟨f, a⟩ := e
    cases a with
    | none => simp [hm]
    | some o => simp [hm, bind_ok, eq_comm (a := n')]

/-- Every reachable network is a reachable system, with the mocks' figures as books; in order if the network is (`ord`). -/
theorem net_refines_by {P : Net → NetOp → Prop} {ord : Prop} (hP : ∀ n op, P n op → ord → NetInOrder n op) {n : Net} (h : NetReach P n) :
    ∃ B, SysReachable (fun s op => (ord → InOrder s op) ∧ TrueClaims s op) ⟨n.w, n.msgs, B⟩ ∧
      ∀ p, booksOf ⟨n.w, n.msgs, B⟩ p = mbooks n.mocks p := by
  induction h with
  | init hi => exact ⟨[], .init hi, fun p => rfl⟩
  | @step n n' op hr ho hs ih =>
    obtain ⟨B, hB, hb⟩ := ih
    cases op with
    | call op =>
      obtain ⟨hd, w', hw, rfl⟩ := net_call.1 hs
      refine ⟨B, .step (.call op) hB ⟨fun _ => trivial, fun _ _ _ _ h => by cases h⟩ ?_, hb⟩
      show sysCall _ op = _
      unfold sysCall
      rw [hd]
      show (step n.w op).bind _ = _
      rw [hw]; rfl
    | deploy p =>
      obtain ⟨hm, rfl⟩ := net_deploy.1 hs
      refine ⟨B, hB, fun q => ?_⟩
      show _ = mbooks (n.mocks.set p _) q
      rw [mbooks_set]
      refine (hb q).trans ?_
      split
      · next e => subst e; unfold mbooks; rw [hm]; rfl
      · rfl
    | deposit p v =>
      obtain ⟨m, hm, rfl⟩ := net_deposit.1 hs
      refine ⟨B, hB, fun q => ?_⟩
      show _ = mbooks (n.mocks.set p _) q
      rw [mbooks_set]
      refine (hb q).trans ?_
      split
      · next e => subst e; unfold mbooks; rw [hm]; rfl
      · rfl
    | serve i =>
      obtain ⟨f, he, rfl⟩ := net_serve.1 hs
      have ho' : ∀ o, ord → InOrder ⟨n.w, n.msgs, B⟩ (.serve i o) := fun o hd => hP n _ ho hd
      cases ht : target f with
      | some p =>
        obtain ⟨b, h1, h2⟩ := respond_books (now := n.w.epoch) (ms := n.mocks) ht
        refine ⟨B.set p b, .step (.serve i (respond n.w.epoch n.mocks f).1) hB ⟨ho' _, ?_⟩ ?_, fun q => ?_⟩
        · intro i' g r ps h1 h2
          have : i = i' := by injection h1
          subst this
          have h2 : n.msgs[i]? = _ := h2
          rw [he] at h2; cases h2; cases ht
        · show serve _ _ _ = _
          unfold serve
          simp only [he, ht]
          show (serveOne (booksOf ⟨n.w, n.msgs, B⟩ p) f _).bind _ = _
          rw [hb p, h1]; rfl
        · show (B.set p b).get _ q = mbooks (respond n.w.epoch n.mocks f).2 q
          rw [Map.get_set, h2 q]
          split
          · rfl
          · exact hb q
      | none =>
        cases f with
        | claim ps =>
          refine ⟨B, .step (.serve i (respond n.w.epoch n.mocks (.claim ps)).1) hB ⟨ho' _, ?_⟩ ?_, fun q => ?_⟩
          · intro i' g r ps' h1 h2
            rcases respond_claim (now := n.w.epoch) (ms := n.mocks) (ps := ps) with ⟨t, ms', _, h⟩ | ⟨e, _, h⟩
            · rw [h] at h1; cases h1; exact Nat.le_refl _
            · rw [h] at h1; cases h1
          · show serve _ _ _ = _
            unfold serve
            simp only [he, ht]
          · show _ = mbooks (respond n.w.epoch n.mocks (.claim ps)).2 q
            rcases respond_claim (now := n.w.epoch) (ms := n.mocks) (ps := ps) with ⟨t, ms', h, h'⟩ | ⟨e, _, h⟩
            · rw [h']; exact (hb q).trans (claimMulti_books h q).symm
            · rw [h]; exact hb q
        | _ => cases ht
    | answer i =>
      obtain ⟨f, o, w', he, hw, rfl⟩ := net_answer.1 hs
      refine ⟨B, .step (.answer i) hB ⟨fun hd => hP n _ ho hd, fun _ _ _ _ h => by cases h⟩ ?_, hb⟩
      show answer _ _ = _
      unfold answer
      simp only [he]
      show (step n.w (.deliver i o)).bind _ = _
      rw [hw]; rfl
    | lose i =>
      obtain ⟨f, o, w', he, hw, rfl⟩ := net_lose.1 hs
      refine ⟨B, .step (.lose i) hB ⟨fun hd => hP n _ ho hd, fun _ _ _ _ h => by cases h⟩ ?_, hb⟩
      show lose _ _ = _
      unfold lose
      simp only [he]
      show (step n.w (.starve i o)).bind _ = _
      rw [hw]; rfl

theorem net_refines {n : Net} (h : NetReachable n) :
    ∃ B, SysReachable HonestSys ⟨n.w, n.msgs, B⟩ ∧ ∀ p, booksOf ⟨n.w, n.msgs, B⟩ p = mbooks n.mocks p := by
  obtain ⟨B, hB, hb⟩ := net_refines_by (ord := True) (fun _ _ h _ => h) h
  exact ⟨B, sysReachable_mono (fun _ _ h => ⟨h.1 trivial, h.2⟩) hB, hb⟩

/-- In any order and with lost callbacks. -/
theorem any_refines {n : Net} (h : AnyNet n) :
    ∃ B, SysReachable TrueClaims ⟨n.w, n.msgs, B⟩ ∧ ∀ p, booksOf ⟨n.w, n.msgs, B⟩ p = mbooks n.mocks p := by
  obtain ⟨B, hB, hb⟩ := net_refines_by (ord := False) (fun _ _ _ h => h.elim) h
  exact ⟨B, sysReachable_mono (fun _ _ h => h.2) hB, hb⟩

theorem any_of_net {n : Net} (h : NetReachable n) : AnyNet n := by
  induction h with
  | init hi => exact .init hi
  | step op _ _ hs ih => exact .step op ih trivial hs

theorem any_inv {n : Net} (h : AnyNet n) : Reachable n.w ∧ n.msgs.map Prod.fst = n.w.flights := by
  obtain ⟨B, hB, _⟩ := any_refines h
  exact ⟨(solvInv hB).reach, (solvInv hB).msgs⟩

theorem net_inv {n : Net} (h : NetReachable n) : Reachable n.w ∧ n.msgs.map Prod.fst = n.w.flights := any_inv (any_of_net h)

/-! ### EGLD -/

/-- The balance of the mock at `p`. -/
def mbal (ms : Mocks) (p : Addr) : Nat :=
  match ms.get none p with
  | some m => m.egld
  | none => 0

theorem mbal_set (ms : Mocks) (p : Addr) (m : Mock) (q : Addr) :
    mbal (ms.set p (some m)) q = if p = q then m.egld else mbal ms q := by
  unfold mbal
  rw [Map.get_set]
  by_cases h : p = q
  · rw [if_pos h, if_pos h]
  · rw [if_neg h, if_neg h]

theorem isSum_mbal (ms : Mocks) : ∃ t, IsSum (mbal ms) t := by
  refine ⟨_, ms.keys, fun a ha => ?_, rfl⟩
  unfold mbal
  rw [Map.get_of_notMem _ _ a ha]

theorem isSum_at {α : Type} [DecidableEq α] {f g : α → Nat} {s t : Nat} (p : α) (hf : IsSum f s) (hg : IsSum g t)
    (h : ∀ q, p ≠ q → g q = f q) : t + f p = s + g p := by
  have h1 := hg.add (isSum_single p (f p))
  have h2 := hf.add (isSum_single p (g p))
  refine h1.unique (h2.congr fun q => ?_)
  by_cases hq : p = q
  · subst hq; simp only [if_true]; omega
  · rw [if_neg hq, if_neg hq, h q hq]

theorem mbal_step {ms : Mocks} {p : Addr} {m m' : Mock} {s t : Nat} (hm : ms.get none p = some m) (hs : IsSum (mbal ms) s)
    (ht : IsSum (mbal (ms.set p (some m'))) t) : t + m.egld = s + m'.egld := by
  have := isSum_at p hs ht fun q hq => by rw [mbal_set, if_neg hq]
  rw [mbal_set, if_pos rfl] at this
  have e : mbal ms p = m.egld := by unfold mbal; rw [hm]
  omega

theorem claimMulti_egld {now : UInt64} : ∀ {ps : List Addr} {ms ms' : Mocks} {t a b : Nat}, claimMulti now ps ms = .ok (ms', t) →
    IsSum (mbal ms) a → IsSum (mbal ms') b → b + t = a
  | [], ms, ms', t, a, b, h, ha, hb => by cases h; exact hb.unique ha
  | p :: ps, ms, ms', t, a, b, h, ha, hb => by
    obtain ⟨m, m', r, t', hm, hc, h, rfl⟩ := claimMulti_cons.1 h
    obtain ⟨_, hle, rfl⟩ := claimRewards_mock hc
    obtain ⟨x, hx⟩ := isSum_mbal (ms.set p (some { m with lastClaim := if 0 < r then now else m.lastClaim, egld := m.egld - r }))
    have h1 := claimMulti_egld h hx hb
    have h2 := mbal_step hm ha hx
    have h2 : x + m.egld = a + (m.egld - r) := h2
    omega

/-- Serving moves EGLD between a mock and the way. -/
theorem respond_egld {now : UInt64} {ms : Mocks} {f : Flight} {a b : Nat} (ha : IsSum (mbal ms) a)
    (hb : IsSum (mbal (respond now ms f).2) b) :
    b + onTheWay (f, some (respond now ms f).1) = a + onTheWay (f, none) := by
  have gen : ∀ (f : Flight) (p : Addr) (k : Mock → Res (Mock × Nat)) (b : Nat), onTheWay (f, some .err) = onTheWay (f, none) →
      (∀ m m' g, k m = .ok (m', g) → m'.egld + onTheWay (f, some (.ok g 0)) = m.egld + onTheWay (f, none)) →
      IsSum (mbal (onMock ms p k).2) b → b + onTheWay (f, some (onMock ms p k).1) = a + onTheWay (f, none) := by
    intro f p k b herr hk hb
    unfold onMock at hb ⊢
    cases hm : ms.get none p with
    | none => rw [hm] at hb; simp only at hb ⊢; rw [herr, hb.unique ha]
    | some m =>
      cases hkm : k m with
      | error e => simp only [hm, hkm] at hb ⊢; rw [herr, hb.unique ha]
      | ok x =>
        obtain ⟨m', g⟩ := x
        simp only [hm, hkm] at hb ⊢
        have h1 := mbal_step hm ha hb
        have h2 := hk m m' g hkm
        omega
  cases f with
  | delegate p v => exact gen _ p _ b rfl (fun m m' g h => by cases h; rfl) hb
  | whitelist p v u => exact gen _ p _ b rfl (fun m m' g h => by cases h; rfl) hb
  | undelegate p v =>
    refine gen _ p _ b rfl (fun m m' g h => ?_) hb
    obtain ⟨m1, h1, h⟩ := bind_ok.1 h
    obtain ⟨_, _, rfl⟩ := unDelegate_mock.1 h1
    cases h; rfl
  | withdraw p =>
    refine gen _ p _ b rfl (fun m m' g h => ?_) hb
    obtain ⟨_, _, _, _, h5, rfl, rfl⟩ := withdraw_mock.1 h
    show m.egld - m.undAmount + m.undAmount = m.egld + 0
    omega
  | claim ps =>
    rcases respond_claim (now := now) (ms := ms) (ps := ps) with ⟨t, ms', h, h'⟩ | ⟨e, _, h⟩
    · rw [h'] at hb ⊢
      have := claimMulti_egld h ha hb
      show b + t = a + 0
      omega
    · rw [h] at hb ⊢
      show b + 0 = a + 0
      rw [hb.unique ha]

theorem allOnTheWay_append : ∀ {l l' : List (Flight × Option Outcome)}, allOnTheWay (l ++ l') = allOnTheWay l + allOnTheWay l'
  | [], l' => by simp [allOnTheWay]
  | x :: l, l' => by
    show onTheWay x + allOnTheWay (l ++ l') = onTheWay x + allOnTheWay l + allOnTheWay l'
    rw [allOnTheWay_append]; omega

theorem allOnTheWay_eraseIdx : ∀ {l : List (Flight × Option Outcome)} {i : Nat} {x : Flight × Option Outcome}, l[i]? = some x →
    allOnTheWay (l.eraseIdx i) + onTheWay x = allOnTheWay l
  | [], i, x, h => by simp at h
  | y :: l, 0, x, h => by
    have : y = x := by simpa using h
    subst this
    show allOnTheWay l + onTheWay y = onTheWay y + allOnTheWay l
    omega
  | y :: l, i + 1, x, h => by
    have h' : l[i]? = some x := by simpa using h
    have := allOnTheWay_eraseIdx h'
    show onTheWay y + allOnTheWay (l.eraseIdx i) + onTheWay x = onTheWay y + allOnTheWay l
    omega

theorem allOnTheWay_set : ∀ {l : List (Flight × Option Outcome)} {i : Nat} {x y : Flight × Option Outcome}, l[i]? = some x →
    allOnTheWay (l.set i y) + onTheWay x = allOnTheWay l + onTheWay y
  | [], i, x, _, h => by simp at h
  | z :: l, 0, x, y, h => by
    have : z = x := by simpa using h
    subst this
    show onTheWay y + allOnTheWay l + onTheWay z = onTheWay z + allOnTheWay l + onTheWay y
    omega
  | z :: l, i + 1, x, y, h => by
    have h' : l[i]? = some x := by simpa using h
    have := allOnTheWay_set (y := y) h'
    show onTheWay z + allOnTheWay (l.set i y) + onTheWay x = onTheWay z + allOnTheWay l + onTheWay y
    omega

theorem allOnTheWay_sent : ∀ l : List Flight, allOnTheWay (l.map (·, none)) = fsum carried l
  | [] => rfl
  | f :: l => by
    rw [List.map_cons, fsum_cons, ← allOnTheWay_sent l]
    show onTheWay (f, none) + _ = _
    cases f <;> rfl

theorem onTheWay_answered (f : Flight) (o : Outcome) : onTheWay (f, some o) = attached f o := by
  cases o <;> cases f <;> rfl

/-- All EGLD of the network but that of the mocks. -/
def outside (n : Net) : Nat := tot n.w.egld + allOnTheWay n.msgs + costs n.w.issues

theorem net_egld {n n' : Net} {op : NetOp} {a b : Nat} (hr : AnyNet n) (hs : netStep n op = .ok n') (ha : IsSum (mbal n.mocks) a)
    (hb : IsSum (mbal n'.mocks) b) : outside n' + b + netOut n op = outside n + a + netIn op := by
  obtain ⟨hreach, hmsgs⟩ := any_inv hr
  have hreg := reachable_regInv hreach
  cases op with
  | call op =>
    obtain ⟨hd, w', hw, rfl⟩ := net_call.1 hs
    obtain ⟨_, _, l, hl⟩ := call_frame hreach hd hw
    have h1 := egld_step op hreg hw
    have h2 : b = a := hb.unique ha
    have hdrop : w'.flights.drop n.w.flights.length = l := by rw [hl]; exact List.drop_left
    have hio : entering n.w op = netIn (.call op) ∧ leaving n.w op = netOut n (.call op) := by
      cases op with
      | deliver i o => cases hd
      | starve i o => cases hd
      | issued i o => cases o <;> exact ⟨rfl, rfl⟩
      | _ => exact ⟨rfl, rfl⟩
    unfold inside at h1
    rw [hl, fsum_append] at h1
    unfold outside
    show tot w'.egld + allOnTheWay (n.msgs ++ (w'.flights.drop n.w.flights.length).map (·, none)) + costs w'.issues + b + _ = _
    rw [hdrop, allOnTheWay_append, allOnTheWay_sent, ← hio.1, ← hio.2]
    omega
  | deploy p =>
    obtain ⟨hm, rfl⟩ := net_deploy.1 hs
    have := isSum_at p ha hb fun q hq => by show mbal (n.mocks.set p _) q = _; rw [mbal_set, if_neg hq]
    have e1 : mbal n.mocks p = 0 := by unfold mbal; rw [hm]
    have e2 : mbal (n.mocks.set p (some Mock.new)) p = 0 := by rw [mbal_set, if_pos rfl]; rfl
    have this : b + mbal n.mocks p = a + mbal (n.mocks.set p (some Mock.new)) p := this
    show outside n + b + 0 = outside n + a + 0
    omega
  | deposit p v =>
    obtain ⟨m, hm, rfl⟩ := net_deposit.1 hs
    have := mbal_step hm ha hb
    have this : b + m.egld = a + (m.egld + v) := this
    show outside n + b + 0 = outside n + a + v
    omega
  | serve i =>
    obtain ⟨f, he, rfl⟩ := net_serve.1 hs
    have h1 := respond_egld ha hb
    have h2 := allOnTheWay_set (y := (f, some (respond n.w.epoch n.mocks f).1)) he
    show tot n.w.egld + allOnTheWay (n.msgs.set i _) + costs n.w.issues + b + 0 = tot n.w.egld + allOnTheWay n.msgs + costs n.w.issues + a + 0
    omega
  | answer i =>
    obtain ⟨f, o, w', he, hw, rfl⟩ := net_answer.1 hs
    have h1 := egld_step (.deliver i o) hreg hw
    have h2 := allOnTheWay_eraseIdx he
    have h3 : b = a := hb.unique ha
    have hf : n.w.flights[i]? = some f := by rw [← hmsgs, List.getElem?_map, he]; rfl
    have h4 := fsum_eraseIdx carried hf
    have h5 := attached_balance (o := o) hf
    rw [onTheWay_answered] at h2
    have h6 : w'.flights = n.w.flights.eraseIdx i := by
      obtain ⟨f', hf', hcb⟩ := deliver_ok hw
      rcases hcb with hcb | ⟨_, rfl⟩
      · exact (runCallback_flights hcb).1
      · rfl
    unfold inside at h1
    rw [h6] at h1
    show tot w'.egld + allOnTheWay (n.msgs.eraseIdx i) + costs w'.issues + b + 0 = tot n.w.egld + allOnTheWay n.msgs + costs n.w.issues + a + 0
    omega
  | lose i =>
    obtain ⟨f, o, w', he, hw, rfl⟩ := net_lose.1 hs
    have h1 := egld_step (.starve i o) hreg hw
    have h2 := allOnTheWay_eraseIdx he
    have h3 : b = a := hb.unique ha
    have hf : n.w.flights[i]? = some f := by rw [← hmsgs, List.getElem?_map, he]; rfl
    have h4 := fsum_eraseIdx carried hf
    have h5 := attached_balance (o := o) hf
    rw [onTheWay_answered] at h2
    have h6 : w'.flights = n.w.flights.eraseIdx i := by
      obtain ⟨_, _, rfl⟩ := starve_ok hw
      rfl
    have e1 : leaving n.w (.starve i o) = leaving n.w (.deliver i o) := by cases o <;> rfl
    have e2 : entering n.w (.starve i o) = entering n.w (.deliver i o) := by cases o <;> rfl
    rw [e1, e2] at h1
    unfold inside at h1
    rw [h6] at h1
    show tot w'.egld + allOnTheWay (n.msgs.eraseIdx i) + costs w'.issues + b + 0 = tot n.w.egld + allOnTheWay n.msgs + costs n.w.issues + a + 0
    omega

/-! ### Rewards -/

/-- The rewards due at some mocks. -/
def dues (now : UInt64) (ms : Mocks) : List Addr → Nat
  | [] => 0
  | p :: ps => (match ms.get none p with | some m => rewardDue m now | none => 0) + dues now ms ps

theorem dues_congr {now : UInt64} {ms ms' : Mocks} : ∀ {ps : List Addr}, (∀ p ∈ ps, ms'.get none p = ms.get none p) →
    dues now ms' ps = dues now ms ps
  | [], _ => rfl
  | p :: ps, h => by
    rw [dues, dues, h p (List.mem_cons_self ..), dues_congr fun q hq => h q (List.mem_cons_of_mem _ hq)]

/-- A mock after its rewards were claimed. -/
def claimed (m : Mock) (now : UInt64) : Mock :=
  { m with lastClaim := if 0 < rewardDue m now then now else m.lastClaim, egld := m.egld - rewardDue m now }

theorem claimed_due (m : Mock) (now : UInt64) : rewardDue (claimed m now) now = 0 := by
  by_cases h : 0 < rewardDue m now
  · unfold claimed
    rw [if_pos h]
    unfold rewardDue
    show m.deposit * 10 / 100 * (now.toNat - now.toNat) / 365 = 0
    rw [Nat.sub_self, Nat.mul_zero, Nat.zero_div]
  · have e : rewardDue (claimed m now) now = rewardDue m now := by
      unfold claimed; rw [if_neg h]; rfl
    omega

theorem claimMulti_exact {now : UInt64} : ∀ {ps : List Addr} {ms ms' : Mocks} {t : Nat}, ps.Nodup → claimMulti now ps ms = .ok (ms', t) →
    t = dues now ms ps ∧ (∀ p ∈ ps, ∃ m, ms.get none p = some m ∧ rewardDue m now ≤ m.egld ∧ ms'.get none p = some (claimed m now)) ∧
      ∀ p, p ∉ ps → ms'.get none p = ms.get none p
  | [], ms, ms', t, _, h => by cases h; exact ⟨rfl, fun p hp => absurd hp (by simp), fun _ _ => rfl⟩
  | p :: ps, ms, ms', t, hnd, h => by
    obtain ⟨m, m', r, t', hm, hc, h, rfl⟩ := claimMulti_cons.1 h
    obtain ⟨hp, hnd⟩ := List.nodup_cons.1 hnd
    obtain ⟨rfl, hle, rfl⟩ := claimRewards_mock hc
    obtain ⟨h1, h2, h3⟩ := claimMulti_exact hnd h
    have hne : ∀ q ∈ ps, p ≠ q := fun q hq e => hp (e ▸ hq)
    refine ⟨?_, fun q hq => ?_, fun q hq => ?_⟩
    · rw [h1, dues, hm]
      congr 1
      exact dues_congr fun q hq => by rw [Map.get_set, if_neg (hne q hq)]
    · rcases List.mem_cons.1 hq with rfl | hq
      · refine ⟨m, hm, hle, ?_⟩
        rw [h3 q hp, Map.get_set, if_pos rfl]; rfl
      · obtain ⟨m1, e1, e2, e3⟩ := h2 q hq
        rw [Map.get_set, if_neg (hne q hq)] at e1
        exact ⟨m1, e1, e2, e3⟩
    · rw [h3 q fun h => hq (List.mem_cons_of_mem _ h), Map.get_set, if_neg (fun e : p = q => hq (e ▸ List.mem_cons_self ..))]

theorem claimMulti_possible {now : UInt64} : ∀ {ps : List Addr} {ms : Mocks}, ps.Nodup →
    (∀ p ∈ ps, ∃ m, ms.get none p = some m ∧ rewardDue m now ≤ m.egld) → ∃ x, claimMulti now ps ms = .ok x
  | [], ms, _, _ => ⟨_, rfl⟩
  | p :: ps, ms, hnd, h => by
    obtain ⟨hp, hnd⟩ := List.nodup_cons.1 hnd
    obtain ⟨m, hm, hle⟩ := h p (List.mem_cons_self ..)
    obtain ⟨⟨m', r⟩, hc⟩ := claimRewards_mock_iff.2 hle
    have hne : ∀ q ∈ ps, p ≠ q := fun q hq e => hp (e ▸ hq)
    obtain ⟨⟨ms', t⟩, h'⟩ := claimMulti_possible (ms := ms.set p (some m')) hnd fun q hq => by
      rw [Map.get_set, if_neg (hne q hq)]
      exact h q (List.mem_cons_of_mem _ hq)
    exact ⟨(ms', r + t), claimMulti_cons.2 ⟨m, m', r, t, hm, hc, h', rfl⟩⟩

/-- A claim is for providers that are all different. -/
theorem claims_nodup {w : World} (h : Reachable w) : ∀ ps, .claim ps ∈ w.flights → ps.Nodup := by
  induction h with
  | init h =>
    obtain ⟨self, owner, contracts, epoch, funds, acc, fees, rpe, mr, ms, ma, ub, _, _, rfl⟩ := isInit_eq h
    intro ps h; simp at h
  | @step w w' op hr hs ih =>
    have hreg := reachable_regInv hr
    have hst := fstep hreg hs
    intro ps hps
    generalize w'.flights = fl at hst hps
    generalize w'.dead = dd at hst
    cases hst with
    | same => exact ih ps hps
    | delegated c o sels hop h1 =>
      rcases List.mem_append.1 hps with h | h
      · exact ih ps h
      · obtain ⟨_, _, h⟩ := List.mem_map.1 h; cases h
    | undelegated c o sels hop h1 =>
      rcases List.mem_append.1 hps with h | h
      · exact ih ps h
      · obtain ⟨_, _, h⟩ := List.mem_map.1 h; cases h
    | withdrawn c p hop =>
      rcases List.mem_append.1 hps with h | h
      · exact ih ps h
      · simp at h
    | claimed c hop =>
      rcases List.mem_append.1 hps with h | h
      · exact ih ps h
      · have : ps = w.st.delegList := by simpa using h
        rw [this]
        exact RegOk.nd1 hreg
    | whitelisted c v p ad ts cap n apy hop h1 h2 =>
      rcases List.mem_append.1 hps with h | h
      · exact ih ps h
      · simp at h
    | settled i o f w'' hop hf hcb => exact ih ps (List.mem_of_mem_eraseIdx hps)
    | died i o f e hop hf hcb => exact ih ps (List.mem_of_mem_eraseIdx hps)
    | starved i o f hop hf => exact ih ps (List.mem_of_mem_eraseIdx hps)

/-! ### An invariant of the mocks -/

/-- What a mock says it has covers what it owes, and what is unbonding there was asked for no later than now. -/
structure MockOk (now : UInt64) (m : Mock) : Prop where
  supply : m.deposit + m.undAmount ≤ m.supply
  since : 0 < m.undAmount → ∃ e : UInt64, e ≤ now ∧ m.undEpoch = e + UNBOND_PERIOD

theorem MockOk.later {now now' : UInt64} {m : Mock} (h : MockOk now m) (hn : now ≤ now') : MockOk now' m :=
  ⟨h.supply, fun h0 => by obtain ⟨e, h1, h2⟩ := h.since h0; exact ⟨e, UInt64.le_trans h1 hn, h2⟩⟩

def MocksOk (now : UInt64) (ms : Mocks) : Prop := ∀ p m, ms.get none p = some m → MockOk now m

theorem MocksOk.set {now : UInt64} {ms : Mocks} {p : Addr} {m : Mock} (h : MocksOk now ms) (hm : MockOk now m) :
    MocksOk now (ms.set p (some m)) := by
  intro q m' hq
  rw [Map.get_set] at hq
  split at hq
  · cases hq; exact hm
  · exact h q m' hq

theorem claimMulti_ok {now : UInt64} : ∀ {ps : List Addr} {ms ms' : Mocks} {t : Nat}, claimMulti now ps ms = .ok (ms', t) →
    MocksOk now ms → MocksOk now ms'
  | [], ms, ms', t, h, ho => by cases h; exact ho
  | p :: ps, ms, ms', t, h, ho => by
    obtain ⟨m, m', r, t', hm, hc, h, _⟩ := claimMulti_cons.1 h
    obtain ⟨_, _, rfl⟩ := claimRewards_mock hc
    have hm := ho p m hm
    exact claimMulti_ok h (ho.set ⟨hm.supply, hm.since⟩)

theorem respond_ok {now : UInt64} {ms : Mocks} {f : Flight} (h : MocksOk now ms) : MocksOk now (respond now ms f).2 := by
  have gen : ∀ (p : Addr) (k : Mock → Res (Mock × Nat)), (∀ m m' g, MockOk now m → k m = .ok (m', g) → MockOk now m') →
      MocksOk now (onMock ms p k).2 := by
    intro p k hk
    unfold onMock
    cases hm : ms.get none p with
    | none => exact h
    | some m =>
      cases hkm : k m with
      | error e => simp only [hkm]; exact h
      | ok x => simp only [hkm]; exact h.set (hk m x.1 x.2 (h p m hm) hkm)
  cases f with
  | delegate p v =>
    refine gen p _ fun m m' g ho hk => ?_
    cases hk
    exact ⟨by have := ho.supply; show m.deposit + v + m.undAmount ≤ m.supply + v; omega, ho.since⟩
  | whitelist p v u =>
    refine gen p _ fun m m' g ho hk => ?_
    cases hk
    exact ⟨by have := ho.supply; show m.deposit + v + m.undAmount ≤ m.supply + v; omega, ho.since⟩
  | undelegate p v =>
    refine gen p _ fun m m' g ho hk => ?_
    obtain ⟨m1, h1, hk⟩ := bind_ok.1 hk
    obtain ⟨_, hle, rfl⟩ := unDelegate_mock.1 h1
    cases hk
    exact ⟨by have := ho.supply; show m.deposit - v + (m.undAmount + v) ≤ m.supply; omega, fun _ => ⟨now, by simp, rfl⟩⟩
  | withdraw p =>
    refine gen p _ fun m m' g ho hk => ?_
    obtain ⟨_, _, _, h4, _, rfl, rfl⟩ := withdraw_mock.1 hk
    exact ⟨by have := ho.supply; show m.deposit + 0 ≤ m.supply - m.undAmount; omega, fun h => absurd h (Nat.lt_irrefl _)⟩
  | claim ps =>
    rcases respond_claim (now := now) (ms := ms) (ps := ps) with ⟨t, ms', h1, h'⟩ | ⟨e, _, h'⟩
    · rw [h']; exact claimMulti_ok h1 h
    · rw [h']; exact h

theorem any_mocks {n : Net} (h : AnyNet n) : MocksOk n.w.epoch n.mocks := by
  induction h with
  | init hi => intro p m hm; cases hm
  | @step n n' op hr ho hs ih =>
    have hreach := (any_inv hr).1
    have hep : ∀ {op w'}, step n.w op = .ok w' → n.w.epoch ≤ w'.epoch := fun h =>
      (nftInv_step _ (reachable_nftInv hreach) (reachable_regInv hreach) h).2.2.1
    cases op with
    | call op =>
      obtain ⟨hd, w', hw, rfl⟩ := net_call.1 hs
      exact fun p m hm => (ih p m hm).later (hep hw)
    | deploy p =>
      obtain ⟨hm, rfl⟩ := net_deploy.1 hs
      exact ih.set ⟨Nat.le_refl _, fun h => absurd h (Nat.lt_irrefl _)⟩
    | deposit p v =>
      obtain ⟨m, hm, rfl⟩ := net_deposit.1 hs
      have := ih p m hm
      exact ih.set ⟨by have := this.supply; show m.deposit + m.undAmount ≤ m.supply + v; omega, this.since⟩
    | serve i =>
      obtain ⟨f, he, rfl⟩ := net_serve.1 hs
      exact respond_ok ih
    | answer i =>
      obtain ⟨f, o, w', he, hw, rfl⟩ := net_answer.1 hs
      exact fun p m hm => (ih p m hm).later (hep hw)
    | lose i =>
      obtain ⟨f, o, w', he, hw, rfl⟩ := net_lose.1 hs
      exact fun p m hm => (ih p m hm).later (hep hw)

theorem net_mocks {n : Net} (h : NetReachable n) : MocksOk n.w.epoch n.mocks := any_mocks (any_of_net h)

/-! ### Collecting -/

theorem Spec.NetTrace.trans {P : Net → NetOp → Prop} {a b c : Net} (h : NetTrace P a b) (h' : NetTrace P b c) : NetTrace P a c := by
  induction h' with
  | nil => exact h
  | snoc op _ hp hs ih => exact .snoc op ih hp hs

theorem Spec.NetTrace.reachable {P : Net → NetOp → Prop} (hP : ∀ n op, P n op → NetInOrder n op) {a b : Net} (h : NetTrace P a b)
    (ha : NetReachable a) : NetReachable b := by
  induction h with
  | nil => exact ha
  | snoc op _ hp hs ih => exact .step op ih (hP _ _ hp) hs

/-- What is unbonding at the mocks is there and matured. -/
def Ready (now : UInt64) (ms : Mocks) : Prop :=
  ∀ p m, ms.get none p = some m → m.undAmount ≤ m.egld ∧ (0 < m.undAmount → 0 < m.undEpoch ∧ m.undEpoch ≤ now)

theorem net_collect_one {n : Net} {m p : Addr} {e : UInt64} (hr : NetReachable n) (hm0 : n.msgs = []) (hm : m ≠ n.w.self)
    (hmg : isManager n.w m = true) (ha : n.w.st.state = .active) (ht : n.w.st.lsToken ≠ none) (hp : p ∈ n.w.st.delegList)
    (hrd : Ready n.w.epoch n.mocks) :
    ∃ n', NetTrace (Winding m e) n n' ∧ n'.msgs = [] ∧ Coll n.w n'.w ∧ figure (·.unstaked) n'.w p = 0 ∧ Ready n'.w.epoch n'.mocks := by
  obtain ⟨B, hB, hb⟩ := net_refines hr
  have hr1 := sysReachable_mono (Q := InOrder) (fun _ _ h => h.1) hB
  have hinv := sysInv hr1
  have hreg : RegOk n.w.st.lsToken n.w.st.unstakeToken n.w.st.delegList n.w.st.undelegList n.w.st.data n.w.flights n.w.dead :=
    reachable_regInv hinv.reach
  have hf0 : n.w.flights = [] := by rw [← (net_inv hr).2, hm0]; rfl
  obtain ⟨t, ht⟩ := Option.ne_none_iff_exists'.1 ht
  obtain ⟨d, hd⟩ := Option.ne_none_iff_exists'.1 (hreg.recd p hp)
  have hbk := (C38_records_match hr1 hp (by show ∀ e ∈ n.msgs, _; rw [hm0]; intro e he; cases he)).2
  have hfd : figure (·.unstaked) n.w p = d.unstaked := by unfold figure provider; rw [hd]
  have hbk : figure (·.unstaked) n.w p = (booksOf ⟨n.w, n.msgs, B⟩ p).unbonding := hbk
  rw [hfd, hb p] at hbk
  have htot := (C44_unbonding_total hinv.reach).le p
  have htot : figure (·.unstaked) n.w p ≤ n.w.st.r.toUnbond := htot
  rw [hfd] at htot
  by_cases h0 : d.unstaked = 0
  · exact ⟨n, .nil, hm0, ⟨rfl, rfl, rfl, rfl, rfl, rfl, rfl, rfl, rfl, rfl, rfl, rfl, fun _ => Nat.le_refl _⟩, by rw [hfd, h0], hrd⟩
  obtain ⟨mk, hmk⟩ : ∃ mk, n.mocks.get none p = some mk := by
    cases h : n.mocks.get none p with
    | some mk => exact ⟨mk, rfl⟩
    | none =>
      unfold mbooks at hbk; rw [h] at hbk
      exact absurd hbk h0
  have hu : mk.undAmount = d.unstaked := by
    unfold mbooks at hbk; rw [hmk] at hbk; exact hbk.symm
  obtain ⟨r1, r2⟩ := hrd p mk hmk
  obtain ⟨r2, r3⟩ := r2 (by omega)
  have hsup := (net_mocks hr p mk hmk).supply
  obtain ⟨E, hE⟩ : ∃ E, debit n.w.egld n.w.self 0 = .ok E := ⟨_, by unfold debit; rw [if_pos (Nat.zero_le _)]⟩
  have h1 : netStep n (.call (.withdrawPending m p)) =
      .ok { n with w := { n.w with egld := E, flights := [.withdraw p] }, msgs := [(.withdraw p, none)] } := by
    refine net_call.2 ⟨rfl, { n.w with egld := E, flights := [.withdraw p] }, ?_, ?_⟩
    · show withdrawPending n.w m p = _
      unfold withdrawPending
      simp only [bind_ok, requireUser_ok, requireActive_ok, requireManager_ok, req_ok, exists_const, cacheNew_ok,
        registerPromise_ok, Except.ok.injEq]
      exact ⟨hm, _, ⟨t, ht, rfl⟩, hmg, ha, by rw [hd]; simp, _, ⟨E, hE, rfl⟩, by simp [hf0, commit]⟩
    · rw [hm0, hf0]; rfl
  have hresp : respond n.w.epoch n.mocks (.withdraw p) = (.ok d.unstaked 0, n.mocks.set p (some { mk with
      supply := mk.supply - mk.undAmount, undEpoch := 0, undAmount := 0, egld := mk.egld - mk.undAmount })) := by
    show onMock n.mocks p (fun m => m.withdraw n.w.epoch) = _
    unfold onMock
    have : mk.withdraw n.w.epoch = .ok _ := withdraw_mock.2 ⟨by omega, r2, r3, by omega, r1, rfl, rfl⟩
    simp only [hmk, this]
    rw [hu]
  have h2 : netStep { n with w := { n.w with egld := E, flights := [.withdraw p] }, msgs := [(.withdraw p, none)] } (.serve 0) =
      .ok { w := { n.w with egld := E, flights := [.withdraw p] }, msgs := [(.withdraw p, some (.ok d.unstaked 0))],
            mocks := n.mocks.set p (some { mk with
              supply := mk.supply - mk.undAmount, undEpoch := 0, undAmount := 0, egld := mk.egld - mk.undAmount }) } := by
    refine net_serve.2 ⟨.withdraw p, rfl, ?_⟩
    show _ = Net.mk _ [(.withdraw p, some (respond n.w.epoch n.mocks (.withdraw p)).1)] (respond n.w.epoch n.mocks (.withdraw p)).2
    rw [hresp]
  obtain ⟨w', hw', hc, hz⟩ := collect_world (E := E) ht hd htot
  have h3 : netStep
      { w := { n.w with egld := E, flights := [.withdraw p] }, msgs := [(.withdraw p, some (.ok d.unstaked 0))],
        mocks := n.mocks.set p (some { mk with
          supply := mk.supply - mk.undAmount, undEpoch := 0, undAmount := 0, egld := mk.egld - mk.undAmount }) } (.answer 0) =
      .ok { w := w', msgs := [], mocks := n.mocks.set p (some { mk with
          supply := mk.supply - mk.undAmount, undEpoch := 0, undAmount := 0, egld := mk.egld - mk.undAmount }) } :=
    net_answer.2 ⟨.withdraw p, _, w', rfl, hw', rfl⟩
  refine ⟨_, .snoc _ (.snoc _ (.snoc _ .nil ?_ h1) ?_ h2) ?_ h3, rfl, hc, hz, ?_⟩
  · exact ⟨trivial, .inr ⟨p, rfl⟩⟩
  · exact ⟨fun j hj => absurd hj (Nat.not_lt_zero _), trivial⟩
  · exact ⟨fun j hj => absurd hj (Nat.not_lt_zero _), trivial⟩
  · intro q m' hq
    show _ ∧ (_ → _ ∧ _ ≤ w'.epoch)
    rw [hc.epoch]
    have hq : (n.mocks.set p _).get none q = some m' := hq
    rw [Map.get_set] at hq
    split at hq
    · cases hq
      exact ⟨Nat.zero_le _, fun h => absurd h (Nat.lt_irrefl _)⟩
    · exact hrd q m' hq

theorem net_collect_all {m : Addr} {e : UInt64} : ∀ {l : List Addr} {n : Net}, NetReachable n → n.msgs = [] → m ≠ n.w.self →
    isManager n.w m = true → n.w.st.state = .active → n.w.st.lsToken ≠ none → (∀ p ∈ l, p ∈ n.w.st.delegList) →
    Ready n.w.epoch n.mocks →
    ∃ n', NetTrace (Winding m e) n n' ∧ n'.msgs = [] ∧ Coll n.w n'.w ∧ ∀ p ∈ l, figure (·.unstaked) n'.w p = 0
  | [], n, _, h0, _, _, _, _, _, _ =>
    ⟨n, .nil, h0, ⟨rfl, rfl, rfl, rfl, rfl, rfl, rfl, rfl, rfl, rfl, rfl, rfl, fun _ => Nat.le_refl _⟩, fun _ h => by cases h⟩
  | p :: l, n, hr, h0, hm, hmg, ha, ht, hl, hrd => by
    obtain ⟨n1, ht1, hm1, hc1, hz1, hrd1⟩ := net_collect_one (e := e) hr h0 hm hmg ha ht (hl p (List.mem_cons_self ..)) hrd
    obtain ⟨n2, ht2, hm2, hc2, hz2⟩ := net_collect_all (l := l) (ht1.reachable (fun _ _ h => h.1) hr) hm1 (by rw [hc1.self]; exact hm)
      (by unfold isManager at hmg ⊢; rw [hc1.mgr, hc1.owner]; exact hmg) (by rw [hc1.state]; exact ha) (by rw [hc1.ls]; exact ht)
      (fun q hq => by rw [hc1.dl]; exact hl q (List.mem_cons_of_mem _ hq)) hrd1
    refine ⟨n2, ht1.trans ht2, hm2, hc1.trans hc2, fun q hq => ?_⟩
    rcases List.mem_cons.1 hq with rfl | hq
    · have := hc2.fig q
      omega
    · exact hz2 q hq

end LS
