import Verif.Model.Accum
import Verif.Props.Callbacks

/-! C122: the call that hands the fees to the accumulator. -/

namespace LS
open Spec Demo Layout Abi Wire Accum

/-- The call an accumulator is asked to accept: `deposit`, spelled out, without arguments and tokens, with `a` EGLD from `c`. -/
def Spec.depositCall (c : Addr) (a : Nat) : Call := ⟨c, [100, 101, 112, 111, 115, 105, 116], [], a, [], true⟩

/-! ### Proofs -/

private theorem feeCall_eq (w : World) : feeCall w = depositCall w.self w.st.r.fees := by
  unfold feeCall depositCall
  rw [show ascii "deposit".toList = [100, 101, 112, 111, 115, 105, 116] by decide +kernel]

private theorem no_deposit : (Fn.all.find? fun f => f.name = ([100, 101, 112, 111, 115, 105, 116] : Bytes)) = none := by decide +kernel

private theorem accum_ok {site : Addr → Resident} {w w' : World} {c : Addr} : Accum.claimFeesAt site w c = .ok w' ↔
    c ≠ w.self ∧ w.st.lsToken ≠ none ∧ 0 < w.st.r.fees ∧ ∃ m, debit w.egld w.self w.st.r.fees = .ok m ∧
      ((if w.st.accumulator = w.self then .staking { w with egld := credit m w.st.accumulator w.st.r.fees } else
        site w.st.accumulator : Resident).accepts w.epoch (feeCall w)) = true ∧
      w' = { w with egld := credit m w.st.accumulator w.st.r.fees, st := { w.st with r := { w.st.r with fees := 0 } } } := by
  unfold Accum.claimFeesAt
  simp only [bind_ok, requireUser_ok, req_ok, exists_const, cacheNew_ok, sendEgld_ok, Except.ok.injEq]
  constructor
  · rintro ⟨h1, cc, ⟨t, ht, rfl⟩, h2, w1, ⟨m, hm, rfl⟩, h3, rfl⟩
    refine ⟨h1, by simp [ht], h2, m, hm, h3, ?_⟩
    unfold commit
    simp [ht]
  · rintro ⟨h1, ht, h2, m, hm, h3, rfl⟩
    obtain ⟨t, ht⟩ := Option.ne_none_iff_exists'.1 ht
    refine ⟨h1, _, ⟨t, ht, rfl⟩, h2, _, ⟨m, hm, rfl⟩, h3, ?_⟩
    unfold commit
    simp [ht]

/-! ### C122 -/

/-- **C122**, the interface: none of the contracts of the repository accepts the call, whatever its state, whoever sends it and however
much comes with it; nor does an account without code. -/
theorem C122_no_taker (now : UInt64) (c : Addr) (a : Nat) (r : Resident) (h : r.accepts now (depositCall c a) = true) :
    ∃ f, r = .other f ∧ f (depositCall c a) = true := by
  cases r with
  | account => cases h
  | staking v =>
    have : Abi.call v (depositCall c a) = .error (.refused .noFunction) := by
      unfold Abi.call parse depositCall
      rw [no_deposit]
    simp [Resident.accepts, this, Except.isOk, Except.toBool] at h
  | provider m =>
    have : mockCall now m [100, 101, 112, 111, 115, 105, 116] [] a = none := by
      unfold mockCall
      rw [if_neg (by decide +kernel), if_neg (by decide +kernel), if_neg (by decide +kernel), if_neg (by decide +kernel)]
    simp [Resident.accepts, depositCall, this] at h
  | manager ms =>
    have : managerCall now ms [100, 101, 112, 111, 115, 105, 116] [] a = none := by
      unfold managerCall
      rw [if_neg (by decide +kernel)]
    simp [Resident.accepts, depositCall, this] at h
  | other f => exact ⟨f, rfl, h⟩

/-- **C122**, refinement: the endpoint as modelled, with the answer of the accumulator taken as given, does what the endpoint does when
the answer is that of what is found at the address; the contract's own address included. -/
theorem C122_agrees {site : Addr → Resident} {w w' : World} {c : Addr} : Accum.claimFeesAt site w c = .ok w' ↔
    step w (.claimFees c ((site w.st.accumulator).accepts w.epoch (depositCall w.self (feesReserve w)))) = .ok w' := by
  have e : feeCall w = depositCall w.self (feesReserve w) := feeCall_eq w
  rw [accum_ok, e]
  constructor
  · rintro ⟨h1, ht, h2, m, hm, h3, rfl⟩
    by_cases ha : w.st.accumulator = w.self
    · rw [if_pos ha] at h3
      obtain ⟨f, hf, _⟩ := C122_no_taker _ _ _ _ h3
      cases hf
    · rw [if_neg ha] at h3
      rw [h3]
      obtain ⟨t, ht⟩ := Option.ne_none_iff_exists'.1 ht
      show claimFees w c true = _
      unfold claimFees claimFeesWith
      simp only [bind_ok, requireUser_ok, req_ok, exists_const, cacheNew_ok, sendEgld_ok, Except.ok.injEq]
      refine ⟨h1, _, ⟨t, ht, rfl⟩, h2, ha, _, ⟨m, hm, rfl⟩, _, if_pos trivial, ?_⟩
      unfold commit
      simp [ht]
  · intro h
    obtain ⟨h1, h2, ha, hk, ht, m, hm, rfl⟩ := claimFees_ok h
    exact ⟨h1, ht, h2, m, hm, by rw [if_neg ha]; exact hk, rfl⟩

/-- **C122.** With honest reports of rewards, the fees are paid exactly if there are some, the caller is not the contract, and at the
accumulator's address, not the contract's own, is a contract foreign to the repository that accepts `deposit` with all the fees; the
accumulator gets them in full. -/
theorem C122_paid_iff {site : Addr → Resident} {w : World} {c : Addr} (hr : ReachableBy HonestManager w) :
    (∃ w', Accum.claimFeesAt site w c = .ok w' ∧ feesReserve w' = 0 ∧
      egldOf w' w.st.accumulator = egldOf w w.st.accumulator + feesReserve w) ↔
    c ≠ w.self ∧ 0 < feesReserve w ∧ w.st.accumulator ≠ w.self ∧
      ∃ f, site w.st.accumulator = .other f ∧ f (depositCall w.self (feesReserve w)) = true := by
  constructor
  · rintro ⟨w', h, _, _⟩
    obtain ⟨h1, h2, ha, hk, _⟩ := claimFees_ok (C122_agrees.1 h)
    exact ⟨h1, h2, ha, C122_no_taker _ _ _ _ hk⟩
  · rintro ⟨h1, h2, ha, f, hf, hk⟩
    obtain ⟨w', hs⟩ := C24_claimFees_succeeds hr h1 h2 ha
    have hx := C24_claimFees_exact hs
    refine ⟨w', C122_agrees.2 ?_, ?_, hx.2.2.1⟩
    · rw [hf]; simp only [Resident.accepts, hk]; exact hs
    · rw [hx.2.2.2.2.2]; rfl

/-- **C122**, no loss: fees that cannot be paid wait.  In every such state the owner can name another accumulator, which loses nothing, and
if a contract that accepts them is found there, anybody can have the same fees paid to it. -/
theorem C122_redirect {site : Addr → Resident} {w : World} {c a : Addr} {f : Call → Bool} (hr : ReachableBy HonestManager w)
    (ho : w.owner ≠ w.self) (hc : c ≠ w.self) (h0 : 0 < feesReserve w) (ha : a ≠ w.self) (hf : site a = .other f)
    (hk : f (depositCall w.self (feesReserve w)) = true) :
    ∃ w1 w2, step w (.owner w.owner (.accumulator a)) = .ok w1 ∧ feesReserve w1 = feesReserve w ∧
      Accum.claimFeesAt site w1 c = .ok w2 ∧ egldOf w2 a = egldOf w a + feesReserve w ∧ feesReserve w2 = 0 := by
  have h1 : step w (.owner w.owner (.accumulator a)) = .ok { w with st := { w.st with accumulator := a } } := by
    show ownerCmd w w.owner (.accumulator a) = _
    simp [ownerCmd, requireUser, requireOwner, req, applyOwnerCmd, ho, bind, Except.bind]
  have hr1 : ReachableBy HonestManager { w with st := { w.st with accumulator := a } } := by
    obtain ⟨w0, hi, ht⟩ := hr
    exact ⟨w0, hi, .snoc _ ht h1 trivial⟩
  obtain ⟨w2, h2, h3, h4⟩ := (C122_paid_iff (site := site) (c := c) hr1).2 ⟨hc, h0, ha, f, hf, hk⟩
  exact ⟨_, w2, h1, rfl, h2, h4, h3⟩

/-- A network in which the accumulator 2 accepts deposits of up to 1000 EGLD, account 3 is another pool, and provider 22 a provider. -/
def around : Addr → Resident
  | 2 => .other fun c => c.fn = ascii "deposit".toList && c.args.isEmpty && c.egld ≤ E 1000
  | 3 => .staking (run fresh busy)
  | 22 => .provider Mock.new
  | _ => .account

/-- Non-vacuity of `C122_paid_iff`: fees that the accumulator takes. -/
example : let w := run fresh busy
    ReachableBy HonestManager w ∧ 13 ≠ w.self ∧ 0 < feesReserve w ∧ w.st.accumulator ≠ w.self ∧
    (around w.st.accumulator).accepts w.epoch (depositCall w.self (feesReserve w)) = true ∧
    (Accum.claimFeesAt around w 13).isOk = true :=
  ⟨reachableBy_honest (by decide +kernel), by decide +kernel, by decide +kernel, by decide +kernel, by decide +kernel, by decide +kernel⟩

/-- Non-vacuity of `C122_redirect`: the fees of a contract whose accumulator is another pool, a provider, itself, or an account cannot be
paid; once the accumulator is 2, they are. -/
example : ∀ a ∈ [3, 22, 1000, 99], let w := run fresh (busy ++ [.owner 1 (.accumulator a)])
    w.owner ≠ w.self ∧ 0 < feesReserve w ∧ (Accum.claimFeesAt around w 13).isOk = false ∧
    (Accum.claimFeesAt around (exec w (.owner 1 (.accumulator 2))) 13).isOk = true := by decide +kernel

example (a : Addr) : ReachableBy HonestManager (run fresh (busy ++ [.owner 1 (.accumulator a)])) :=
  reachableBy_honest (by simp [busy, honestOps])

end LS
