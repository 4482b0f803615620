import Verif.Props.Callbacks
import Verif.Spec.Parts

/-! An accumulator that calls back while being paid: exactly what `claimFees` leaves behind (C41). -/

namespace LS
open Spec Demo

/-- The accumulator calls `claimFees` from within the payment, which pays it, upon which it calls again: `k` times in all. -/
def again : Nat → World → Res World
  | 0, w => .ok w
  | k + 1, w => claimFeesWith (again k) w w.st.accumulator

/-- The figures of the pool, the parts `StorageCache` writes back. -/
def figures : List Part := [.supply, .reserve, .fees, .withdrawable, .pending, .queue, .unbonding]

private theorem claimWith_ok {body : World → Res World} {w w' : World} {c : Addr} : claimFeesWith body w c = .ok w' ↔
    c ≠ w.self ∧ w.st.lsToken ≠ none ∧ 0 < w.st.r.fees ∧ w.st.accumulator ≠ w.self ∧ ∃ m w2,
      debit w.egld w.self w.st.r.fees = .ok m ∧
      body { w with egld := credit m w.st.accumulator w.st.r.fees } = .ok w2 ∧
      w' = { w2 with st := { w2.st with r := { w.st.r with fees := 0 } } } := by
  unfold claimFeesWith
  simp only [bind_ok, requireUser_ok, req_ok, exists_const, cacheNew_ok, sendEgld_ok, Except.ok.injEq]
  constructor
  · rintro ⟨h1, cc, ⟨t, ht, rfl⟩, h2, h3, w1, ⟨m, hm, rfl⟩, w2, h4, rfl⟩
    exact ⟨h1, by simp [ht], h2, h3, m, w2, hm, h4, rfl⟩
  · rintro ⟨h1, ht, h2, h3, m, w2, hm, h4, rfl⟩
    obtain ⟨t, ht⟩ := Option.ne_none_iff_exists'.1 ht
    exact ⟨h1, _, ⟨t, ht, rfl⟩, h2, h3, _, ⟨m, hm, rfl⟩, w2, h4, rfl⟩

/-- **C41**, exactly what happens, whatever the accumulator does: it starts from the world in which the fees were paid (and are
still recorded), and afterwards the figures of the pool are those from *before* the call, with the fees cleared; everything else
is as the accumulator left it.  So no change it causes to a figure survives. -/
theorem C41_exact_partial {body : World → Res World} {w w' : World} {c : Addr} (h : claimFeesWith body w c = .ok w') :
    ∃ w1 w2, body w1 = .ok w2 ∧
      egldOf w1 w.self + feesReserve w = egldOf w w.self ∧
      egldOf w1 w.st.accumulator = egldOf w w.st.accumulator + feesReserve w ∧
      (∀ x, x ≠ .egld w.self → x ≠ .egld w.st.accumulator → Same w w1 x) ∧
      (∀ x ∈ figures, x ≠ .fees → Same w w' x) ∧ feesReserve w' = 0 ∧
      (∀ x, x ∉ figures → Same w2 w' x) := by
  obtain ⟨_, _, _, h3, m, w2, hm, h4, rfl⟩ := claimWith_ok.1 h
  have hle := debit_le hm
  refine ⟨_, w2, h4, ?_, ?_, ?_, ?_, rfl, ?_⟩
  · show (credit m w.st.accumulator w.st.r.fees).get 0 w.self + w.st.r.fees = w.egld.get 0 w.self
    rw [get_credit, if_neg h3, get_debit hm, if_pos rfl]; exact Nat.sub_add_cancel hle
  · show (credit m w.st.accumulator w.st.r.fees).get 0 w.st.accumulator = _
    rw [get_credit, if_pos rfl, get_debit hm, if_neg (Ne.symm h3)]; rfl
  · intro x h5 h6
    cases x with
    | egld a =>
      show (credit m w.st.accumulator w.st.r.fees).get 0 a = w.egld.get 0 a
      rw [get_credit, if_neg (fun e => h6 (by rw [e])), get_debit hm, if_neg (fun e => h5 (by rw [e]))]
    | identity => exact ⟨rfl, rfl⟩
    | lsSlot => exact ⟨rfl, rfl⟩
    | unstakeSlot => exact ⟨rfl, rfl⟩
    | migrated => exact ⟨rfl, rfl⟩
    | burnt => exact ⟨rfl, rfl⟩
    | _ => rfl
  · intro x hx h7
    simp only [figures, List.mem_cons, List.not_mem_nil, or_false] at hx
    rcases hx with rfl | rfl | rfl | rfl | rfl | rfl | rfl <;> first | rfl | exact absurd rfl h7
  · intro x hx
    cases x with
    | supply | reserve | fees | withdrawable | pending | queue | unbonding => exact absurd (by decide) hx
    | identity => exact ⟨rfl, rfl⟩
    | lsSlot => exact ⟨rfl, rfl⟩
    | unstakeSlot => exact ⟨rfl, rfl⟩
    | migrated => exact ⟨rfl, rfl⟩
    | burnt => exact ⟨rfl, rfl⟩
    | _ => rfl

/-- The accumulator's `k` calls succeed exactly when the contract can pay them all. -/
private theorem again_iff {k : Nat} {w : World} (ht : w.st.lsToken ≠ none) (hf : 0 < w.st.r.fees)
    (ha : w.st.accumulator ≠ w.self) : (∃ w', again k w = .ok w') ↔ k * w.st.r.fees ≤ w.egld.get 0 w.self := by
  induction k generalizing w with
  | zero => simp [again]
  | succ k ih =>
    constructor
    · rintro ⟨w', h⟩
      obtain ⟨_, _, _, _, m, w2, hm, h4, _⟩ := claimWith_ok.1 h
      have h5 := (ih (w := { w with egld := credit m w.st.accumulator w.st.r.fees }) ht hf ha).1 ⟨w2, h4⟩
      have hle := debit_le hm
      simp only at h5
      rw [get_credit, if_neg ha, get_debit hm, if_pos rfl] at h5
      rw [Nat.succ_mul]; omega
    · intro h
      rw [Nat.succ_mul] at h
      have hm : debit w.egld w.self w.st.r.fees = .ok (w.egld.set w.self (w.egld.get 0 w.self - w.st.r.fees)) :=
        debit_ok.2 ⟨by omega, rfl⟩
      obtain ⟨w2, h2⟩ := (ih (w := { w with
        egld := credit (w.egld.set w.self (w.egld.get 0 w.self - w.st.r.fees)) w.st.accumulator w.st.r.fees }) ht hf ha).2 (by
          simp only
          rw [get_credit, if_neg ha, get_debit hm, if_pos rfl]; omega)
      exact ⟨_, claimWith_ok.2 ⟨ha, ht, hf, ha, _, w2, hm, h2, rfl⟩⟩

private theorem again_egld {k : Nat} {w w' : World} (ha : w.st.accumulator ≠ w.self) (h : again k w = .ok w') :
    w'.self = w.self ∧ w'.egld.get 0 w.self + k * w.st.r.fees = w.egld.get 0 w.self ∧
    w'.egld.get 0 w.st.accumulator = w.egld.get 0 w.st.accumulator + k * w.st.r.fees ∧
    (0 < k → w'.st = { w.st with r := { w.st.r with fees := 0 } }) ∧ (k = 0 → w'.st = w.st) := by
  induction k generalizing w w' with
  | zero => cases h; simp
  | succ k ih =>
    obtain ⟨_, _, _, _, m, w2, hm, h4, rfl⟩ := claimWith_ok.1 h
    obtain ⟨i1, i2, i3, i4, i5⟩ := ih (w := { w with egld := credit m w.st.accumulator w.st.r.fees }) ha h4
    have hle := debit_le hm
    simp only at i1 i2 i3
    rw [get_credit, if_neg ha, get_debit hm, if_pos rfl] at i2
    rw [get_credit, if_pos rfl, get_debit hm, if_neg (Ne.symm ha)] at i3
    refine ⟨i1, ?_, ?_, fun _ => ?_, fun h => by omega⟩
    · rw [Nat.succ_mul]; show w2.egld.get 0 w.self + _ = _; omega
    · rw [Nat.succ_mul]; show w2.egld.get 0 w.st.accumulator = _; omega
    · show { w2.st with r := { w.st.r with fees := 0 } } = _
      cases k with
      | zero => rw [i5 rfl]
      | succ k => rw [i4 (Nat.succ_pos _)]

/-- **C41**, how far it goes: in every state with fees to pay, the fees can be taken any number of times, exactly as often as the
EGLD held by the contract lasts, whoever it belongs to; and the storage afterwards is that after a single honest payment. -/
theorem C41_drain {w : World} {c : Addr} (k : Nat) (hc : c ≠ w.self) (ht : w.st.lsToken ≠ none) (hf : 0 < feesReserve w)
    (ha : w.st.accumulator ≠ w.self) :
    ((∃ w', claimFeesWith (again k) w c = .ok w') ↔ (k + 1) * feesReserve w ≤ egldOf w w.self) ∧
    ∀ w', claimFeesWith (again k) w c = .ok w' →
      egldOf w' w.self + (k + 1) * feesReserve w = egldOf w w.self ∧
      egldOf w' w.st.accumulator = egldOf w w.st.accumulator + (k + 1) * feesReserve w ∧
      w'.st = { w.st with r := { w.st.r with fees := 0 } } := by
  have key : ∀ w', claimFeesWith (again k) w c = .ok w' ↔ again (k + 1) w = .ok w' := by
    intro w'
    show _ ↔ claimFeesWith (again k) w w.st.accumulator = .ok w'
    rw [claimWith_ok, claimWith_ok]
    simp only [ne_eq, hc, not_false_eq_true, true_and, ha]
  constructor
  · exact (exists_congr key).trans (again_iff ht hf ha)
  · intro w' h
    obtain ⟨_, h2, h3, h4, _⟩ := again_egld ha ((key w').1 h)
    exact ⟨h2, h3, h4 (Nat.succ_pos k)⟩

/-- `settled` with a deposit of 5 EGLD waiting: the fees can be taken as often as that lasts, leaving the deposit unbacked. -/
example : let w := run settled [.delegate 11 (E 5)]
    Reachable w ∧ 13 ≠ w.self ∧ w.st.lsToken ≠ none ∧ 0 < feesReserve w ∧ w.st.accumulator ≠ w.self ∧
    egldOf w w.self / feesReserve w = 18 :=
  ⟨reachable_run settled_reachable _, by decide +kernel, by decide +kernel, by decide +kernel, by decide +kernel, by decide +kernel⟩

/-- **C41**, deposits made by anybody while the accumulator is being paid: the depositor gets LS tokens and the contract the EGLD,
but neither the supply nor the reserve nor any other figure knows of them. -/
theorem C41_deposit_lost {w w' : World} {c u : Addr} {v : Nat} (hu : u ≠ w.st.accumulator)
    (h : claimFeesWith (fun w1 => step w1 (.delegate u v)) w c = .ok w') :
    lsOf w' u = lsOf w u + lsFor (supply w) (reserve w) v ∧ egldOf w' u + v = egldOf w u ∧
    egldOf w' w.self + feesReserve w = egldOf w w.self + v ∧ 0 < v ∧ 0 < lsFor (supply w) (reserve w) v ∧
    supply w' = supply w ∧ reserve w' = reserve w ∧ pendingEgld w' = pendingEgld w ∧ toUndelegate w' = toUndelegate w ∧
    (∀ x, x ≠ u → lsOf w' x = lsOf w x) := by
  obtain ⟨_, _, _, h3, m, w2, hm, h4, rfl⟩ := claimWith_ok.1 h
  obtain ⟨d1, d2, _, _, d5, _, d7, _⟩ := C01_delegate_mints_pro_rata h4
  obtain ⟨hc, hv, _, _, _, _, _, l, _, _, _, _, _, hq, _⟩ := delegate_ok.1 h4
  obtain ⟨hl, hl'⟩ := lsQuote_iff.1 hq
  have hle := debit_le hm
  simp only at hc
  have e1 : egldOf { w with egld := credit m w.st.accumulator w.st.r.fees } u = egldOf w u := by
    show (credit m w.st.accumulator w.st.r.fees).get 0 u = _
    rw [get_credit, if_neg (Ne.symm hu), get_debit hm, if_neg (Ne.symm hc)]; rfl
  have e2 : egldOf { w with egld := credit m w.st.accumulator w.st.r.fees } w.self + w.st.r.fees = egldOf w w.self := by
    show (credit m w.st.accumulator w.st.r.fees).get 0 w.self + w.st.r.fees = _
    rw [get_credit, if_neg h3, get_debit hm, if_pos rfl]; exact Nat.sub_add_cancel hle
  refine ⟨d2, ?_, ?_, hv, ?_, rfl, rfl, rfl, rfl, d7⟩
  · rw [← e1]; exact d1
  · have d5' : egldOf w2 w.self = egldOf { w with egld := credit m w.st.accumulator w.st.r.fees } w.self + v := d5
    show egldOf w2 w.self + w.st.r.fees = egldOf w w.self + v
    omega
  · have : l = lsFor (supply w) (reserve w) v := hl'
    omega

/-- **C41**, and from then on the books are wrong: the tokens in existence exceed the supply, which `C05_supply_is_total`
excludes for every history in which the accumulator does not call back. -/
theorem C41_unbacked {w w' : World} {c u : Addr} {v : Nat} (hr : Reachable w) (hu : u ≠ w.st.accumulator)
    (h : claimFeesWith (fun w1 => step w1 (.delegate u v)) w c = .ok w') :
    ∃ t, IsSum (lsOf w') t ∧ t + w'.burntLs = supply w' + lsFor (supply w) (reserve w) v ∧
      0 < lsFor (supply w) (reserve w) v ∧ ¬ Reachable w' := by
  obtain ⟨h1, _, _, _, h5, h6, _, _, _, h7⟩ := C41_deposit_lost hu h
  have hb : w'.burntLs = w.burntLs := by
    obtain ⟨_, _, _, _, m, w2, _, h4, rfl⟩ := claimWith_ok.1 h
    obtain ⟨_, _, _, _, _, _, _, _, _, _, _, _, _, _, rfl⟩ := delegate_ok.1 h4
    rfl
  obtain ⟨t, h8, h9⟩ := C05_supply_is_total hr
  have h10 : IsSum (lsOf w') (t + lsFor (supply w) (reserve w) v) := by
    have := h8.add (isSum_single u (lsFor (supply w) (reserve w) v))
    have e : lsOf w' = fun x => lsOf w x + if u = x then lsFor (supply w) (reserve w) v else 0 := by
      funext x
      by_cases hx : u = x
      · subst hx; rw [if_pos rfl, h1]
      · rw [if_neg hx, h7 x (Ne.symm hx)]; rfl
    rw [e]; exact this
  refine ⟨_, h10, by omega, h5, fun hr' => ?_⟩
  obtain ⟨t', k1, k2⟩ := C05_supply_is_total hr'
  have := k1.unique h10
  omega

example : ∃ w', claimFeesWith (fun w1 => step w1 (.delegate 11 (E 5))) settled 13 = .ok w' ∧ Reachable settled ∧
    11 ≠ settled.st.accumulator := by
  have : (claimFeesWith (fun w1 => step w1 (.delegate 11 (E 5))) settled 13).toBool = true := by decide +kernel
  cases h : claimFeesWith (fun w1 => step w1 (.delegate 11 (E 5))) settled 13 with
  | ok w' => exact ⟨w', rfl, settled_reachable, by decide +kernel⟩
  | error e => rw [h] at this; cases this

end LS
