import Verif.Proofs.Invert
import Verif.Proofs.SelectionLemmas

/-! The sending loops of `delegatePending` and `unDelegatePending`. -/

namespace LS

/-- Sum of a figure over all provider records. -/
def dataSum (f : ProviderData → Nat) (m : Map Addr (Option ProviderData)) : Nat :=
  m.sum none (fun _ o => match o with | some d => f d | none => 0)

theorem dataSum_set (f : ProviderData → Nat) (m : Map Addr (Option ProviderData)) (a : Addr) (o : Option ProviderData) :
    dataSum f (m.set a o) + ((m.get none a).elim 0 f) = dataSum f m + (o.elim 0 f) := by
  have := Map.sum_set (fun _ o => match o with | some d => f d | none => 0) none m a o (fun _ => rfl)
  unfold dataSum
  cases h1 : m.get none a <;> cases o <;> simp_all

theorem dataSum_update (f : ProviderData → Nat) {m : Map Addr (Option ProviderData)} {a : Addr} {d d' : ProviderData}
    (h : m.get none a = some d) : dataSum f (m.set a (some d')) + f d = dataSum f m + f d' := by
  have := dataSum_set f m a (some d')
  simpa [h] using this

theorem le_dataSum (f : ProviderData → Nat) {m : Map Addr (Option ProviderData)} {a : Addr} {d : ProviderData}
    (h : m.get none a = some d) : f d ≤ dataSum f m := by
  have := Map.le_sum (fun _ o => match o with | some d => f d | none => 0) none m a (fun _ => rfl)
  simpa [h, dataSum] using this

theorem dataSum_nil (f : ProviderData → Nat) : dataSum f [] = 0 := Map.sum_nil _ _

/-- Total a batch gives to provider `a`. -/
def selAt (a : Addr) : List Selection → Nat
  | [] => 0
  | s :: ss => (if s.address = a then s.amount else 0) + selAt a ss

theorem selAt_eq_zero {a : Addr} {l : List Selection} (h : a ∉ l.map Selection.address) : selAt a l = 0 := by
  induction l with
  | nil => rfl
  | cons s l ih =>
    simp only [List.map_cons, List.mem_cons, not_or] at h
    simp [selAt, ih h.2, Ne.symm h.1]

theorem delegateLoop_ok : ∀ {sels : List Selection} {w w' : World}, delegateLoop sels w = .ok w' →
    ∃ E D, w' = { w with
        st := { w.st with delegList := sels.foldl (fun l s => moveToBack l s.address) w.st.delegList, data := D },
        egld := E, flights := w.flights ++ sels.map (fun s => Flight.delegate s.address s.amount) } ∧
      E.get 0 w.self + selSum sels = w.egld.get 0 w.self ∧ (∀ a, a ≠ w.self → E.get 0 a = w.egld.get 0 a) ∧
      (∀ a, D.get none a = (w.st.data.get none a).map (fun d => { d with pStake := d.pStake + selAt a sels })) ∧
      (∀ s ∈ sels, w.st.data.get none s.address ≠ none) ∧
      dataSum (·.pStake) D = dataSum (·.pStake) w.st.data + selSum sels ∧
      (∀ f : ProviderData → Nat, (∀ d x, f { d with pStake := x } = f d) → dataSum f D = dataSum f w.st.data) := by
  intro sels
  induction sels with
  | nil =>
    intro w w' h
    simp only [delegateLoop, Except.ok.injEq] at h
    subst h
    exact ⟨w.egld, w.st.data, by simp, by simp [selSum], by simp, by simp [selAt], by simp, by simp [selSum], by simp⟩
  | cons s ss ih =>
    intro w w' h
    simp only [delegateLoop, bind_ok, updateData_ok, registerPromise_ok, Except.ok.injEq] at h
    obtain ⟨w2, ⟨d, _, hd, rfl, rfl⟩, w3, ⟨m, hm, rfl⟩, h⟩ := h
    obtain ⟨E, D, rfl, e1, e2, e3, e4, e5, e6⟩ := ih h
    simp only at hd hm e1 e2 e3 e4 e5 e6
    have hdata : ∀ a, ((w.st.data.set s.address (some { d with pStake := d.pStake + s.amount })).get none a).map
        (fun d => { d with pStake := d.pStake + selAt a ss }) =
        (w.st.data.get none a).map (fun d => { d with pStake := d.pStake + selAt a (s :: ss) }) := by
      intro a
      rw [Map.get_set]
      by_cases ha : s.address = a
      · subst ha; simp [hd, selAt]; omega
      · simp [ha, selAt]
    refine ⟨E, D, by simp, ?_, ?_, ?_, ?_, ?_, ?_⟩
    · have h1 := get_debit hm w.self
      have h2 := debit_le hm
      rw [selSum_cons]
      rw [if_pos rfl] at h1
      omega
    · intro a ha
      rw [e2 a ha, get_debit hm]
      simp [ha.symm]
    · intro a; rw [e3 a]; exact hdata a
    · intro q hq
      rcases List.mem_cons.1 hq with rfl | hq
      · simp [hd]
      · have := e4 q hq
        rw [Map.get_set] at this
        by_cases ha : s.address = q.address
        · rw [← ha, hd]; simp
        · simpa [ha] using this
    · have := dataSum_update (·.pStake) hd (d' := { d with pStake := d.pStake + s.amount })
      rw [selSum_cons, e5]
      simp only at this
      omega
    · intro f hf
      have := dataSum_update f hd (d' := { d with pStake := d.pStake + s.amount })
      have h2 := hf d (d.pStake + s.amount)
      rw [e6 f hf]
      omega

theorem undelegateLoop_ok : ∀ {sels : List Selection} {w w' : World}, undelegateLoop sels w = .ok w' →
    ∃ E D, w' = { w with
        st := { w.st with undelegList := sels.foldl (fun l s => moveToBack l s.address) w.st.undelegList, data := D },
        egld := E, flights := w.flights ++ sels.map (fun s => Flight.undelegate s.address s.amount) } ∧
      (∀ a, E.get 0 a = w.egld.get 0 a) ∧
      (∀ a, D.get none a = (w.st.data.get none a).map (fun d => { d with pUnstake := d.pUnstake + selAt a sels })) ∧
      (∀ s ∈ sels, w.st.data.get none s.address ≠ none) ∧
      dataSum (·.pUnstake) D = dataSum (·.pUnstake) w.st.data + selSum sels ∧
      (∀ f : ProviderData → Nat, (∀ d x, f { d with pUnstake := x } = f d) → dataSum f D = dataSum f w.st.data) := by
  intro sels
  induction sels with
  | nil =>
    intro w w' h
    simp only [undelegateLoop, Except.ok.injEq] at h
    subst h
    exact ⟨w.egld, w.st.data, by simp, by simp, by simp [selAt], by simp, by simp [selSum], by simp⟩
  | cons s ss ih =>
    intro w w' h
    simp only [undelegateLoop, bind_ok, updateData_ok, registerPromise_ok, Except.ok.injEq] at h
    obtain ⟨w2, ⟨d, _, hd, rfl, rfl⟩, w3, ⟨m, hm, rfl⟩, h⟩ := h
    obtain ⟨E, D, rfl, e1, e3, e4, e5, e6⟩ := ih h
    simp only at hd hm e1 e3 e4 e5 e6
    have hdata : ∀ a, ((w.st.data.set s.address (some { d with pUnstake := d.pUnstake + s.amount })).get none a).map
        (fun d => { d with pUnstake := d.pUnstake + selAt a ss }) =
        (w.st.data.get none a).map (fun d => { d with pUnstake := d.pUnstake + selAt a (s :: ss) }) := by
      intro a
      rw [Map.get_set]
      by_cases ha : s.address = a
      · subst ha; simp [hd, selAt]; omega
      · simp [ha, selAt]
    refine ⟨E, D, by simp, ?_, ?_, ?_, ?_, ?_⟩
    · intro a
      rw [e1 a, get_debit hm]
      simp
    · intro a; rw [e3 a]; exact hdata a
    · intro q hq
      rcases List.mem_cons.1 hq with rfl | hq
      · simp [hd]
      · have := e4 q hq
        rw [Map.get_set] at this
        by_cases ha : s.address = q.address
        · rw [← ha, hd]; simp
        · simpa [ha] using this
    · have := dataSum_update (·.pUnstake) hd (d' := { d with pUnstake := d.pUnstake + s.amount })
      rw [selSum_cons, e5]
      simp only at this
      omega
    · intro f hf
      have := dataSum_update f hd (d' := { d with pUnstake := d.pUnstake + s.amount })
      have h2 := hf d (d.pUnstake + s.amount)
      rw [e6 f hf]
      omega

theorem batchAmount_ok {p a : Nat} {o : Option Nat} (h : batchAmount p o = .ok a) :
    MIN_EGLD ≤ p ∧ MIN_EGLD ≤ a ∧ a ≤ p ∧ (MIN_EGLD ≤ p - a ∨ p - a = 0) ∧ (o = none ∧ a = p ∨ o = some a) := by
  unfold batchAmount at h
  simp only [bind_ok, req_ok, exists_const] at h
  obtain ⟨h1, h⟩ := h
  cases o with
  | none =>
    simp only [Except.ok.injEq] at h
    subst h
    exact ⟨h1, h1, by omega, by omega, .inl ⟨rfl, rfl⟩⟩
  | some x =>
    simp only [bind_ok, req_ok, exists_const, csub_ok, Except.ok.injEq] at h
    obtain ⟨h2, h3, l, ⟨_, rfl⟩, h4, rfl⟩ := h
    exact ⟨h1, h3, h2, h4, .inr rfl⟩

/-- `delegatePending`, completely (up to the ledger and registry facts of the loop). -/
theorem delegatePending_ok {w w' : World} {caller : Addr} {o : Option Nat} (h : delegatePending w caller o = .ok w') :
    caller ≠ w.self ∧ w.st.state = .active ∧ isManager w caller = true ∧ ∃ t amt sels left E D,
      w.st.lsToken = some t ∧ batchAmount w.st.r.pending o = .ok amt ∧ selSum sels + left = amt ∧
      (sels.map Selection.address).Sublist w.st.delegList ∧ (∀ s ∈ sels, DelegTarget w.st s) ∧
      E.get 0 w.self + selSum sels = w.egld.get 0 w.self ∧ (∀ a, a ≠ w.self → E.get 0 a = w.egld.get 0 a) ∧
      (∀ a, D.get none a = (w.st.data.get none a).map (fun d => { d with pStake := d.pStake + selAt a sels })) ∧
      dataSum (·.pStake) D = dataSum (·.pStake) w.st.data + selSum sels ∧
      (∀ f : ProviderData → Nat, (∀ d x, f { d with pStake := x } = f d) → dataSum f D = dataSum f w.st.data) ∧
      w' = commit (emit { w with
          st := { w.st with delegList := sels.foldl (fun l s => moveToBack l s.address) w.st.delegList, data := D },
          egld := E, flights := w.flights ++ sels.map (fun s => Flight.delegate s.address s.amount) }
          ⟨w.st.state, t, { w.st.r with pending := w.st.r.pending - selSum sels }⟩ .general caller)
          ⟨w.st.state, t, { w.st.r with pending := w.st.r.pending - selSum sels }⟩ := by
  unfold delegatePending at h
  simp only [bind_ok, requireUser_ok, requireActive_ok, requireManager_ok, exists_const, cacheNew_ok, Prod.exists,
    csub_ok, Except.ok.injEq] at h
  obtain ⟨h1, c, ⟨t, ht, rfl⟩, h2, h3, amt, hamt, sels, c1, hsel, p, ⟨hp, rfl⟩, w1, hloop, rfl⟩ := h
  obtain ⟨left, g1, rfl, g3, g4⟩ := selectDelegate_ok hsel
  obtain ⟨E, D, rfl, e1, e2, e3, e4, e5, e6⟩ := delegateLoop_ok hloop
  refine ⟨h1, h2, h3, t, amt, sels, left, E, D, ht, hamt, g1, g3, g4, e1, e2, e3, e5, e6, ?_⟩
  have hb := batchAmount_ok hamt
  simp only at hb
  have : w.st.r.pending + left - amt = w.st.r.pending - selSum sels := by omega
  simp only [this]

/-- `unDelegatePending`, completely. -/
theorem unDelegatePending_ok {w w' : World} {caller : Addr} {o : Option Nat} (h : unDelegatePending w caller o = .ok w') :
    caller ≠ w.self ∧ w.st.state = .active ∧ isManager w caller = true ∧ ∃ t amt sels left E D,
      w.st.lsToken = some t ∧ batchAmount w.st.r.toUnstake o = .ok amt ∧ selSum sels + left = amt ∧
      (sels.map Selection.address).Sublist w.st.undelegList ∧ (∀ s ∈ sels, UndelegTarget w.st s) ∧
      (∀ a, E.get 0 a = w.egld.get 0 a) ∧
      (∀ a, D.get none a = (w.st.data.get none a).map (fun d => { d with pUnstake := d.pUnstake + selAt a sels })) ∧
      dataSum (·.pUnstake) D = dataSum (·.pUnstake) w.st.data + selSum sels ∧
      (∀ f : ProviderData → Nat, (∀ d x, f { d with pUnstake := x } = f d) → dataSum f D = dataSum f w.st.data) ∧
      w' = commit (emit { w with
          st := { w.st with undelegList := sels.foldl (fun l s => moveToBack l s.address) w.st.undelegList, data := D },
          egld := E, flights := w.flights ++ sels.map (fun s => Flight.undelegate s.address s.amount) }
          ⟨w.st.state, t, { w.st.r with toUnstake := w.st.r.toUnstake - selSum sels }⟩ .general caller)
          ⟨w.st.state, t, { w.st.r with toUnstake := w.st.r.toUnstake - selSum sels }⟩ := by
  unfold unDelegatePending at h
  simp only [bind_ok, requireUser_ok, requireActive_ok, requireManager_ok, exists_const, cacheNew_ok, Prod.exists,
    csub_ok, Except.ok.injEq] at h
  obtain ⟨h1, c, ⟨t, ht, rfl⟩, h2, h3, amt, hamt, sels, c1, hsel, p, ⟨hp, rfl⟩, w1, hloop, rfl⟩ := h
  obtain ⟨left, g1, rfl, g3, g4⟩ := selectUndelegate_ok hsel
  obtain ⟨E, D, rfl, e1, e3, e4, e5, e6⟩ := undelegateLoop_ok hloop
  refine ⟨h1, h2, h3, t, amt, sels, left, E, D, ht, hamt, g1, g3, g4, e1, e3, e5, e6, ?_⟩
  have hb := batchAmount_ok hamt
  simp only at hb
  have : w.st.r.toUnstake + left - amt = w.st.r.toUnstake - selSum sels := by omega
  simp only [this]

end LS
