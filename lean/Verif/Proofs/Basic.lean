import Verif.Model.Step
import Mathlib.Algebra.BigOperators.Group.Finset.Basic
import Mathlib.Algebra.Order.BigOperators.Group.Finset

/-! Inversion lemmas for the error monad and lemmas on maps. -/

namespace LS

theorem bind_ok {α β : Type} {x : Res α} {f : α → Res β} {b : β} :
    (x >>= f) = .ok b ↔ ∃ a, x = .ok a ∧ f a = .ok b := by
  cases x <;> simp [bind, Except.bind]

theorem req_ok {c : Prop} [Decidable c] {e : Err} {u : Unit} : req c e = .ok u ↔ c := by
  unfold req; split <;> simp_all

theorem csub_ok {a b r : Nat} : csub a b = .ok r ↔ b ≤ a ∧ r = a - b := by
  unfold csub; split <;> simp_all <;> omega

theorem cdiv_ok {a b r : Nat} : cdiv a b = .ok r ↔ b ≠ 0 ∧ r = a / b := by
  unfold cdiv; split <;> simp_all <;> exact eq_comm

theorem unwrap_ok {α : Type} {x : Option α} {r : α} : unwrap x = .ok r ↔ x = some r := by
  cases x <;> simp [unwrap]

theorem ite_ok {α : Type} {c : Prop} [Decidable c] {x y : Res α} {r : α} :
    (if c then x else y) = .ok r ↔ (c ∧ x = .ok r) ∨ (¬c ∧ y = .ok r) := by
  split <;> simp_all

section Map
variable {K V : Type} [DecidableEq K]

theorem Map.get_set (m : Map K V) (d : V) (k k' : K) (v : V) :
    (m.set k v).get d k' = if k = k' then v else m.get d k' := by
  induction m with
  | nil => simp [Map.set, Map.get]
  | cons e m ih =>
    obtain ⟨a, b⟩ := e
    by_cases h : a = k
    · subst h; by_cases h' : a = k' <;> simp [Map.set, Map.get, h']
    · by_cases h' : a = k'
      · subst h'; simp [Map.set, Map.get, h, Ne.symm h]
      · simp [Map.set, Map.get, h, h', ih]

theorem Map.get_set_same (m : Map K V) (d : V) (k : K) (v : V) : (m.set k v).get d k = v := by
  simp [Map.get_set]

theorem Map.get_set_other (m : Map K V) (d : V) {k k' : K} (v : V) (h : k ≠ k') :
    (m.set k v).get d k' = m.get d k' := by simp [Map.get_set, h]

/-- The keys a map mentions. -/
def Map.keys (m : Map K V) : Finset K := (m.map Prod.fst).toFinset

theorem Map.get_of_notMem (m : Map K V) (d : V) (k : K) (h : k ∉ m.keys) : m.get d k = d := by
  induction m with
  | nil => rfl
  | cons e m ih =>
    obtain ⟨a, b⟩ := e
    simp only [Map.keys, List.map_cons, List.toFinset_cons, Finset.mem_insert, not_or] at h
    simp only [Map.get]
    rw [if_neg (fun x => h.1 x.symm)]
    exact ih h.2

theorem Map.keys_set (m : Map K V) (k : K) (v : V) : (m.set k v).keys = insert k m.keys := by
  induction m with
  | nil => simp [Map.set, Map.keys]
  | cons e m ih =>
    obtain ⟨a, b⟩ := e
    by_cases h : a = k
    · subst h; simp [Map.set, Map.keys]
    · simp only [Map.set, h, if_false]
      simp only [Map.keys, List.map_cons, List.toFinset_cons] at ih ⊢
      rw [ih, Finset.insert_comm]

/-- Sum over the (distinct) keys of a map; `d` is the value of absent keys. -/
def Map.sum (d : V) (f : K → V → Nat) (m : Map K V) : Nat := ∑ k ∈ m.keys, f k (m.get d k)

/-- The sum may be taken over any larger set of keys. -/
theorem Map.sum_eq (d : V) (f : K → V → Nat) (m : Map K V) (h0 : ∀ k, f k d = 0) (S : Finset K) (h : m.keys ⊆ S) :
    m.sum d f = ∑ k ∈ S, f k (m.get d k) := by
  apply Finset.sum_subset h
  intro k _ hk
  rw [Map.get_of_notMem m d k hk, h0]

/-- Setting one entry changes a sum by that entry.  `f k d = 0` says that an absent entry counts nothing. -/
theorem Map.sum_set (f : K → V → Nat) (d : V) (m : Map K V) (k : K) (v : V) (h0 : ∀ k, f k d = 0) :
    (m.set k v).sum d f + f k (m.get d k) = m.sum d f + f k v := by
  rw [Map.sum_eq d f m h0 (insert k m.keys) (Finset.subset_insert _ _)]
  unfold Map.sum
  rw [Map.keys_set]
  rw [← Finset.add_sum_erase _ _ (Finset.mem_insert_self k m.keys),
    ← Finset.add_sum_erase _ (fun k => f k (m.get d k)) (Finset.mem_insert_self k m.keys)]
  have : ∑ x ∈ (insert k m.keys).erase k, f x ((m.set k v).get d x) =
      ∑ x ∈ (insert k m.keys).erase k, f x (m.get d x) := by
    apply Finset.sum_congr rfl
    intro x hx
    rw [Map.get_set_other m d v (Ne.symm (Finset.ne_of_mem_erase hx))]
  rw [this, Map.get_set_same]
  omega

theorem Map.le_sum (f : K → V → Nat) (d : V) (m : Map K V) (k : K) (h0 : ∀ k, f k d = 0) :
    f k (m.get d k) ≤ m.sum d f := by
  rw [Map.sum_eq d f m h0 (insert k m.keys) (Finset.subset_insert _ _)]
  exact Finset.single_le_sum (f := fun k => f k (m.get d k)) (fun _ _ => Nat.zero_le _) (Finset.mem_insert_self k m.keys)

theorem Map.sum_nil (d : V) (f : K → V → Nat) : Map.sum d f ([] : Map K V) = 0 := by
  simp [Map.sum, Map.keys]

end Map

section Ledger
variable {K : Type} [DecidableEq K]

theorem debit_ok {m m' : Map K Nat} {k : K} {v : Nat} :
    debit m k v = .ok m' ↔ v ≤ m.get 0 k ∧ m' = m.set k (m.get 0 k - v) := by
  unfold debit; split
  · next h => simp only [Except.ok.injEq, h, true_and]; exact eq_comm
  · next h => simp [h]

theorem get_credit (m : Map K Nat) (k k' : K) (v : Nat) :
    (credit m k v).get 0 k' = if k = k' then m.get 0 k' + v else m.get 0 k' := by
  unfold credit; rw [Map.get_set]; split
  · next h => subst h; rfl
  · rfl

/-- Sum of the balances of the accounts selected by `p`. -/
def Map.total (m : Map K Nat) (p : K → Bool) : Nat := m.sum 0 (fun k v => if p k then v else 0)

theorem total_set (m : Map K Nat) (p : K → Bool) (k : K) (v : Nat) :
    (m.set k v).total p + (if p k then m.get 0 k else 0) = m.total p + (if p k then v else 0) :=
  Map.sum_set (fun k v => if p k then v else 0) 0 m k v (by simp)

theorem total_credit (m : Map K Nat) (p : K → Bool) (k : K) (v : Nat) :
    (credit m k v).total p = m.total p + (if p k then v else 0) := by
  have := total_set m p k (m.get 0 k + v)
  unfold credit; split <;> simp_all <;> omega

theorem total_debit {m m' : Map K Nat} {k : K} {v : Nat} (p : K → Bool) (h : debit m k v = .ok m') :
    m'.total p + (if p k then v else 0) = m.total p := by
  obtain ⟨hv, rfl⟩ := debit_ok.1 h
  have := total_set m p k (m.get 0 k - v)
  split <;> simp_all <;> omega

theorem get_debit {m m' : Map K Nat} {k : K} {v : Nat} (h : debit m k v = .ok m') (k' : K) :
    m'.get 0 k' = if k = k' then m.get 0 k' - v else m.get 0 k' := by
  obtain ⟨hv, rfl⟩ := debit_ok.1 h
  rw [Map.get_set]; split
  · next h => subst h; rfl
  · rfl

theorem debit_le {m m' : Map K Nat} {k : K} {v : Nat} (h : debit m k v = .ok m') : v ≤ m.get 0 k := (debit_ok.1 h).1

theorem get_le_total (m : Map K Nat) (p : K → Bool) (k : K) (h : p k = true) : m.get 0 k ≤ m.total p := by
  have := Map.le_sum (fun k v => if p k then v else 0) 0 m k (by simp)
  simpa [h, Map.total] using this

end Ledger

end LS
