import Verif.Spec.Observe
import Verif.Proofs.MapperLemmas

/-! The lists of addresses in storage: C97. -/

namespace LS
open Spec Mapper

/-- What the contract does with a list of providers: `insert`, `remove`, and moving to the back. -/
inductive Spec.ListOp
  | insert (a : Addr) | remove (a : Addr) | back (a : Addr)

/-- On a list of addresses, as in the model. -/
def Spec.ListOp.onList (l : List Addr) : ListOp → List Addr
  | .insert a => setInsert l a
  | .remove a => l.erase a
  | .back a => moveToBack l a

/-- On the linked nodes in storage. -/
def Spec.ListOp.onQueue (q : Queue) : ListOp → Option Queue
  | .insert a => Mapper.insert q a
  | .remove a => Mapper.remove q a
  | .back a => Mapper.move q a

/-- One operation after the other, from nothing. -/
def Spec.listAfter (ops : List ListOp) : List Addr := ops.foldl ListOp.onList []

def Spec.queueAfter (ops : List ListOp) : Option Queue := ops.foldlM ListOp.onQueue empty

/-- The storage stands for the list: read from the front it gives the list and comes to an end, it knows its members and its length,
and nothing is stored beyond one node and one value for each member. -/
def Spec.StandsFor (q : Queue) (l : List Addr) : Prop :=
  (∀ k, l.length ≤ k → items q k = some l) ∧ (∀ a, contains q a = true ↔ a ∈ l) ∧ len q = l.length ∧ l.Nodup ∧
    ∃ ids : List Nat, ids.Nodup ∧ ids.length = l.length ∧ ∀ i, (q.node i ≠ none ∨ q.value i ≠ none) → i ∈ ids

private theorem stands {q : Queue} {l : List Addr} {ids : List Nat} (h : Rep q l ids) : StandsFor q l := by
  refine ⟨fun k hk => h.items hk, fun a => ?_, h.len, h.lnd, ids, h.nd, by rw [← h.num, List.length_map], fun i hi => ?_⟩
  · rw [← h.mem a]
    unfold contains
    exact bne_iff_ne
  · by_contra hn
    have := h.clean i hn
    exact hi.elim (fun h => h this.1) fun h => h this.2

private theorem op_rep {q : Queue} {l : List Addr} {ids : List Nat} (h : Rep q l ids) (op : ListOp) (hr : q.info.new + 1 < 2 ^ 32) :
    ∃ q' ids', op.onQueue q = some q' ∧ Rep q' (op.onList l) ids' ∧ q'.info.new ≤ q.info.new + 1 := by
  cases op with
  | insert a => exact rep_insert h a hr
  | remove a =>
    obtain ⟨q', ids', h1, h2, h3⟩ := rep_remove h a
    exact ⟨q', ids', h1, h2, by omega⟩
  | back a =>
    obtain ⟨q', ids', h1, h2, h3⟩ := rep_move h a hr
    exact ⟨q', ids', h1, h2, by omega⟩

private theorem run_rep : ∀ (ops : List ListOp) {q : Queue} {l : List Addr} {ids : List Nat}, Rep q l ids →
    q.info.new + ops.length < 2 ^ 32 →
    ∃ q' ids', ops.foldlM ListOp.onQueue q = some q' ∧ Rep q' (ops.foldl ListOp.onList l) ids'
  | [], q, _, ids, h, _ => ⟨q, ids, rfl, h⟩
  | op :: ops, q, l, ids, h, hr => by
    rw [List.length_cons] at hr
    obtain ⟨q1, ids1, h1, h2, h3⟩ := op_rep h op (by omega)
    obtain ⟨q2, ids2, h4, h5⟩ := run_rep ops h2 (by omega)
    refine ⟨q2, ids2, ?_, h5⟩
    rw [List.foldlM_cons, h1]; exact h4

/-- **C97**, the lists of providers: after any fewer than 2^32 operations the linked nodes in storage stand for the list of the model;
no operation fails. -/
theorem C97_linked (ops : List ListOp) (h : ops.length < 2 ^ 32) : ∃ q, queueAfter ops = some q ∧ StandsFor q (listAfter ops) := by
  obtain ⟨q, ids, h1, h2⟩ := run_rep ops rep_empty (by show 0 + ops.length < _; omega)
  exact ⟨q, h1, stands h2⟩

private theorem moves_rep (b : Addr) : ∀ (n : Nat) {q : Queue} {ids : List Nat}, Rep q [b] ids → q.info.new + n < 2 ^ 32 →
    ∃ q' ids', (List.replicate n (ListOp.back b)).foldlM ListOp.onQueue q = some q' ∧ Rep q' [b] ids' ∧ q'.info.new = q.info.new + n
  | 0, q, ids, h, _ => ⟨q, ids, rfl, h, rfl⟩
  | n + 1, q, ids, h, hr => by
    obtain ⟨q1, ids1, h1, h2, h3⟩ := rep_move h b (by omega)
    have e : moveToBack [b] b = [b] := by simp [moveToBack, setInsert]
    rw [e] at h2
    obtain ⟨q2, ids2, h4, h5, h6⟩ := moves_rep b n h2 (by omega)
    refine ⟨q2, ids2, ?_, h5, by omega⟩
    rw [List.replicate_succ, List.foldlM_cons]
    show Option.bind (Mapper.move q b) _ = _
    rw [h1]; exact h4

private theorem moves_list (b : Addr) : ∀ n : Nat, (List.replicate n (ListOp.back b)).foldl ListOp.onList [b] = [b]
  | 0 => rfl
  | n + 1 => by
    have e : moveToBack [b] b = [b] := by simp [moveToBack, setInsert]
    rw [List.replicate_succ, List.foldl_cons]
    show (List.replicate n (ListOp.back b)).foldl ListOp.onList (moveToBack [b] b) = [b]
    rw [e]; exact moves_list b n

private theorem limit_aux {a b : Addr} (hab : a ≠ b) (n : Nat) (hn : n + 2 = 2 ^ 32) : ∃ ops : List ListOp, ops.length = n + 2 ∧
    listAfter ops = [b, a] ∧ ∃ q, queueAfter ops = some q ∧ contains q a = false ∧ ∀ k, 0 < k → items q k = some [b] := by
  obtain ⟨q1, h1, h2, h3⟩ := rep_push rep_empty (a := b) List.not_mem_nil (by decide)
  have h3 : q1.info.new = 1 := h3
  obtain ⟨q2, ids2, h4, h5, h6⟩ := moves_rep b n h2 (by omega)
  obtain ⟨q3, h7, h8, h9⟩ := rep_wrap (a := a) h5 (by simpa using hab) (by simp) (by omega)
  refine ⟨.insert b :: (List.replicate n (.back b) ++ [.insert a]), ?_, ?_, q3, ?_, h8, fun k hk => h9 k hk⟩
  · rw [List.length_cons, List.length_append, List.length_replicate]; rfl
  · unfold listAfter
    rw [List.foldl_cons, List.foldl_append]
    have e : ListOp.onList [] (.insert b) = [b] := rfl
    rw [e, moves_list]
    show setInsert [b] a = _
    unfold setInsert
    rw [if_neg (by simpa using hab)]; rfl
  · unfold queueAfter
    rw [List.foldlM_cons]
    show Option.bind (Mapper.insert empty b) _ = _
    rw [h1]
    show (List.replicate _ _ ++ [_]).foldlM ListOp.onQueue q1 = _
    rw [List.foldlM_append, h4]
    show [ListOp.insert a].foldlM ListOp.onQueue q2 = _
    rw [List.foldlM_cons]
    show Option.bind (Mapper.insert q2 a) _ = _
    rw [h7]; rfl

/-- **C97**, the limit cannot be raised: numbers of nodes have 32 bits, and after 2^32 operations (a provider inserted, moved to the back
2^32 - 2 times, another inserted) the second provider is lost. -/
theorem C97_limit {a b : Addr} (hab : a ≠ b) : ∃ ops : List ListOp, ops.length = 2 ^ 32 ∧ listAfter ops = [b, a] ∧
    ∃ q, queueAfter ops = some q ∧ contains q a = false ∧ ∀ k, 0 < k → items q k = some [b] := by
  obtain ⟨n, hn⟩ : ∃ n : Nat, n + 2 = 2 ^ 32 := ⟨4294967294, by decide⟩
  rw [← hn]
  exact limit_aux hab n hn

/-- What the contract does with the managers: `extend` inserts, `swap_remove` removes. -/
inductive Spec.BagOp
  | insert (a : Addr) | remove (a : Addr)

def Spec.BagOp.onList (l : List Addr) : BagOp → List Addr
  | .insert a => setInsert l a
  | .remove a => swapRemove l a

def Spec.BagOp.onVec (v : Vec) : BagOp → Option Vec
  | .insert a => some (v.insert a)
  | .remove a => v.remove a

private theorem swapRemove_length_le (l : List Addr) (a : Addr) : (swapRemove l a).length ≤ l.length := by
  unfold swapRemove
  split
  · split
    · split
      · simp
      · simp
    · exact Nat.le_refl _
  · exact Nat.le_refl _

private theorem bag_rep : ∀ (ops : List BagOp) {v : Vec} {l : List Addr}, VRep v l → l.length + ops.length < 2 ^ 32 →
    ∃ v', ops.foldlM BagOp.onVec v = some v' ∧ VRep v' (ops.foldl BagOp.onList l)
  | [], v, _, h, _ => ⟨v, rfl, h⟩
  | .insert a :: ops, v, l, h, hr => by
    rw [List.length_cons] at hr
    have hl : (setInsert l a).length ≤ l.length + 1 := by
      unfold setInsert; split <;> simp
    obtain ⟨v2, h4, h5⟩ := bag_rep ops (vrep_insert h a (by omega)) (by omega)
    exact ⟨v2, by rw [List.foldlM_cons]; exact h4, h5⟩
  | .remove a :: ops, v, l, h, hr => by
    rw [List.length_cons] at hr
    have hl := swapRemove_length_le l a
    obtain ⟨v1, h1, h2⟩ := vrep_remove h a
    obtain ⟨v2, h4, h5⟩ := bag_rep ops h2 (by omega)
    refine ⟨v2, ?_, h5⟩
    rw [List.foldlM_cons]
    show Option.bind (v.remove a) _ = _
    rw [h1]; exact h4

/-- **C97**, the managers: after any fewer than 2^32 operations the numbered items in storage are the managers of the model in the
same order, and a manager is known exactly if in the list. -/
theorem C97_managers (ops : List BagOp) (h : ops.length < 2 ^ 32) : ∃ v, ops.foldlM BagOp.onVec Vec.empty = some v ∧
    v.items = some (ops.foldl BagOp.onList []) ∧ (∀ a, v.contains a = true ↔ a ∈ ops.foldl BagOp.onList []) ∧
    (ops.foldl BagOp.onList []).Nodup ∧ ∀ i, v.item i ≠ none → 0 < i ∧ i ≤ (ops.foldl BagOp.onList []).length := by
  obtain ⟨v, h1, h2⟩ := bag_rep ops vrep_empty (by rw [List.length_nil]; omega)
  refine ⟨v, h1, h2.items, fun a => ?_, h2.lnd, fun i hi => ?_⟩
  · rw [← h2.mem a]
    unfold Vec.contains
    exact bne_iff_ne
  · by_contra hn
    exact hi (h2.clean i (by omega))

/-- Three providers, the first moved to the back, the second removed and put in again. -/
example : listAfter [.insert 7, .insert 8, .insert 9, .back 7, .remove 8, .insert 8, .insert 9] = [9, 7, 8] ∧
    ((queueAfter [.insert 7, .insert 8, .insert 9, .back 7, .remove 8, .insert 8, .insert 9]).bind fun q => items q 3) = some [9, 7, 8] := by
  decide +kernel

/-- Four managers, the second removed: the last takes its place. -/
example : [BagOp.insert 7, .insert 8, .insert 9, .insert 10, .remove 8, .insert 9].foldl BagOp.onList [] = [7, 10, 9] ∧
    (([BagOp.insert 7, .insert 8, .insert 9, .insert 10, .remove 8, .insert 9].foldlM BagOp.onVec Vec.empty).bind Vec.items) =
      some [7, 10, 9] := by
  decide +kernel

end LS
