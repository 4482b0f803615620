import Verif.Model.Mapper
import Mathlib.Data.List.Nodup
import Mathlib.Tactic.Common

/-! Lemmas about linked queues in storage. -/

namespace LS.Mapper

theorem put_same {α β : Type} [DecidableEq α] (f : α → β) (k : α) (v : β) : put f k v k = v := if_pos rfl

theorem put_other {α β : Type} [DecidableEq α] (f : α → β) {k x : α} (v : β) (h : x ≠ k) : put f k v x = f x := if_neg h

theorem u32_lt {n : Nat} (h : n < 2 ^ 32) : u32 n = n := Nat.mod_eq_of_lt h

/-- The nodes `is` are linked in this order, `p` before and `e` after them. -/
def Seg (node : Nat → Option Node) : Nat → List Nat → Nat → Prop
  | _, [], _ => True
  | p, i :: is, e => node i = some ⟨i, is.headD e, p⟩ ∧ Seg node i is e

theorem seg_append {node : Nat → Option Node} : ∀ {A B : List Nat} {p e : Nat},
    Seg node p (A ++ B) e ↔ Seg node p A (B.headD e) ∧ Seg node (A.getLastD p) B e
  | [], B, p, e => by simp [Seg]
  | i :: A, B, p, e => by
    have ih := @seg_append node A B i e
    have h1 : (A ++ B).headD e = A.headD (B.headD e) := by cases A <;> rfl
    have h2 : (i :: A).getLastD p = A.getLastD i := by
      cases A <;> rfl
    rw [List.cons_append]
    show node i = some ⟨i, (A ++ B).headD e, p⟩ ∧ Seg node i (A ++ B) e ↔ (node i = some ⟨i, A.headD (B.headD e), p⟩ ∧ Seg node i A (B.headD e)) ∧ _
    rw [ih, h1, h2, and_assoc]

theorem seg_put {node : Nat → Option Node} {k : Nat} {v : Option Node} : ∀ {A : List Nat} {p e : Nat}, k ∉ A →
    (Seg (put node k v) p A e ↔ Seg node p A e)
  | [], _, _, _ => Iff.rfl
  | i :: A, p, e, h => by
    rw [List.mem_cons, not_or] at h
    show put node k v i = _ ∧ Seg (put node k v) i A e ↔ _ ∧ _
    rw [put_other _ _ (fun he => h.1 he.symm), seg_put h.2]

/-- What a queue stores when it holds the list `l` in the nodes `ids`. -/
structure Rep (q : Queue) (l : List Addr) (ids : List Nat) : Prop where
  len : q.info.len = l.length
  front : q.info.front = ids.headD 0
  back : q.info.back = ids.getLastD 0
  bound : ∀ i ∈ ids, 0 < i ∧ i ≤ q.info.new
  few : l.length ≤ q.info.new
  nd : ids.Nodup
  lnd : l.Nodup
  seg : Seg q.node 0 ids 0
  vals : ids.map q.value = l.map some
  num : l.map q.id = ids
  out : ∀ a, a ∉ l → q.id a = 0
  clean : ∀ i, i ∉ ids → q.node i = none ∧ q.value i = none

theorem rep_empty : Rep empty [] [] :=
  ⟨rfl, rfl, rfl, fun _ h => absurd h List.not_mem_nil, Nat.le_refl _, List.nodup_nil, List.nodup_nil, trivial, rfl, rfl,
    fun _ _ => rfl, fun _ _ => ⟨rfl, rfl⟩⟩

theorem Rep.mem {q : Queue} {l : List Addr} {ids : List Nat} (h : Rep q l ids) (a : Addr) : q.id a ≠ 0 ↔ a ∈ l := by
  constructor
  · intro hn
    by_contra hm
    exact hn (h.out a hm)
  · intro hm
    have : q.id a ∈ ids := by rw [← h.num]; exact List.mem_map_of_mem hm
    exact Nat.pos_iff_ne_zero.1 (h.bound _ this).1

theorem map_put_of_not_mem {α β : Type} [DecidableEq α] {f : α → β} {k : α} {v : β} {l : List α} (h : k ∉ l) :
    l.map (put f k v) = l.map f :=
  List.map_congr_left fun x hx => put_other _ _ fun he => h (he ▸ hx)

theorem rep_push {q : Queue} {l : List Addr} {ids : List Nat} (h : Rep q l ids) {a : Addr} (ha : a ∉ l)
    (hr : q.info.new + 1 < 2 ^ 32) :
    ∃ q', insert q a = some q' ∧ Rep q' (l ++ [a]) (ids ++ [q.info.new + 1]) ∧ q'.info.new = q.info.new + 1 := by
  have hfew := h.few
  have hn : u32 (q.info.new + 1) = q.info.new + 1 := u32_lt hr
  have hl : u32 (q.info.len + 1) = l.length + 1 := by rw [h.len]; exact u32_lt (by omega)
  have hfresh : q.info.new + 1 ∉ ids := fun hm => by have := (h.bound _ hm).2; omega
  have hid : ¬ q.id a ≠ 0 := fun hc => ha ((h.mem a).1 hc)
  have hlen : ids.length = l.length := by rw [← h.num, List.length_map]
  have hnum : ∀ (id' : Addr → Nat), id' = put q.id a (q.info.new + 1) → (l ++ [a]).map id' = ids ++ [q.info.new + 1] := by
    rintro _ rfl
    rw [List.map_append, map_put_of_not_mem ha, h.num]
    simp [put_same]
  have hvals : (ids ++ [q.info.new + 1]).map (put q.value (q.info.new + 1) (some a)) = (l ++ [a]).map some := by
    rw [List.map_append, map_put_of_not_mem hfresh, h.vals, List.map_append]
    simp [put_same]
  have hout : ∀ b, b ∉ l ++ [a] → put q.id a (q.info.new + 1) b = 0 := fun b hb => by
    rw [List.mem_append, not_or] at hb
    rw [put_other _ _ (fun he => hb.2 (List.mem_singleton.2 he)), h.out b hb.1]
  have hbound : ∀ i ∈ ids ++ [q.info.new + 1], 0 < i ∧ i ≤ q.info.new + 1 := fun i hi => by
    rcases List.mem_append.1 hi with hi | hi
    · have := h.bound i hi; omega
    · cases List.mem_singleton.1 hi; omega
  have hnd : (ids ++ [q.info.new + 1]).Nodup :=
    List.nodup_append.2 ⟨h.nd, List.nodup_singleton _, fun x hx y hy he => by
      cases List.mem_singleton.1 hy; exact hfresh (he ▸ hx)⟩
  have hlnd : (l ++ [a]).Nodup :=
    List.nodup_append.2 ⟨h.lnd, List.nodup_singleton _, fun x hx y hy he => by
      cases List.mem_singleton.1 hy; exact ha (he ▸ hx)⟩
  unfold insert pushBack
  rw [if_neg hid]
  by_cases h0 : q.info.len = 0
  · have hl0 : l = [] := List.length_eq_zero_iff.1 (by rw [← h.len]; exact h0)
    have hi0 : ids = [] := List.length_eq_zero_iff.1 (by rw [hlen, hl0]; rfl)
    simp only [if_pos h0, hn, hl]
    refine ⟨_, rfl, ?_, rfl⟩
    refine ⟨by simp, ?_, by simp, hbound, by simp; omega, hnd, hlnd, ?_, hvals, hnum _ rfl, hout, ?_⟩
    · rw [hi0]; rfl
    · rw [hi0]; exact ⟨put_same _ _ _, trivial⟩
    · intro i hi
      rw [List.mem_append, not_or] at hi
      have hne : i ≠ q.info.new + 1 := fun he => hi.2 (List.mem_singleton.2 he)
      exact ⟨(put_other _ _ hne).trans (h.clean i hi.1).1, (put_other _ _ hne).trans (h.clean i hi.1).2⟩
  · have hne : ids ≠ [] := fun he => h0 (by rw [h.len, ← hlen, he]; rfl)
    obtain ⟨A, b, rfl⟩ : ∃ A b, ids = A ++ [b] := ⟨ids.dropLast, ids.getLast hne, (List.dropLast_append_getLast hne).symm⟩
    have hb : q.info.back = b := by rw [h.back]; simp
    have hseg := seg_append.1 h.seg
    have hnb : q.node b = some ⟨b, 0, A.getLastD 0⟩ := hseg.2.1
    have hbA : b ∉ A := fun hm => by
      have := (List.nodup_append.1 h.nd).2.2 b hm b (List.mem_singleton_self b)
      exact this rfl
    have hbn : b ≠ q.info.new + 1 := fun he => hfresh (he ▸ List.mem_append_right _ (List.mem_singleton_self b))
    have hAn : q.info.new + 1 ∉ A := fun hm => hfresh (List.mem_append_left _ hm)
    simp only [if_neg h0, hn, hl, hb, hnb]
    refine ⟨_, rfl, ?_, rfl⟩
    refine ⟨by simp, ?_, by simp, hbound, by simp; omega, hnd, hlnd, ?_, hvals, hnum _ rfl, hout, ?_⟩
    · show q.info.front = _
      rw [h.front]; cases A <;> rfl
    · show Seg (put (put q.node b _) _ _) 0 (A ++ [b] ++ [q.info.new + 1]) 0
      rw [seg_append, seg_append]
      refine ⟨⟨?_, ?_, trivial⟩, ?_, trivial⟩
      · rw [seg_put hAn, seg_put hbA]; exact hseg.1
      · rw [put_other _ _ hbn, put_same]; rfl
      · rw [put_same]; simp
    · intro i hi
      rw [List.mem_append, not_or] at hi
      have hne : i ≠ q.info.new + 1 := fun he => hi.2 (List.mem_singleton.2 he)
      have hnb : i ≠ b := fun he => hi.1 (List.mem_append_right _ (List.mem_singleton.2 he))
      exact ⟨((put_other _ _ hne).trans (put_other _ _ hnb)).trans (h.clean i hi.1).1, (put_other _ _ hne).trans (h.clean i hi.1).2⟩

theorem rep_insert {q : Queue} {l : List Addr} {ids : List Nat} (h : Rep q l ids) (a : Addr) (hr : q.info.new + 1 < 2 ^ 32) :
    ∃ q' ids', insert q a = some q' ∧ Rep q' (setInsert l a) ids' ∧ q'.info.new ≤ q.info.new + 1 := by
  unfold setInsert
  by_cases ha : a ∈ l
  · rw [if_pos ha]
    refine ⟨q, ids, ?_, h, Nat.le_succ _⟩
    unfold insert
    rw [if_pos ((h.mem a).2 ha)]
  · rw [if_neg ha]
    obtain ⟨q', h1, h2, h3⟩ := rep_push h ha hr
    exact ⟨q', _, h1, h2, Nat.le_of_eq h3⟩

theorem rep_remove {q : Queue} {l : List Addr} {ids : List Nat} (h : Rep q l ids) (a : Addr) :
    ∃ q' ids', remove q a = some q' ∧ Rep q' (l.erase a) ids' ∧ q'.info.new = q.info.new := by
  by_cases ha : a ∈ l
  swap
  · rw [List.erase_of_not_mem ha]
    refine ⟨q, ids, ?_, h, rfl⟩
    unfold remove
    rw [if_pos (h.out a ha)]
  obtain ⟨L, R, rfl⟩ := List.append_of_mem ha
  have hL : a ∉ L := fun hm => (List.nodup_append.1 h.lnd).2.2 a hm a List.mem_cons_self rfl
  have hR : a ∉ R := (List.nodup_cons.1 (List.nodup_append.1 h.lnd).2.1).1
  have he : (L ++ a :: R).erase a = L ++ R := by rw [List.erase_append_right _ hL, List.erase_cons_head]
  rw [he]
  set i := q.id a with hi
  set A := L.map q.id with hA
  set B := R.map q.id with hB
  have hids : ids = A ++ i :: B := by rw [← h.num, List.map_append, List.map_cons]
  subst hids
  have hseg := seg_append.1 h.seg
  have hni : q.node i = some ⟨i, B.headD 0, A.getLastD 0⟩ := hseg.2.1
  have hsA : Seg q.node 0 A i := hseg.1
  have hsB : Seg q.node i B 0 := hseg.2.2
  have hndA : A.Nodup := (List.nodup_append.1 h.nd).1
  have hndB : B.Nodup := (List.nodup_cons.1 (List.nodup_append.1 h.nd).2.1).2
  have hiA : i ∉ A := fun hm => (List.nodup_append.1 h.nd).2.2 i hm i List.mem_cons_self rfl
  have hiB : i ∉ B := (List.nodup_cons.1 (List.nodup_append.1 h.nd).2.1).1
  have hAB : ∀ x ∈ A, x ∉ B := fun x hx hx' => (List.nodup_append.1 h.nd).2.2 x hx x (List.mem_cons_of_mem _ hx') rfl
  have hlA : A.length = L.length := List.length_map _
  have hlB : B.length = R.length := List.length_map _
  have hv : A.map q.value = L.map some ∧ q.value i = some a ∧ B.map q.value = R.map some := by
    have := h.vals
    rw [List.map_append, List.map_append, List.map_cons, List.map_cons] at this
    have h1 := List.append_inj this (by rw [List.length_map, hlA, List.length_map])
    injection h1.2 with h2 h3
    exact ⟨h1.1, h2, h3⟩
  have hi0 : i ≠ 0 := Nat.pos_iff_ne_zero.1 (h.bound i (List.mem_append_right _ List.mem_cons_self)).1
  have pos : ∀ x, x ∈ A ++ B → x ≠ 0 := fun x hx => Nat.pos_iff_ne_zero.1 (h.bound x (by
    rcases List.mem_append.1 hx with hx | hx
    · exact List.mem_append_left _ hx
    · exact List.mem_append_right _ (List.mem_cons_of_mem _ hx))).1
  -- joining on the left
  have left : ∃ node, unlinkPrev q ⟨i, B.headD 0, A.getLastD 0⟩ = some ((A ++ B).headD 0, node) ∧ Seg node 0 A (B.headD 0) ∧
      ∀ x, x ∉ A → node x = q.node x := by
    unfold unlinkPrev
    rcases List.eq_nil_or_concat A with hnil | ⟨A', p, hp⟩
    · rw [hnil]
      exact ⟨q.node, rfl, trivial, fun _ _ => rfl⟩
    · rw [List.concat_eq_append] at hp
      have hpl : A.getLastD 0 = p := by rw [hp]; simp
      have hp0 : p ≠ 0 := pos p (List.mem_append_left _ (by rw [hp]; simp))
      rw [hp] at hsA
      obtain ⟨s1, s2, _⟩ := seg_append.1 hsA
      have s2 : q.node p = some ⟨p, i, A'.getLastD 0⟩ := s2
      have hpA : p ∉ A' := fun hm => by
        rw [hp] at hndA
        exact (List.nodup_append.1 hndA).2.2 p hm p (List.mem_singleton_self p) rfl
      rw [hpl]
      simp only [if_neg hp0, s2]
      refine ⟨put q.node p (some ⟨p, B.headD 0, A'.getLastD 0⟩), ?_, ?_, ?_⟩
      · congr 2
        rw [h.front, hp]; cases A' <;> rfl
      · rw [hp, seg_append]
        refine ⟨(seg_put hpA).2 s1, ?_, trivial⟩
        rw [put_same]; rfl
      · intro x hx
        exact put_other _ _ fun he => hx (by rw [hp, he]; simp)
  obtain ⟨node1, e1, g1, u1⟩ := left
  have hsB1 : Seg node1 i B 0 := by
    have key : ∀ (C : List Nat) (p : Nat), (∀ x ∈ C, x ∉ A) → Seg q.node p C 0 → Seg node1 p C 0 := by
      intro C
      induction C with
      | nil => exact fun _ _ _ => trivial
      | cons x C ih =>
        intro p hC hs
        exact ⟨(u1 x (hC x List.mem_cons_self)).trans hs.1, ih x (fun y hy => hC y (List.mem_cons_of_mem _ hy)) hs.2⟩
    exact key B i (fun x hx hx' => hAB x hx' hx) hsB
  have right : ∃ node, unlinkNext q.info.back node1 ⟨i, B.headD 0, A.getLastD 0⟩ = some ((A ++ B).getLastD 0, node) ∧
      Seg node 0 (A ++ B) 0 ∧ ∀ x, x ∉ B → node x = node1 x := by
    unfold unlinkNext
    cases hBc : B with
    | nil =>
      refine ⟨node1, by rw [List.append_nil]; rfl, ?_, fun _ _ => rfl⟩
      rw [List.append_nil]
      rw [hBc] at g1; exact g1
    | cons n B' =>
      have hn0 : n ≠ 0 := pos n (List.mem_append_right _ (by rw [hBc]; exact List.mem_cons_self))
      rw [hBc] at hsB1 g1 hndB hAB
      have hn : node1 n = some ⟨n, B'.headD 0, i⟩ := hsB1.1
      have hnB : n ∉ B' := (List.nodup_cons.1 hndB).1
      have hnA : n ∉ A := fun hm => hAB n hm List.mem_cons_self
      have hhd : (n :: B').headD 0 = n := rfl
      simp only [hhd, if_neg hn0, hn]
      refine ⟨put node1 n (some ⟨n, B'.headD 0, A.getLastD 0⟩), ?_, ?_, ?_⟩
      · congr 2
        rw [h.back, hBc]
        simp [List.getLastD_eq_getLast?, List.getLast?_append]
      · rw [seg_append]
        refine ⟨(seg_put hnA).2 g1, ?_, (seg_put hnB).2 hsB1.2⟩
        rw [put_same]
      · intro x hx
        exact put_other _ _ fun he => hx (he ▸ List.mem_cons_self)
  obtain ⟨node2, e2, g2, u2⟩ := right
  have hiAB : i ∉ A ++ B := fun hm => (List.mem_append.1 hm).elim hiA hiB
  refine ⟨{ info := ⟨q.info.len - 1, (A ++ B).headD 0, (A ++ B).getLastD 0, q.info.new⟩, node := put node2 i none,
            value := put q.value i none, id := put q.id a 0 }, A ++ B, ?_, ?_, rfl⟩
  · unfold remove
    rw [if_neg hi0]
    simp only [← hi, hni, hv.2.1, e1, e2]
  · have hlen := h.len
    have hfew := h.few
    simp only [List.length_append, List.length_cons] at hlen hfew
    refine ⟨?_, rfl, rfl, ?_, ?_, ?_, ?_, (seg_put hiAB).2 g2, ?_, ?_, ?_, ?_⟩
    · simp only [List.length_append]; omega
    · intro x hx
      refine h.bound x ?_
      rcases List.mem_append.1 hx with hx | hx
      · exact List.mem_append_left _ hx
      · exact List.mem_append_right _ (List.mem_cons_of_mem _ hx)
    · simp only [List.length_append]; omega
    · exact (List.nodup_append.2 ⟨hndA, (List.nodup_cons.1 (List.nodup_append.1 h.nd).2.1).2,
        fun x hx y hy he => hAB x hx (he ▸ hy)⟩)
    · rw [← he]; exact h.lnd.erase a
    · show (A ++ B).map (put q.value i none) = _
      rw [map_put_of_not_mem hiAB, List.map_append, hv.1, hv.2.2, List.map_append]
    · show (L ++ R).map (put q.id a 0) = _
      rw [map_put_of_not_mem (fun hm => (List.mem_append.1 hm).elim hL hR), List.map_append]
    · intro b hb
      show put q.id a 0 b = 0
      by_cases hba : b = a
      · rw [hba, put_same]
      · rw [put_other _ _ hba]
        refine h.out b fun hm => hb ?_
        rcases List.mem_append.1 hm with hm | hm
        · exact List.mem_append_left _ hm
        · rcases List.mem_cons.1 hm with hm | hm
          · exact absurd hm hba
          · exact List.mem_append_right _ hm
    · intro x hx
      show put node2 i none x = none ∧ put q.value i none x = none
      by_cases hxi : x = i
      · rw [hxi, put_same, put_same]; exact ⟨rfl, rfl⟩
      · rw [put_other _ _ hxi, put_other _ _ hxi]
        have hxA : x ∉ A := fun hm => hx (List.mem_append_left _ hm)
        have hxB : x ∉ B := fun hm => hx (List.mem_append_right _ hm)
        rw [u2 x hxB, u1 x hxA]
        exact h.clean x fun hm => (List.mem_append.1 hm).elim hxA fun hm => (List.mem_cons.1 hm).elim hxi hxB

theorem walk_seg {q : Queue} : ∀ {l : List Addr} {ids : List Nat} {p : Nat} (k : Nat), Seg q.node p ids 0 → ids.map q.value = l.map some →
    (∀ i ∈ ids, 0 < i) → ids.length ≤ k → walk q k (ids.headD 0) = some l
  | l, [], _, k, _, hv, _, _ => by
    have : l = [] := List.map_eq_nil_iff.1 hv.symm
    subst this
    cases k <;> rfl
  | [], i :: ids, _, _, _, hv, _, _ => by cases hv
  | a :: l, i :: ids, p, 0, _, _, _, hk => absurd hk (by simp)
  | a :: l, 0 :: ids, p, k + 1, _, _, hp, _ => absurd (hp 0 List.mem_cons_self) (by simp)
  | a :: l, (i + 1) :: ids, p, k + 1, hs, hv, hp, hk => by
    injection hv with h1 h2
    have ih := walk_seg (q := q) (l := l) (ids := ids) (p := i + 1) k hs.2 h2 (fun x hx => hp x (List.mem_cons_of_mem _ hx))
      (by simp only [List.length_cons] at hk; omega)
    show walk q (k + 1) (i + 1) = _
    unfold walk
    simp only [h1, hs.1, ih, Option.map_some]

theorem Rep.items {q : Queue} {l : List Addr} {ids : List Nat} (h : Rep q l ids) {k : Nat} (hk : l.length ≤ k) :
    items q k = some l := by
  unfold Mapper.items
  rw [h.front]
  refine walk_seg k h.seg h.vals (fun i hi => (h.bound i hi).1) ?_
  rwa [← h.num, List.length_map]

theorem rep_move {q : Queue} {l : List Addr} {ids : List Nat} (h : Rep q l ids) (a : Addr) (hr : q.info.new + 1 < 2 ^ 32) :
    ∃ q' ids', move q a = some q' ∧ Rep q' (moveToBack l a) ids' ∧ q'.info.new = q.info.new + 1 := by
  obtain ⟨q1, ids1, h1, h2, h3⟩ := rep_remove h a
  have hm : a ∉ l.erase a := h.lnd.not_mem_erase
  obtain ⟨q2, h4, h5, h6⟩ := rep_push h2 hm (by rw [h3]; exact hr)
  refine ⟨q2, ids1 ++ [q1.info.new + 1], ?_, ?_, by rw [h6, h3]⟩
  · unfold move
    rw [h1]; exact h4
  · unfold moveToBack setInsert
    rw [if_neg hm]; exact h5

/-- Once the numbers are used up, the next node gets number 0, which stands for none. -/
theorem rep_wrap {q : Queue} {l : List Addr} {ids : List Nat} (h : Rep q l ids) {a : Addr} (ha : a ∉ l) (hl : l ≠ [])
    (hr : q.info.new + 1 = 2 ^ 32) :
    ∃ q', insert q a = some q' ∧ contains q' a = false ∧ ∀ k, l.length ≤ k → items q' k = some l := by
  have hid : ¬ q.id a ≠ 0 := fun hc => ha ((h.mem a).1 hc)
  have hlen : ids.length = l.length := by rw [← h.num, List.length_map]
  have hn : u32 (q.info.new + 1) = 0 := by rw [hr]; rfl
  have h0 : ¬ q.info.len = 0 := by
    rw [h.len]; exact fun he => hl (List.length_eq_zero_iff.1 he)
  have hne : ids ≠ [] := fun he => by rw [he] at hlen; exact hl (List.length_eq_zero_iff.1 hlen.symm)
  have h0i : 0 ∉ ids := fun hm => absurd (h.bound 0 hm).1 (Nat.lt_irrefl 0)
  obtain ⟨A, b, rfl⟩ : ∃ A b, ids = A ++ [b] := ⟨ids.dropLast, ids.getLast hne, (List.dropLast_append_getLast hne).symm⟩
  have hb : q.info.back = b := by rw [h.back]; simp
  have hseg := seg_append.1 h.seg
  have hnb : q.node b = some ⟨b, 0, A.getLastD 0⟩ := hseg.2.1
  have hbA : b ∉ A := fun hm => (List.nodup_append.1 h.nd).2.2 b hm b (List.mem_singleton_self b) rfl
  unfold insert pushBack
  rw [if_neg hid]
  simp only [if_neg h0, hn, hb, hnb]
  refine ⟨_, rfl, ?_, fun k hk => ?_⟩
  · unfold contains
    show (put q.id a 0 a != 0) = false
    rw [put_same]; rfl
  · unfold Mapper.items
    show walk _ k q.info.front = _
    rw [h.front]
    refine walk_seg (p := 0) k ?_ ?_ (fun i hi => (h.bound i hi).1) (by omega)
    · show Seg (put (put q.node b _) 0 _) 0 (A ++ [b]) 0
      rw [seg_put h0i, seg_append]
      refine ⟨(seg_put hbA).2 hseg.1, ?_, trivial⟩
      rw [put_same]; rfl
    · show (A ++ [b]).map (put q.value 0 (some a)) = _
      rw [map_put_of_not_mem h0i, h.vals]

/-- What an unordered set stores when it holds the list `l`. -/
structure VRep (v : Vec) (l : List Addr) : Prop where
  len : v.len = l.length
  lnd : l.Nodup
  item : ∀ i a, l[i]? = some a → v.item (i + 1) = some a
  index : ∀ i a, l[i]? = some a → v.index a = i + 1
  out : ∀ a, a ∉ l → v.index a = 0
  clean : ∀ i, i = 0 ∨ l.length < i → v.item i = none

theorem vrep_empty : VRep Vec.empty [] :=
  ⟨rfl, List.nodup_nil, fun _ _ h => by simp at h, fun _ _ h => by simp at h, fun _ _ => rfl, fun _ _ => rfl⟩

theorem VRep.mem {v : Vec} {l : List Addr} (h : VRep v l) (a : Addr) : v.index a ≠ 0 ↔ a ∈ l := by
  constructor
  · intro hn
    by_contra hm
    exact hn (h.out a hm)
  · intro hm
    obtain ⟨i, hi⟩ := List.mem_iff_getElem?.1 hm
    rw [h.index i a hi]; exact Nat.succ_ne_zero i

theorem vrep_insert {v : Vec} {l : List Addr} (h : VRep v l) (a : Addr) (hr : l.length + 1 < 2 ^ 32) :
    VRep (v.insert a) (setInsert l a) := by
  unfold Vec.insert setInsert
  by_cases ha : a ∈ l
  · rw [if_pos ((h.mem a).2 ha), if_pos ha]; exact h
  · rw [if_neg fun hc => ha ((h.mem a).1 hc), if_neg ha]
    have hn : u32 (v.len + 1) = l.length + 1 := by rw [h.len]; exact u32_lt hr
    simp only [hn]
    have split : ∀ i b, (l ++ [a])[i]? = some b → (l[i]? = some b ∧ i < l.length) ∨ (i = l.length ∧ b = a) := by
      intro i b hi
      rcases Nat.lt_trichotomy i l.length with hlt | he | hgt
      · rw [List.getElem?_append_left hlt] at hi; exact .inl ⟨hi, hlt⟩
      · subst he; simp at hi; exact .inr ⟨rfl, hi.symm⟩
      · rw [List.getElem?_eq_none (by simp; omega)] at hi; cases hi
    refine ⟨by simp, ?_, ?_, ?_, ?_, ?_⟩
    · exact List.nodup_append.2 ⟨h.lnd, List.nodup_singleton _, fun x hx y hy he => by
        cases List.mem_singleton.1 hy; exact ha (he ▸ hx)⟩
    · intro i b hi
      show put v.item (l.length + 1) (some a) (i + 1) = _
      rcases split i b hi with ⟨hb, hlt⟩ | ⟨rfl, rfl⟩
      · rw [put_other _ _ (by omega)]; exact h.item i b hb
      · exact put_same _ _ _
    · intro i b hi
      show put v.index a (l.length + 1) b = _
      rcases split i b hi with ⟨hb, hlt⟩ | ⟨rfl, rfl⟩
      · rw [put_other _ _ (fun he : b = a => ha (he ▸ List.mem_iff_getElem?.2 ⟨i, hb⟩))]; exact h.index i b hb
      · exact put_same _ _ _
    · intro b hb
      rw [List.mem_append, not_or] at hb
      show put v.index a _ b = 0
      rw [put_other _ _ (fun he => hb.2 (List.mem_singleton.2 he)), h.out b hb.1]
    · intro i hi
      simp only [List.length_append, List.length_singleton] at hi
      show put v.item _ _ i = none
      rw [put_other _ _ (by omega)]
      exact h.clean i (by omega)

theorem vrep_remove {v : Vec} {l : List Addr} (h : VRep v l) (a : Addr) :
    ∃ v', v.remove a = some v' ∧ VRep v' (swapRemove l a) := by
  unfold Vec.remove
  by_cases ha : a ∈ l
  swap
  · unfold swapRemove
    rw [if_neg ha]
    exact ⟨v, by simp only [h.out a ha, if_true], h⟩
  obtain ⟨L, R, rfl⟩ := List.append_of_mem ha
  have hL : a ∉ L := fun hm => (List.nodup_append.1 h.lnd).2.2 a hm a List.mem_cons_self rfl
  have hR : a ∉ R := (List.nodup_cons.1 (List.nodup_append.1 h.lnd).2.1).1
  have hidx : v.index a = L.length + 1 := h.index L.length a (by simp)
  have hlen : v.len = L.length + R.length + 1 := by rw [h.len]; simp; omega
  simp only [hidx, if_neg (Nat.succ_ne_zero _)]
  have out : ∀ b, b ∉ L ++ R → put v.index a 0 b = 0 := fun b hb => by
    by_cases hba : b = a
    · rw [hba, put_same]
    · rw [put_other _ _ hba]
      refine h.out b fun hm => hb ?_
      rcases List.mem_append.1 hm with hm | hm
      · exact List.mem_append_left _ hm
      · exact List.mem_append_right _ ((List.mem_cons.1 hm).resolve_left hba)
  rcases List.eq_nil_or_concat R with rfl | ⟨R', z, hz⟩
  · have hsr : swapRemove (L ++ [a]) a = L := by
      unfold swapRemove
      rw [if_pos ha]; simp
    rw [hsr]
    have hlen' : v.len = L.length + 1 := by rw [hlen]; simp
    rw [if_pos hlen'.symm]
    refine ⟨_, rfl, ?_, ?_, ?_, ?_, ?_, ?_⟩
    · show v.len - 1 = _; omega
    · exact (List.nodup_append.1 h.lnd).1
    · intro i b hi
      have hlt : i < L.length := (List.getElem?_eq_some_iff.1 hi).1
      show put v.item v.len none (i + 1) = _
      rw [put_other _ _ (by omega)]
      exact h.item i b (by rw [List.getElem?_append_left hlt]; exact hi)
    · intro i b hi
      have hlt : i < L.length := (List.getElem?_eq_some_iff.1 hi).1
      show put v.index a 0 b = _
      rw [put_other _ _ (fun he : b = a => hL (he ▸ List.mem_iff_getElem?.2 ⟨i, hi⟩))]
      exact h.index i b (by rw [List.getElem?_append_left hlt]; exact hi)
    · intro b hb
      exact out b (by rw [List.append_nil]; exact hb)
    · intro i hi
      show put v.item v.len none i = none
      by_cases hil : i = v.len
      · rw [hil, put_same]
      · rw [put_other _ _ hil]
        exact h.clean i (by simp; omega)
  · rw [List.concat_eq_append] at hz
    subst hz
    have hnd := h.lnd
    have hza : z ≠ a := fun he => hR (by rw [he]; simp)
    have hzL : z ∉ L := fun hm => (List.nodup_append.1 hnd).2.2 z hm z (by simp) rfl
    have hzR : z ∉ R' := fun hm => by
      have := (List.nodup_cons.1 (List.nodup_append.1 hnd).2.1).2
      exact (List.nodup_append.1 this).2.2 z hm z (List.mem_singleton_self z) rfl
    have hRa : a ∉ R' := fun hm => hR (List.mem_append_left _ hm)
    have hsr : swapRemove (L ++ a :: (R' ++ [z])) a = L ++ z :: R' := by
      unfold swapRemove
      rw [if_pos ha]
      have e : L ++ a :: (R' ++ [z]) = (L ++ a :: R') ++ [z] := by simp
      rw [e, List.getLast?_concat, List.dropLast_concat]
      simp only [if_neg hza, List.map_append, List.map_cons, if_true]
      have key : ∀ (M : List Addr), a ∉ M → M.map (fun x => if x = a then z else x) = M := fun M hM =>
        (List.map_congr_left fun x hx => if_neg fun he : x = a => hM (he ▸ hx)).trans (List.map_id' M)
      rw [key L hL, key R' hRa]
    rw [hsr]
    simp only [List.length_append, List.length_singleton] at hlen
    have hne : ¬ L.length + 1 = v.len := by omega
    have hzi : v.item v.len = some z := by
      have := h.item (L.length + R'.length + 1) z (by
        rw [List.getElem?_append_right (by omega)]
        have : L.length + R'.length + 1 - L.length = R'.length + 1 := by omega
        rw [this, List.getElem?_cons_succ, List.getElem?_append_right (Nat.le_refl _)]
        simp)
      rw [hlen]
      have e : L.length + (R'.length + 1) + 1 = L.length + R'.length + 1 + 1 := by omega
      rw [e]; exact this
    simp only [if_neg hne, hzi]
    have split : ∀ i b, (L ++ z :: R')[i]? = some b →
        (i = L.length ∧ b = z) ∨ ((L ++ a :: (R' ++ [z]))[i]? = some b ∧ i ≠ L.length ∧ i < L.length + R'.length + 1 ∧ (b ∈ L ∨ b ∈ R')) := by
      intro i b hi
      have hlt := (List.getElem?_eq_some_iff.1 hi).1
      simp only [List.length_append, List.length_cons] at hlt
      rcases Nat.lt_trichotomy i L.length with hl | he | hg
      · rw [List.getElem?_append_left hl] at hi
        exact .inr ⟨by rw [List.getElem?_append_left hl]; exact hi, by omega, by omega, .inl (List.mem_iff_getElem?.2 ⟨i, hi⟩)⟩
      · subst he; simp at hi; exact .inl ⟨rfl, hi.symm⟩
      · rw [List.getElem?_append_right (by omega)] at hi
        obtain ⟨j, hj⟩ : ∃ j, i - L.length = j + 1 := ⟨i - L.length - 1, by omega⟩
        rw [hj, List.getElem?_cons_succ] at hi
        refine .inr ⟨?_, by omega, by omega, .inr (List.mem_iff_getElem?.2 ⟨j, hi⟩)⟩
        rw [List.getElem?_append_right (by omega), hj, List.getElem?_cons_succ, List.getElem?_append_left (List.getElem?_eq_some_iff.1 hi).1]
        exact hi
    refine ⟨_, rfl, ?_, ?_, ?_, ?_, ?_, ?_⟩
    · show v.len - 1 = _
      simp only [List.length_append, List.length_cons]; omega
    · have : (L ++ z :: R').Perm (L ++ (R' ++ [z])) := List.Perm.append_left L (List.perm_append_singleton z R').symm
      refine this.nodup_iff.2 ?_
      exact List.Nodup.sublist (List.Sublist.append_left (List.sublist_cons_self a _) L) hnd
    · intro i b hi
      show put (put v.item (L.length + 1) (some z)) v.len none (i + 1) = _
      rcases split i b hi with ⟨rfl, rfl⟩ | ⟨hb, h1, h2, _⟩
      · rw [put_other _ _ (by omega), put_same]
      · rw [put_other _ _ (by omega), put_other _ _ (by omega)]; exact h.item i b hb
    · intro i b hi
      show put (put v.index z (L.length + 1)) a 0 b = _
      rcases split i b hi with ⟨rfl, rfl⟩ | ⟨hb, _, _, hm⟩
      · rw [put_other _ _ hza, put_same]
      · rw [put_other _ _ (fun he : b = a => hm.elim (fun hm => hL (he ▸ hm)) fun hm => hRa (he ▸ hm)),
          put_other _ _ (fun he : b = z => hm.elim (fun hm => hzL (he ▸ hm)) fun hm => hzR (he ▸ hm))]
        exact h.index i b hb
    · intro b hb
      have hbz : b ≠ z := fun he => hb (by rw [he]; simp)
      have := out b (by
        intro hm
        rcases List.mem_append.1 hm with hm | hm
        · exact hb (List.mem_append_left _ hm)
        · rcases List.mem_append.1 hm with hm | hm
          · exact hb (List.mem_append_right _ (List.mem_cons_of_mem _ hm))
          · exact hbz (List.mem_singleton.1 hm))
      show put (put v.index z _) a 0 b = 0
      by_cases hba : b = a
      · rw [hba, put_same]
      · rw [put_other _ _ hba, put_other _ _ hbz]
        rwa [put_other _ _ hba] at this
    · intro i hi
      simp only [List.length_append, List.length_cons] at hi
      show put (put v.item _ _) v.len none i = none
      by_cases hil : i = v.len
      · rw [hil, put_same]
      · rw [put_other _ _ hil, put_other _ _ (by omega)]
        exact h.clean i (by simp only [List.length_append, List.length_cons, List.length_nil]; omega)

theorem VRep.items {v : Vec} {l : List Addr} (h : VRep v l) : v.items = some l := by
  have key : ∀ (M : List Addr) (j : Nat), (∀ i a, M[i]? = some a → v.item (j + i) = some a) → v.from j M.length = some M := by
    intro M
    induction M with
    | nil => exact fun _ _ => rfl
    | cons a M ih =>
      intro j hM
      have h0 : v.item j = some a := hM 0 a rfl
      have := ih (j + 1) fun i b hb => by
        have := hM (i + 1) b (by rw [List.getElem?_cons_succ]; exact hb)
        rwa [Nat.add_assoc, Nat.add_comm 1 i]
      show v.from j (M.length + 1) = _
      unfold Vec.from
      simp only [h0, this, Option.map_some]
  unfold Vec.items
  rw [h.len]
  exact key l 1 fun i a hi => by rw [Nat.add_comm]; exact h.item i a hi

end LS.Mapper
