import Verif.Proofs.InvertMore

/-! The provider registry: an invariant of every execution. -/

namespace LS

/-- Sum of a figure over promises. -/
def fsum (g : Flight → Nat) (l : List Flight) : Nat := (l.map g).sum

theorem fsum_append (g : Flight → Nat) (l l' : List Flight) : fsum g (l ++ l') = fsum g l + fsum g l' := by
  simp [fsum]

theorem fsum_cons (g : Flight → Nat) (f : Flight) (l : List Flight) : fsum g (f :: l) = g f + fsum g l := by
  simp [fsum]

theorem fsum_perm {g : Flight → Nat} {l l' : List Flight} (h : l.Perm l') : fsum g l = fsum g l' := by
  unfold fsum; exact (h.map g).sum_eq

theorem eraseIdx_perm {l : List Flight} {i : Nat} {f : Flight} (h : l[i]? = some f) :
    (f :: l.eraseIdx i).Perm l := by
  rw [List.getElem?_eq_some_iff] at h
  obtain ⟨h1, rfl⟩ := h
  exact List.getElem_cons_eraseIdx_perm h1

/-- Amount travelling to provider `c` in a `delegate` promise. -/
def delegAmt (c : Addr) : Flight → Nat
  | .delegate c' a => if c' = c then a else 0
  | _ => 0

/-- Amount asked back from provider `c` in an `unDelegate` promise. -/
def undelegAmt (c : Addr) : Flight → Nat
  | .undelegate c' a => if c' = c then a else 0
  | _ => 0

/-- Is this a whitelisting of `c`? -/
def isWl (c : Addr) : Flight → Bool
  | .whitelist c' _ _ => decide (c' = c)
  | _ => false

/-- A figure of a provider's record, zero if there is none. -/
def recOf (f : ProviderData → Nat) (data : Map Addr (Option ProviderData)) (c : Addr) : Nat :=
  (data.get none c).elim 0 f

/-- The registry invariant, on the components it speaks about. -/
structure RegOk (lt ut : Option TokenId) (dl ul : List Addr) (data : Map Addr (Option ProviderData))
    (fl dead : List Flight) : Prop where
  tok : ∀ t, lt = some t → ut ≠ some t
  nd1 : dl.Nodup
  nd2 : ul.Nodup
  same : ∀ a, a ∈ dl ↔ a ∈ ul
  recd : ∀ a ∈ dl, data.get none a ≠ none
  wl1 : ∀ c, fl.countP (isWl c) ≤ 1
  wl2 : ∀ c v u, .whitelist c v u ∈ fl → c ∉ dl ∧ data.get none c ≠ none
  zero : ∀ c d, data.get none c = some d → c ∉ dl → d.staked = 0 ∧ d.unstaked = 0 ∧ d.pStake = 0 ∧ d.pUnstake = 0
  life : ∀ c, data.get none c ≠ none → c ∈ dl ∨ ∃ v u, .whitelist c v u ∈ fl ∨ .whitelist c v u ∈ dead
  flt : ∀ c a, .delegate c a ∈ fl ∨ .undelegate c a ∈ fl → c ∈ dl
  pos : ∀ c a, .delegate c a ∈ fl ∨ .undelegate c a ∈ fl → MIN_EGLD ≤ a
  ps : ∀ c, recOf (·.pStake) data c = fsum (delegAmt c) fl + fsum (delegAmt c) dead
  pu : ∀ c, recOf (·.pUnstake) data c = fsum (undelegAmt c) fl + fsum (undelegAmt c) dead

/-- The registry invariant of a world. -/
def RegInv (w : World) : Prop :=
  RegOk w.st.lsToken w.st.unstakeToken w.st.delegList w.st.undelegList w.st.data w.flights w.dead

theorem mem_setInsert {l : List Addr} {a x : Addr} : x ∈ setInsert l a ↔ x ∈ l ∨ x = a := by
  unfold setInsert; split
  · next h => constructor
              · exact .inl
              · rintro (h' | rfl) <;> assumption
  · simp

theorem nodup_setInsert {l : List Addr} {a : Addr} (h : l.Nodup) : (setInsert l a).Nodup := by
  unfold setInsert; split
  · exact h
  · next ha => rw [List.nodup_append]; exact ⟨h, by simp, by intro x hx y hy; simp at hy; subst hy; rintro rfl; exact ha hx⟩

theorem mem_moveToBack {l : List Addr} {a x : Addr} : x ∈ moveToBack l a ↔ x ∈ l ∨ x = a := by
  unfold moveToBack
  rw [mem_setInsert]
  by_cases h : x = a
  · simp [h]
  · rw [List.mem_erase_of_ne h]

theorem nodup_moveToBack {l : List Addr} {a : Addr} (h : l.Nodup) : (moveToBack l a).Nodup :=
  nodup_setInsert (h.erase a)

theorem nodup_foldMove {sels : List Selection} : ∀ {l : List Addr}, l.Nodup →
    (sels.foldl (fun l s => moveToBack l s.address) l).Nodup := by
  induction sels with
  | nil => intro l h; exact h
  | cons s ss ih => intro l h; exact ih (nodup_moveToBack h)

theorem mem_foldMove {sels : List Selection} : ∀ {l : List Addr} {x : Addr}, (∀ s ∈ sels, s.address ∈ l) →
    (x ∈ sels.foldl (fun l s => moveToBack l s.address) l ↔ x ∈ l) := by
  induction sels with
  | nil => intro l x _; exact Iff.rfl
  | cons s ss ih =>
    intro l x h
    rw [List.foldl_cons, ih]
    · rw [mem_moveToBack]
      constructor
      · rintro (h' | rfl)
        · exact h'
        · exact h s (by simp)
      · exact .inl
    · intro q hq
      rw [mem_moveToBack]
      exact .inl (h q (List.mem_cons_of_mem _ hq))

theorem recOf_set (f : ProviderData → Nat) (data : Map Addr (Option ProviderData)) (p c : Addr) (o : Option ProviderData) :
    recOf f (data.set p o) c = if p = c then o.elim 0 f else recOf f data c := by
  unfold recOf; rw [Map.get_set]; split <;> rfl

theorem fsum_delegSels (c : Addr) (sels : List Selection) :
    fsum (delegAmt c) (sels.map (fun s => Flight.delegate s.address s.amount)) = selAt c sels := by
  induction sels with
  | nil => rfl
  | cons s ss ih => rw [List.map_cons, fsum_cons, ih]; rfl

theorem fsum_undelegSels (c : Addr) (sels : List Selection) :
    fsum (undelegAmt c) (sels.map (fun s => Flight.undelegate s.address s.amount)) = selAt c sels := by
  induction sels with
  | nil => rfl
  | cons s ss ih => rw [List.map_cons, fsum_cons, ih]; rfl

theorem fsum_zero {g : Flight → Nat} {l : List Flight} (h : ∀ f ∈ l, g f = 0) : fsum g l = 0 := by
  induction l with
  | nil => rfl
  | cons f l ih => rw [fsum_cons, h f (by simp), ih (fun f hf => h f (by simp [hf]))]

theorem countP_zero {c : Addr} {l : List Flight} (h : ∀ v u, .whitelist c v u ∉ l) : l.countP (isWl c) = 0 := by
  rw [List.countP_eq_zero]
  intro f hf
  cases f <;> simp [isWl]
  rintro rfl
  exact h _ _ hf

/-- Adding promises that are neither delegations, undelegations nor whitelistings. -/
theorem RegOk.addNeutral {lt ut dl ul data fl dead} (h : RegOk lt ut dl ul data fl dead) (f : Flight)
    (hf : (∀ c, delegAmt c f = 0) ∧ (∀ c, undelegAmt c f = 0) ∧ (∀ c, isWl c f = false))
    (hd : ∀ c a, f ≠ .delegate c a ∧ f ≠ .undelegate c a) :
    RegOk lt ut dl ul data (fl ++ [f]) dead := by
  obtain ⟨h1, h2, h3⟩ := hf
  refine ⟨h.tok, h.nd1, h.nd2, h.same, h.recd, ?_, ?_, h.zero, ?_, ?_, ?_, ?_, ?_⟩
  · intro c; rw [List.countP_append]; simp [h3 c]; exact h.wl1 c
  · intro c v u hm
    rcases List.mem_append.1 hm with hm | hm
    · exact h.wl2 c v u hm
    · simp only [List.mem_singleton] at hm
      subst hm; have := h3 c; simp [isWl] at this
  · intro c hc
    rcases h.life c hc with h' | ⟨v, u, h'⟩
    · exact .inl h'
    · exact .inr ⟨v, u, h'.imp (fun x => List.mem_append_left _ x) id⟩
  · intro c a hm
    apply h.flt c a
    rcases hm with hm | hm <;> rcases List.mem_append.1 hm with hm | hm
    · exact .inl hm
    · simp only [List.mem_singleton] at hm; exact absurd hm.symm (hd c a).1
    · exact .inr hm
    · simp only [List.mem_singleton] at hm; exact absurd hm.symm (hd c a).2
  · intro c a hm
    apply h.pos c a
    rcases hm with hm | hm <;> rcases List.mem_append.1 hm with hm | hm
    · exact .inl hm
    · simp only [List.mem_singleton] at hm; exact absurd hm.symm (hd c a).1
    · exact .inr hm
    · simp only [List.mem_singleton] at hm; exact absurd hm.symm (hd c a).2
  · intro c; rw [fsum_append, h.ps c]; simp [fsum, h1 c]
  · intro c; rw [fsum_append, h.pu c]; simp [fsum, h2 c]

/-- Rewriting the descriptive fields of a record. -/
theorem RegOk.describe {lt ut dl ul data fl dead} (h : RegOk lt ut dl ul data fl dead) {p : Addr} {d d' : ProviderData}
    (hd : data.get none p = some d)
    (hd' : d'.staked = d.staked ∧ d'.unstaked = d.unstaked ∧ d'.pStake = d.pStake ∧ d'.pUnstake = d.pUnstake) :
    RegOk lt ut dl ul (data.set p (some d')) fl dead := by
  obtain ⟨e1, e2, e3, e4⟩ := hd'
  have hn : ∀ c, (data.set p (some d')).get none c ≠ none ↔ data.get none c ≠ none := by
    intro c; rw [Map.get_set]; by_cases hc : p = c
    · subst hc; simp [hd]
    · simp [hc]
  refine ⟨h.tok, h.nd1, h.nd2, h.same, ?_, h.wl1, ?_, ?_, ?_, h.flt, h.pos, ?_, ?_⟩
  · intro a ha; rw [hn]; exact h.recd a ha
  · intro c v u hm; rw [hn]; exact h.wl2 c v u hm
  · intro c x hx hc
    rw [Map.get_set] at hx
    by_cases hpc : p = c
    · subst hpc; simp only [if_true, Option.some.injEq] at hx; subst hx
      rw [e1, e2, e3, e4]; exact h.zero p d hd hc
    · simp only [hpc, if_false] at hx; exact h.zero c x hx hc
  · intro c hc; rw [hn] at hc; exact h.life c hc
  · intro c; rw [recOf_set, ← h.ps c]; split
    · next hpc => subst hpc; simp [recOf, hd, e3]
    · rfl
  · intro c; rw [recOf_set, ← h.pu c]; split
    · next hpc => subst hpc; simp [recOf, hd, e4]
    · rfl

/-- A promise whose callback failed. -/
theorem RegOk.die {lt ut dl ul data fl fl' dead} {f : Flight} (h : RegOk lt ut dl ul data fl dead)
    (hp : (f :: fl').Perm fl) : RegOk lt ut dl ul data fl' (dead ++ [f]) := by
  have hmem : ∀ x, x ∈ fl' → x ∈ fl := fun x hx => hp.subset (List.mem_cons_of_mem _ hx)
  refine ⟨h.tok, h.nd1, h.nd2, h.same, h.recd, ?_, ?_, h.zero, ?_, ?_, ?_, ?_, ?_⟩
  · intro c
    have := h.wl1 c
    rw [← hp.countP_eq, List.countP_cons] at this
    omega
  · intro c v u hm; exact h.wl2 c v u (hmem _ hm)
  · intro c hc
    rcases h.life c hc with h' | ⟨v, u, h'⟩
    · exact .inl h'
    · refine .inr ⟨v, u, ?_⟩
      rcases h' with h' | h'
      · have := hp.symm.subset h'
        rcases List.mem_cons.1 this with rfl | h''
        · exact .inr (by simp)
        · exact .inl h''
      · exact .inr (List.mem_append_left _ h')
  · intro c a hm; exact h.flt c a (hm.imp (hmem _) (hmem _))
  · intro c a hm; exact h.pos c a (hm.imp (hmem _) (hmem _))
  · intro c
    rw [h.ps c, fsum_append, ← fsum_perm hp, fsum_cons]
    simp [fsum]; omega
  · intro c
    rw [h.pu c, fsum_append, ← fsum_perm hp, fsum_cons]
    simp [fsum]; omega

/-- A promise of no interest to the registry is answered. -/
theorem RegOk.drop {lt ut dl ul data fl fl' dead} {f : Flight} (h : RegOk lt ut dl ul data fl dead)
    (hp : (f :: fl').Perm fl) (hf : (∀ c, delegAmt c f = 0) ∧ (∀ c, undelegAmt c f = 0) ∧ (∀ c, isWl c f = false)) :
    RegOk lt ut dl ul data fl' dead := by
  have hmem : ∀ x, x ∈ fl' → x ∈ fl := fun x hx => hp.subset (List.mem_cons_of_mem _ hx)
  obtain ⟨h1, h2, h3⟩ := hf
  refine ⟨h.tok, h.nd1, h.nd2, h.same, h.recd, ?_, ?_, h.zero, ?_, ?_, ?_, ?_, ?_⟩
  · intro c
    have := h.wl1 c
    rw [← hp.countP_eq, List.countP_cons] at this
    omega
  · intro c v u hm; exact h.wl2 c v u (hmem _ hm)
  · intro c hc
    rcases h.life c hc with h' | ⟨v, u, h'⟩
    · exact .inl h'
    · refine .inr ⟨v, u, ?_⟩
      rcases h' with h' | h'
      · have := hp.symm.subset h'
        rcases List.mem_cons.1 this with rfl | h''
        · have := h3 c; simp [isWl] at this
        · exact .inl h''
      · exact .inr h'
  · intro c a hm; exact h.flt c a (hm.imp (hmem _) (hmem _))
  · intro c a hm; exact h.pos c a (hm.imp (hmem _) (hmem _))
  · intro c
    rw [h.ps c, ← fsum_perm hp, fsum_cons, h1 c]; omega
  · intro c
    rw [h.pu c, ← fsum_perm hp, fsum_cons, h2 c]; omega

/-- The answer to a delegation or undelegation, booked in the record of a listed provider. -/
theorem RegOk.settle {lt ut dl ul data fl fl' dead} {f : Flight} (h : RegOk lt ut dl ul data fl dead)
    (hp : (f :: fl').Perm fl) {p : Addr} {d d' : ProviderData} (hd : data.get none p = some d) (hin : p ∈ dl)
    (hwl : ∀ c, isWl c f = false)
    (h1 : ∀ c, c ≠ p → delegAmt c f = 0 ∧ undelegAmt c f = 0)
    (h2 : d'.pStake + delegAmt p f = d.pStake) (h3 : d'.pUnstake + undelegAmt p f = d.pUnstake) :
    RegOk lt ut dl ul (data.set p (some d')) fl' dead := by
  have hmem : ∀ x, x ∈ fl' → x ∈ fl := fun x hx => hp.subset (List.mem_cons_of_mem _ hx)
  have hn : ∀ c, (data.set p (some d')).get none c ≠ none ↔ data.get none c ≠ none := by
    intro c; rw [Map.get_set]; by_cases hc : p = c
    · subst hc; simp [hd]
    · simp [hc]
  refine ⟨h.tok, h.nd1, h.nd2, h.same, ?_, ?_, ?_, ?_, ?_, ?_, ?_, ?_, ?_⟩
  · intro a ha; rw [hn]; exact h.recd a ha
  · intro c
    have := h.wl1 c
    rw [← hp.countP_eq, List.countP_cons] at this
    omega
  · intro c v u hm; rw [hn]; exact h.wl2 c v u (hmem _ hm)
  · intro c x hx hc
    rw [Map.get_set] at hx
    by_cases hpc : p = c
    · subst hpc; exact absurd hin hc
    · simp only [hpc, if_false] at hx; exact h.zero c x hx hc
  · intro c hc
    rw [hn] at hc
    rcases h.life c hc with h' | ⟨v, u, h'⟩
    · exact .inl h'
    · refine .inr ⟨v, u, ?_⟩
      rcases h' with h' | h'
      · have := hp.symm.subset h'
        rcases List.mem_cons.1 this with rfl | h''
        · have := hwl c; simp [isWl] at this
        · exact .inl h''
      · exact .inr h'
  · intro c a hm; exact h.flt c a (hm.imp (hmem _) (hmem _))
  · intro c a hm; exact h.pos c a (hm.imp (hmem _) (hmem _))
  · intro c
    have := h.ps c
    rw [← fsum_perm hp, fsum_cons] at this
    rw [recOf_set]; split
    · next hpc => subst hpc; simp only [recOf, hd, Option.elim] at this ⊢; omega
    · next hpc => rw [(h1 c (Ne.symm hpc)).1] at this; omega
  · intro c
    have := h.pu c
    rw [← fsum_perm hp, fsum_cons] at this
    rw [recOf_set]; split
    · next hpc => subst hpc; simp only [recOf, hd, Option.elim] at this ⊢; omega
    · next hpc => rw [(h1 c (Ne.symm hpc)).2] at this; omega

theorem regInv_delegatePending {w w' : World} {c : Addr} {o : Option Nat} (h : RegInv w)
    (hs : delegatePending w c o = .ok w') : RegInv w' := by
  obtain ⟨_, _, _, t, amt, sels, left, E, D, ht, _, _, g3, g4, _, _, e3, _, _, rfl⟩ := delegatePending_ok hs
  have hin : ∀ s ∈ sels, s.address ∈ w.st.delegList := fun s hs => g3.subset (List.mem_map_of_mem hs)
  have hn : ∀ c, D.get none c ≠ none ↔ w.st.data.get none c ≠ none := by
    intro c; rw [e3 c]; cases w.st.data.get none c <;> simp
  have h0 : RegOk w.st.lsToken w.st.unstakeToken w.st.delegList w.st.undelegList w.st.data w.flights w.dead := h
  show RegOk w.st.lsToken w.st.unstakeToken (sels.foldl (fun l s => moveToBack l s.address) w.st.delegList)
    w.st.undelegList D (w.flights ++ sels.map (fun s => Flight.delegate s.address s.amount)) w.dead
  have hnew : ∀ f ∈ sels.map (fun s => Flight.delegate s.address s.amount), ∃ s ∈ sels, f = .delegate s.address s.amount := by
    intro f hf; obtain ⟨s, hs, rfl⟩ := List.mem_map.1 hf; exact ⟨s, hs, rfl⟩
  refine ⟨h0.tok, nodup_foldMove h0.nd1, h0.nd2, ?_, ?_, ?_, ?_, ?_, ?_, ?_, ?_, ?_, ?_⟩
  · intro a; rw [mem_foldMove hin]; exact h0.same a
  · intro a ha; rw [mem_foldMove hin] at ha; rw [hn]; exact h0.recd a ha
  · intro c
    rw [List.countP_append, countP_zero (l := sels.map _)]
    · exact h0.wl1 c
    · intro v u hm; obtain ⟨s, _, hs⟩ := hnew _ hm; cases hs
  · intro c v u hm
    rw [mem_foldMove hin, hn]
    rcases List.mem_append.1 hm with hm | hm
    · exact h0.wl2 c v u hm
    · obtain ⟨s, _, hs⟩ := hnew _ hm; cases hs
  · intro c d hd hc
    rw [mem_foldMove hin] at hc
    rw [e3 c] at hd
    cases hx : w.st.data.get none c with
    | none => rw [hx] at hd; simp at hd
    | some x =>
      rw [hx] at hd
      simp only [Option.map_some, Option.some.injEq] at hd
      have hz := h0.zero c x hx hc
      have : selAt c sels = 0 := selAt_eq_zero (fun hm => hc (g3.subset hm))
      subst hd
      simp [this, hz]
  · intro c hc
    rw [hn] at hc
    rw [mem_foldMove hin]
    rcases h0.life c hc with h' | ⟨v, u, h'⟩
    · exact .inl h'
    · exact .inr ⟨v, u, h'.imp (fun x => List.mem_append_left _ x) id⟩
  · intro c a hm
    rw [mem_foldMove hin]
    rcases hm with hm | hm <;> rcases List.mem_append.1 hm with hm | hm
    · exact h0.flt c a (.inl hm)
    · obtain ⟨s, hs, he⟩ := hnew _ hm
      simp only [Flight.delegate.injEq] at he
      rw [he.1]; exact hin s hs
    · exact h0.flt c a (.inr hm)
    · obtain ⟨s, hs, he⟩ := hnew _ hm; cases he
  · intro c a hm
    rcases hm with hm | hm <;> rcases List.mem_append.1 hm with hm | hm
    · exact h0.pos c a (.inl hm)
    · obtain ⟨s, hs, he⟩ := hnew _ hm
      simp only [Flight.delegate.injEq] at he
      obtain ⟨d, _, _, hmin, _⟩ := g4 s hs
      rw [he.2]; exact hmin
    · exact h0.pos c a (.inr hm)
    · obtain ⟨s, hs, he⟩ := hnew _ hm; cases he
  · intro c
    rw [fsum_append, fsum_delegSels]
    have := h0.ps c
    unfold recOf at this ⊢
    rw [e3 c]
    cases hx : w.st.data.get none c with
    | none =>
      rw [hx] at this
      have h2 : selAt c sels = 0 := selAt_eq_zero (fun hm => h0.recd c (g3.subset hm) hx)
      simp at this ⊢; omega
    | some x => rw [hx] at this; simp at this ⊢; omega
  · intro c
    rw [fsum_append, fsum_zero (l := sels.map _)]
    · have := h0.pu c
      unfold recOf at this ⊢
      rw [e3 c]
      cases hx : w.st.data.get none c with
      | none => rw [hx] at this; simp at this ⊢; omega
      | some x => rw [hx] at this; simp at this ⊢; omega
    · intro f hf; obtain ⟨s, _, rfl⟩ := hnew f hf; rfl

theorem regInv_unDelegatePending {w w' : World} {c : Addr} {o : Option Nat} (h : RegInv w)
    (hs : unDelegatePending w c o = .ok w') : RegInv w' := by
  obtain ⟨_, _, _, t, amt, sels, left, E, D, ht, _, _, g3, g4, _, e3, _, _, rfl⟩ := unDelegatePending_ok hs
  have h0 : RegOk w.st.lsToken w.st.unstakeToken w.st.delegList w.st.undelegList w.st.data w.flights w.dead := h
  have hin : ∀ s ∈ sels, s.address ∈ w.st.undelegList := fun s hs => g3.subset (List.mem_map_of_mem hs)
  have hn : ∀ c, D.get none c ≠ none ↔ w.st.data.get none c ≠ none := by
    intro c; rw [e3 c]; cases w.st.data.get none c <;> simp
  show RegOk w.st.lsToken w.st.unstakeToken w.st.delegList
    (sels.foldl (fun l s => moveToBack l s.address) w.st.undelegList) D
    (w.flights ++ sels.map (fun s => Flight.undelegate s.address s.amount)) w.dead
  have hnew : ∀ f ∈ sels.map (fun s => Flight.undelegate s.address s.amount), ∃ s ∈ sels, f = .undelegate s.address s.amount := by
    intro f hf; obtain ⟨s, hs, rfl⟩ := List.mem_map.1 hf; exact ⟨s, hs, rfl⟩
  refine ⟨h0.tok, h0.nd1, nodup_foldMove h0.nd2, ?_, ?_, ?_, ?_, ?_, ?_, ?_, ?_, ?_, ?_⟩
  · intro a; rw [mem_foldMove hin]; exact h0.same a
  · intro a ha; rw [hn]; exact h0.recd a ha
  · intro c
    rw [List.countP_append, countP_zero (l := sels.map _)]
    · exact h0.wl1 c
    · intro v u hm; obtain ⟨s, _, hs⟩ := hnew _ hm; cases hs
  · intro c v u hm
    rw [hn]
    rcases List.mem_append.1 hm with hm | hm
    · exact h0.wl2 c v u hm
    · obtain ⟨s, _, hs⟩ := hnew _ hm; cases hs
  · intro c d hd hc
    rw [e3 c] at hd
    cases hx : w.st.data.get none c with
    | none => rw [hx] at hd; simp at hd
    | some x =>
      rw [hx] at hd
      simp only [Option.map_some, Option.some.injEq] at hd
      have hz := h0.zero c x hx hc
      have : selAt c sels = 0 := selAt_eq_zero (fun hm => hc ((h0.same c).2 (g3.subset hm)))
      subst hd
      simp [this, hz]
  · intro c hc
    rw [hn] at hc
    rcases h0.life c hc with h' | ⟨v, u, h'⟩
    · exact .inl h'
    · exact .inr ⟨v, u, h'.imp (fun x => List.mem_append_left _ x) id⟩
  · intro c a hm
    rcases hm with hm | hm <;> rcases List.mem_append.1 hm with hm | hm
    · exact h0.flt c a (.inl hm)
    · obtain ⟨s, hs, he⟩ := hnew _ hm; cases he
    · exact h0.flt c a (.inr hm)
    · obtain ⟨s, hs, he⟩ := hnew _ hm
      simp only [Flight.undelegate.injEq] at he
      rw [he.1]; exact (h0.same _).2 (hin s hs)
  · intro c a hm
    rcases hm with hm | hm <;> rcases List.mem_append.1 hm with hm | hm
    · exact h0.pos c a (.inl hm)
    · obtain ⟨s, hs, he⟩ := hnew _ hm; cases he
    · exact h0.pos c a (.inr hm)
    · obtain ⟨s, hs, he⟩ := hnew _ hm
      simp only [Flight.undelegate.injEq] at he
      obtain ⟨d, _, hmin, _⟩ := g4 s hs
      rw [he.2]; exact hmin
  · intro c
    rw [fsum_append, fsum_zero (l := sels.map _)]
    · have := h0.ps c
      unfold recOf at this ⊢
      rw [e3 c]
      cases hx : w.st.data.get none c with
      | none => rw [hx] at this; simp at this ⊢; omega
      | some x => rw [hx] at this; simp at this ⊢; omega
    · intro f hf; obtain ⟨s, _, rfl⟩ := hnew f hf; rfl
  · intro c
    rw [fsum_append, fsum_undelegSels]
    have := h0.pu c
    unfold recOf at this ⊢
    rw [e3 c]
    cases hx : w.st.data.get none c with
    | none =>
      rw [hx] at this
      have h2 : selAt c sels = 0 := selAt_eq_zero (fun hm => h0.recd c ((h0.same c).2 (g3.subset hm)) hx)
      simp at this ⊢; omega
    | some x => rw [hx] at this; simp at this ⊢; omega

theorem regInv_whitelist {w w' : World} {caller : Addr} {v : Nat} {p admin : Addr} {ts cap : Nat} {nn apy : UInt64}
    (h : RegInv w) (hs : whitelist w caller v p admin ts cap nn apy = .ok w') : RegInv w' := by
  obtain ⟨_, _, _, _, hnone, _, hv, _, E, _, _, _, rfl⟩ := whitelist_ok hs
  have h0 : RegOk w.st.lsToken w.st.unstakeToken w.st.delegList w.st.undelegList w.st.data w.flights w.dead := h
  show RegOk w.st.lsToken w.st.unstakeToken w.st.delegList w.st.undelegList
    (w.st.data.set p (some ⟨admin, ts, cap, nn, apy, 0, 0, true, 0, 0⟩)) (w.flights ++ [.whitelist p v caller]) w.dead
  have hpn : p ∉ w.st.delegList := fun hp => h0.recd p hp hnone
  refine ⟨h0.tok, h0.nd1, h0.nd2, h0.same, ?_, ?_, ?_, ?_, ?_, ?_, ?_, ?_, ?_⟩
  · intro a ha; rw [Map.get_set]; split
    · simp
    · exact h0.recd a ha
  · intro c
    rw [List.countP_append]
    by_cases hc : p = c
    · subst hc
      rw [countP_zero (fun v u hm => (h0.wl2 p v u hm).2 hnone)]
      simp [isWl]
    · simp [isWl, hc]; exact h0.wl1 c
  · intro c v' u hm
    rcases List.mem_append.1 hm with hm | hm
    · obtain ⟨h1, h2⟩ := h0.wl2 c v' u hm
      refine ⟨h1, ?_⟩
      rw [Map.get_set]; split
      · simp
      · exact h2
    · simp only [List.mem_singleton, Flight.whitelist.injEq] at hm
      obtain ⟨rfl, _, _⟩ := hm
      exact ⟨hpn, by simp [Map.get_set]⟩
  · intro c d hd hc
    rw [Map.get_set] at hd
    split at hd
    · simp only [Option.some.injEq] at hd; subst hd; simp
    · exact h0.zero c d hd hc
  · intro c hc
    rw [Map.get_set] at hc
    split at hc
    · next hpc => subst hpc; exact .inr ⟨v, caller, .inl (by simp)⟩
    · rcases h0.life c hc with h' | ⟨v, u, h'⟩
      · exact .inl h'
      · exact .inr ⟨v, u, h'.imp (fun x => List.mem_append_left _ x) id⟩
  · intro c a hm
    apply h0.flt c a
    rcases hm with hm | hm <;> rcases List.mem_append.1 hm with hm | hm
    · exact .inl hm
    · simp at hm
    · exact .inr hm
    · simp at hm
  · intro c a hm
    apply h0.pos c a
    rcases hm with hm | hm <;> rcases List.mem_append.1 hm with hm | hm
    · exact .inl hm
    · simp at hm
    · exact .inr hm
    · simp at hm
  · intro c
    have := h0.ps c
    rw [fsum_append, recOf_set]
    split
    · next hpc => subst hpc; simp only [recOf, hnone, Option.elim] at this ⊢; simp [fsum, delegAmt] at this ⊢; omega
    · rw [this]; simp [fsum, delegAmt]
  · intro c
    have := h0.pu c
    rw [fsum_append, recOf_set]
    split
    · next hpc => subst hpc; simp only [recOf, hnone, Option.elim] at this ⊢; simp [fsum, undelegAmt] at this ⊢; omega
    · rw [this]; simp [fsum, undelegAmt]

theorem regInv_whitelistOk {lt ut dl ul data fl fl' dead} {p : Addr} {v : Nat} {u : Addr} {d : ProviderData}
    (h : RegOk lt ut dl ul data fl dead) (hp : (.whitelist p v u :: fl').Perm fl) (hd : data.get none p = some d) :
    RegOk lt ut (setInsert dl p) (setInsert ul p) (data.set p (some { d with staked := d.staked + v })) fl' dead := by
  have hmem : ∀ x, x ∈ fl' → x ∈ fl := fun x hx => hp.subset (List.mem_cons_of_mem _ hx)
  have hn : ∀ c, (data.set p (some { d with staked := d.staked + v })).get none c ≠ none ↔ data.get none c ≠ none := by
    intro c; rw [Map.get_set]; by_cases hc : p = c
    · subst hc; simp [hd]
    · simp [hc]
  have hcnt : ∀ v' u', Flight.whitelist p v' u' ∉ fl' := by
    intro v' u' hm
    have := h.wl1 p
    rw [← hp.countP_eq, List.countP_cons] at this
    have h2 : 0 < fl'.countP (isWl p) := List.countP_pos_iff.2 ⟨_, hm, by simp [isWl]⟩
    rw [if_pos (by simp [isWl])] at this
    omega
  refine ⟨h.tok, nodup_setInsert h.nd1, nodup_setInsert h.nd2, ?_, ?_, ?_, ?_, ?_, ?_, ?_, ?_, ?_, ?_⟩
  · intro a; rw [mem_setInsert, mem_setInsert, h.same a]
  · intro a ha
    rw [hn]
    rcases mem_setInsert.1 ha with ha | rfl
    · exact h.recd a ha
    · simp [hd]
  · intro c
    have := h.wl1 c
    rw [← hp.countP_eq, List.countP_cons] at this
    omega
  · intro c v' u' hm
    rw [hn, mem_setInsert]
    obtain ⟨h1, h2⟩ := h.wl2 c v' u' (hmem _ hm)
    refine ⟨?_, h2⟩
    rintro (h3 | rfl)
    · exact h1 h3
    · exact hcnt _ _ hm
  · intro c x hx hc
    rw [mem_setInsert, not_or] at hc
    rw [Map.get_set, if_neg (Ne.symm hc.2)] at hx
    exact h.zero c x hx hc.1
  · intro c hc
    rw [hn] at hc
    rw [mem_setInsert]
    rcases h.life c hc with h' | ⟨v', u', h'⟩
    · exact .inl (.inl h')
    · rcases h' with h' | h'
      · have := hp.symm.subset h'
        rcases List.mem_cons.1 this with h'' | h''
        · simp only [Flight.whitelist.injEq] at h''; exact .inl (.inr h''.1)
        · exact .inr ⟨v', u', .inl h''⟩
      · exact .inr ⟨v', u', .inr h'⟩
  · intro c a hm; rw [mem_setInsert]; exact .inl (h.flt c a (hm.imp (hmem _) (hmem _)))
  · intro c a hm; exact h.pos c a (hm.imp (hmem _) (hmem _))
  · intro c
    have := h.ps c
    rw [← fsum_perm hp, fsum_cons] at this
    rw [recOf_set]; split
    · next hpc => subst hpc; simp only [recOf, hd, Option.elim, delegAmt] at this ⊢; omega
    · simp only [delegAmt] at this ⊢; omega
  · intro c
    have := h.pu c
    rw [← fsum_perm hp, fsum_cons] at this
    rw [recOf_set]; split
    · next hpc => subst hpc; simp only [recOf, hd, Option.elim, undelegAmt] at this ⊢; omega
    · simp only [undelegAmt] at this ⊢; omega

theorem regInv_whitelistErr {lt ut dl ul data fl fl' dead} {p : Addr} {v : Nat} {u : Addr}
    (h : RegOk lt ut dl ul data fl dead) (hp : (.whitelist p v u :: fl').Perm fl) :
    RegOk lt ut dl ul (data.set p none) fl' dead := by
  have hmem : ∀ x, x ∈ fl' → x ∈ fl := fun x hx => hp.subset (List.mem_cons_of_mem _ hx)
  obtain ⟨hpn, hpd⟩ := h.wl2 p v u (hp.subset (by simp))
  have hcnt : ∀ v' u', Flight.whitelist p v' u' ∉ fl' := by
    intro v' u' hm
    have := h.wl1 p
    rw [← hp.countP_eq, List.countP_cons] at this
    have h2 : 0 < fl'.countP (isWl p) := List.countP_pos_iff.2 ⟨_, hm, by simp [isWl]⟩
    rw [if_pos (by simp [isWl])] at this
    omega
  cases hd : data.get none p with
  | none => exact absurd hd hpd
  | some d =>
    obtain ⟨z1, z2, z3, z4⟩ := h.zero p d hd hpn
    refine ⟨h.tok, h.nd1, h.nd2, h.same, ?_, ?_, ?_, ?_, ?_, ?_, ?_, ?_, ?_⟩
    · intro a ha
      rw [Map.get_set, if_neg (by rintro rfl; exact hpn ha)]
      exact h.recd a ha
    · intro c
      have := h.wl1 c
      rw [← hp.countP_eq, List.countP_cons] at this
      omega
    · intro c v' u' hm
      obtain ⟨h1, h2⟩ := h.wl2 c v' u' (hmem _ hm)
      refine ⟨h1, ?_⟩
      rw [Map.get_set, if_neg (by rintro rfl; exact hcnt _ _ hm)]
      exact h2
    · intro c x hx hc
      rw [Map.get_set] at hx
      split at hx
      · simp at hx
      · exact h.zero c x hx hc
    · intro c hc
      rw [Map.get_set] at hc
      split at hc
      · simp at hc
      · next hpc =>
        rcases h.life c hc with h' | ⟨v', u', h'⟩
        · exact .inl h'
        · rcases h' with h' | h'
          · have := hp.symm.subset h'
            rcases List.mem_cons.1 this with h'' | h''
            · simp only [Flight.whitelist.injEq] at h''; exact absurd h''.1.symm hpc
            · exact .inr ⟨v', u', .inl h''⟩
          · exact .inr ⟨v', u', .inr h'⟩
    · intro c a hm; exact h.flt c a (hm.imp (hmem _) (hmem _))
    · intro c a hm; exact h.pos c a (hm.imp (hmem _) (hmem _))
    · intro c
      have := h.ps c
      rw [← fsum_perm hp, fsum_cons] at this
      rw [recOf_set]; split
      · next hpc => subst hpc; simp only [recOf, hd, Option.elim, delegAmt] at this ⊢; omega
      · simp only [delegAmt] at this ⊢; omega
    · intro c
      have := h.pu c
      rw [← fsum_perm hp, fsum_cons] at this
      rw [recOf_set]; split
      · next hpc => subst hpc; simp only [recOf, hd, Option.elim, undelegAmt] at this ⊢; omega
      · simp only [undelegAmt] at this ⊢; omega

theorem regInv_deliver {w w' : World} {i : Nat} {o : Outcome} (h : RegInv w) (hs : deliver w i o = .ok w') : RegInv w' := by
  obtain ⟨f, hf, hcb⟩ := deliver_ok hs
  have hp := eraseIdx_perm hf
  have h0 : RegOk w.st.lsToken w.st.unstakeToken w.st.delegList w.st.undelegList w.st.data w.flights w.dead := h
  have hmem : f ∈ w.flights := hp.subset (by simp)
  rcases hcb with hcb | ⟨_, rfl⟩
  swap
  · exact h0.die hp
  cases f with
  | delegate p a =>
    have hin := h0.flt p a (.inl hmem)
    cases o with
    | ok e r =>
      obtain ⟨_, d, h1, h2, rfl⟩ := addLiquidityCb_true_ok.1 hcb
      exact h0.settle hp h1 hin (by simp [isWl]) (by intro c hc; simp [delegAmt, undelegAmt, Ne.symm hc])
        (by simp [delegAmt]; omega) (by simp [undelegAmt])
    | err =>
      obtain ⟨t, d, _, h1, h2, rfl⟩ := addLiquidityCb_false_ok.1 hcb
      exact h0.settle hp h1 hin (by simp [isWl]) (by intro c hc; simp [delegAmt, undelegAmt, Ne.symm hc])
        (by simp [delegAmt]; omega) (by simp [undelegAmt])
  | undelegate p a =>
    have hin := h0.flt p a (.inr hmem)
    cases o with
    | ok e r =>
      obtain ⟨t, d, _, h1, h2, h3, rfl⟩ := removeLiquidityCb_true_ok.1 hcb
      exact h0.settle hp h1 hin (by simp [isWl]) (by intro c hc; simp [delegAmt, undelegAmt, Ne.symm hc])
        (by simp [delegAmt]) (by simp [undelegAmt]; omega)
    | err =>
      obtain ⟨t, d, _, h1, h2, rfl⟩ := removeLiquidityCb_false_ok.1 hcb
      exact h0.settle hp h1 hin (by simp [isWl]) (by intro c hc; simp [delegAmt, undelegAmt, Ne.symm hc])
        (by simp [delegAmt]) (by simp [undelegAmt]; omega)
  | withdraw p =>
    have key : ∀ v, withdrawTokensCb (arrive w i (.withdraw p) o) p v = .ok w' → RegInv w' := by
      intro v hv
      rcases withdrawTokensCb_ok.1 hv with ⟨_, rfl⟩ | ⟨hpos, t, d, _, h1, h2, _, rfl⟩
      · exact h0.drop hp ⟨fun _ => rfl, fun _ => rfl, fun _ => rfl⟩
      · by_cases hin : p ∈ w.st.delegList
        · exact h0.settle hp h1 hin (by simp [isWl]) (by intro c hc; simp [delegAmt, undelegAmt])
            (by simp [delegAmt]) (by simp [undelegAmt])
        · have := h0.zero p d h1 hin
          omega
    cases o with
    | ok e r => exact key _ hcb
    | err => exact key _ hcb
  | claim ps =>
    cases o with
    | ok e r =>
      rcases claimRewardsCb_ok.1 hcb with ⟨_, rfl⟩ | ⟨_, t, fee, _, _, _, rfl⟩
      · exact h0.drop hp ⟨fun _ => rfl, fun _ => rfl, fun _ => rfl⟩
      · exact h0.drop hp ⟨fun _ => rfl, fun _ => rfl, fun _ => rfl⟩
    | err =>
      simp only [runCallback, claimRewardsCb, Except.ok.injEq] at hcb
      subst hcb
      exact h0.drop hp ⟨fun _ => rfl, fun _ => rfl, fun _ => rfl⟩
  | whitelist p a u =>
    cases o with
    | ok e r =>
      obtain ⟨t, d, l, _, h1, _, rfl⟩ := whitelistCb_true_ok.1 hcb
      exact regInv_whitelistOk h0 hp h1
    | err =>
      obtain ⟨_, m, _, rfl⟩ := whitelistCb_false_ok.1 hcb
      exact regInv_whitelistErr h0 hp

theorem unDelegate_frame {w w' : World} {caller : Addr} {v : Nat} {ps : List Payment}
    (h : unDelegate w caller v ps = .ok w') :
    ∃ r E L N A ln un ev, w' = { w with
      st := { w.st with r := r, unstakeNonce := un }, egld := E, ls := L, nft := N, attrs := A, lastNonce := ln, events := ev } := by
  obtain ⟨_, _, _, amount, t, m0, m1, m2, e, i, u, w1, w2, _, _, _, _, _, _, _, _, _, _, _, hi, hu, rfl⟩ := unDelegate_ok h
  have hw1 : ∃ E L, w1 = { w with egld := E, ls := L } := by
    rcases hi with ⟨_, rfl⟩ | ⟨_, m, _, rfl⟩
    · exact ⟨_, _, rfl⟩
    · exact ⟨_, _, rfl⟩
  obtain ⟨E, L, rfl⟩ := hw1
  rcases hu with ⟨_, rfl⟩ | ⟨_, _, _, w3, n, m, hM, _, rfl⟩
  · exact ⟨_, _, _, _, _, _, _, _, rfl⟩
  · cases hM with
    | topUp n hn h0 hb => exact ⟨_, _, _, _, _, _, _, _, rfl⟩
    | fresh h0 hc => exact ⟨_, _, _, _, _, _, _, _, rfl⟩
    | freshClean a' h0 hl ha hlt hb => exact ⟨_, _, _, _, _, _, _, _, rfl⟩

theorem regInv_step {w w' : World} (op : Op) (h : RegInv w) (hs : step w op = .ok w') : RegInv w' := by
  have h0 : RegOk w.st.lsToken w.st.unstakeToken w.st.delegList w.st.undelegList w.st.data w.flights w.dead := h
  cases op with
  | delegate c v =>
    obtain ⟨_, _, _, m, t, p, e, l, _, _, _, _, _, _, rfl⟩ := delegate_ok.1 hs
    exact h0
  | unDelegate c v ps =>
    obtain ⟨r, E, L, N, A, ln, un, ev, rfl⟩ := unDelegate_frame hs
    exact h0
  | withdraw c v ps =>
    obtain ⟨_, _, _, uid, t, m0, m, E, N, _, _, _, _, _, _, _, _, _, _, _, rfl⟩ := withdraw_ok h0.tok hs
    exact h0
  | upgrade => simp only [step, Except.ok.injEq] at hs; subst hs; exact h
  | delegatePending c a => exact regInv_delegatePending h hs
  | unDelegatePending c a => exact regInv_unDelegatePending h hs
  | withdrawPending c p =>
    obtain ⟨_, _, _, _, _, E, _, rfl⟩ := withdrawPending_ok hs
    exact h0.addNeutral _ ⟨fun _ => rfl, fun _ => rfl, fun _ => rfl⟩ (by simp)
  | claimRewards c =>
    obtain ⟨_, _, _, _, _, E, _, rfl⟩ := claimRewards_ok hs
    exact h0.addNeutral _ ⟨fun _ => rfl, fun _ => rfl, fun _ => rfl⟩ (by simp)
  | claimFees c a =>
    obtain ⟨_, _, _, _, _, m, _, rfl⟩ := claimFees_ok hs
    exact h0
  | whitelist c v p ad ts cap n apy => exact regInv_whitelist h hs
  | changeAdmin c p a =>
    obtain ⟨_, _, d, hd, rfl⟩ := changeAdmin_ok.1 hs
    exact h0.describe hd ⟨rfl, rfl, rfl, rfl⟩
  | changeParams c p ts cap n apy e =>
    obtain ⟨_, _, d, hd, _, rfl⟩ := changeParams_ok.1 hs
    exact h0.describe hd ⟨rfl, rfl, rfl, rfl⟩
  | migrate c v o =>
    obtain ⟨_, _, _, _, t, l, _, _, rfl⟩ := migrate_ok.1 hs
    exact h0
  | migratePending c v =>
    obtain ⟨_, _, _, _, t, m, _, _, rfl⟩ := migratePending_ok.1 hs
    exact h0
  | addRewards c v =>
    obtain ⟨_, t, m, _, _, rfl⟩ := addRewards_ok.1 hs
    exact h0
  | setMigrationSc c a =>
    obtain ⟨_, _, _, rfl⟩ := setMigrationSc_ok.1 hs
    exact h0
  | registerLsToken c v =>
    obtain ⟨_, _, _, _, m, _, rfl⟩ := registerLsToken_ok.1 hs
    exact h0
  | registerUnstakeToken c v =>
    obtain ⟨_, _, _, _, m, _, rfl⟩ := registerUnstakeToken_ok.1 hs
    exact h0
  | issued i o =>
    obtain ⟨⟨k, u, v⟩, E, _, ho, _, rfl⟩ := issued_ok.1 hs
    cases k
    · refine ⟨?_, h0.nd1, h0.nd2, h0.same, h0.recd,
        h0.wl1, h0.wl2, h0.zero, h0.life, h0.flt, h0.pos, h0.ps, h0.pu⟩
      intro t ht
      change o = some t at ht
      subst ht
      exact ho.resolve_left (by simp)
    · refine ⟨?_, h0.nd1, h0.nd2, h0.same, h0.recd,
        h0.wl1, h0.wl2, h0.zero, h0.life, h0.flt, h0.pos, h0.ps, h0.pu⟩
      intro t ht hx
      change o = some t at hx
      subst hx
      exact ho.resolve_left (by simp) ht
  | owner c cmd =>
    obtain ⟨_, _, st, h1, rfl⟩ := ownerCmd_ok.1 hs
    obtain ⟨s, fr, acc, mr, ma, ms, ub, mg, rfl⟩ := applyOwnerCmd_ok h1
    exact h0
  | setScoringConfig c cfg =>
    obtain ⟨_, _, _, rfl⟩ := setScoringConfig_ok.1 hs
    exact h0
  | viewLsValue l =>
    simp only [step, bind_ok, Prod.exists, Except.ok.injEq] at hs
    obtain ⟨e, w1, h1, rfl⟩ := hs
    obtain ⟨_, _, rfl⟩ := viewLsValue_ok.1 h1
    exact h
  | viewEgldPosition l =>
    simp only [step, bind_ok, Prod.exists, Except.ok.injEq] at hs
    obtain ⟨e, w1, h1, rfl⟩ := hs
    obtain ⟨_, _, rfl⟩ := viewEgldPosition_ok.1 h1
    exact h
  | deliver i o => exact regInv_deliver h hs
  | transferLs s d v => obtain ⟨_, _, m, _, rfl⟩ := transferLs_ok.1 hs; exact h0
  | transferNft s d n v => obtain ⟨_, _, m, _, rfl⟩ := transferNft_ok.1 hs; exact h0
  | fund a v => obtain ⟨_, rfl⟩ := fund_ok.1 hs; exact h0
  | advance e => obtain ⟨_, rfl⟩ := advance_ok.1 hs; exact h0
  | changeOwner c d => obtain ⟨_, _, rfl⟩ := changeOwner_ok.1 hs; exact h0
  | transferEgld s d v => obtain ⟨_, _, m, hm, rfl⟩ := transferEgld_ok.1 hs; exact h0
  | giveEgld s v => obtain ⟨_, _, m, hm, rfl⟩ := giveEgld_ok.1 hs; exact h0
  | giveLs s v => obtain ⟨_, _, m, hm, rfl⟩ := giveLs_ok.1 hs; exact h0
  | giveUnstake s n v => obtain ⟨_, _, m, hm, rfl⟩ := giveUnstake_ok.1 hs; exact h0
  | burnLs a v => obtain ⟨_, m, hm, rfl⟩ := holderBurnLs_ok.1 hs; exact h0
  | burnUnstake a n v => obtain ⟨_, m, hm, rfl⟩ := holderBurnNft_ok.1 hs; exact h0
  | starve i o => obtain ⟨f, hf, rfl⟩ := starve_ok hs; exact h0.die (eraseIdx_perm hf)

theorem isInit_eq {w : World} (h : IsInit w) : ∃ self owner contracts epoch funds acc fees rpe mr ms ma ub,
    1 ≤ ms ∧ 1 ≤ ma ∧ w = {
    self := self, owner := owner, contracts := contracts, epoch := epoch,
    st := {
      state := .inactive, lsToken := none, lsPending := false, unstakeToken := none, unstakePending := false,
      r := { lsSupply := 0, reserve := 0, fees := 0, withdrawn := 0, pending := 0, toUnstake := 0, toUnbond := 0 },
      feeRate := fees, accumulator := acc, roundsPerEpoch := rpe, minimumRounds := mr,
      maxDelegationAddresses := ma, maxSelectedProviders := ms, unbondPeriod := ub,
      scoring := none, managers := [], migrationSc := none, delegList := [], undelegList := [], data := [],
      unstakeNonce := [] },
    egld := List.filter (fun e => decide (e.1 ≠ self)) funds, ls := [], nft := [], attrs := [], lastNonce := 0,
    flights := [], dead := [], issues := [], events := [], migratedVirtual := 0, migratedPending := 0,
    burntLs := 0, burntUnstake := 0 } := by
  obtain ⟨self, owner, contracts, epoch, funds, acc, fees, rpe, mr, ms, ma, ub, h⟩ := h
  unfold initWorld at h
  simp only [bind_ok, req_ok, exists_const, Except.ok.injEq] at h
  obtain ⟨h1, h2, rfl⟩ := h
  exact ⟨self, owner, contracts, epoch, funds, acc, fees, rpe, mr, ms, ma, ub, h1, h2, rfl⟩

theorem regInv_init {w : World} (h : IsInit w) : RegInv w := by
  obtain ⟨self, owner, contracts, epoch, funds, acc, fees, rpe, mr, ms, ma, ub, _, _, rfl⟩ := isInit_eq h
  show RegOk none none [] [] [] [] []
  refine ⟨?_, ?_, ?_, ?_, ?_, ?_, ?_, ?_, ?_, ?_, ?_, ?_, ?_⟩ <;> simp [Map.get, recOf, fsum]

/-- The registry invariant holds in every reachable world. -/
theorem reachable_regInv {w : World} (h : Reachable w) : RegInv w := by
  induction h with
  | init h => exact regInv_init h
  | step op _ hs ih => exact regInv_step op ih hs

end LS
