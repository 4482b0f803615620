import Verif.Spec.Parts
import Verif.Proofs.CallbackLemmas

/-! Every transaction changes only the parts it is for. -/

namespace LS
open Spec

/-- The parts that are the same because nothing was written, or that are listed. -/
macro "untouched" x:ident hx:ident : tactic =>
  `(tactic| (cases $x:ident <;> first
    | rfl | exact ⟨rfl, rfl⟩ | exact ⟨rfl, rfl, rfl⟩ | (refine absurd ?_ $hx; simp [touched]; done) | skip))

theorem data_set_map {β : Type} {m : Map Addr (Option ProviderData)} {p : Addr} {d d' : ProviderData} (g : ProviderData → β)
    (hd : m.get none p = some d) (h : g d' = g d) (q : Addr) :
    ((m.set p (some d')).get none q).map g = (m.get none q).map g := by
  rw [Map.get_set]
  split
  · next e => subst e; simp [hd, h]
  · rfl

theorem data_set_isSome {m : Map Addr (Option ProviderData)} {p : Addr} {d d' : ProviderData}
    (hd : m.get none p = some d) (q : Addr) :
    ((m.set p (some d')).get none q).isSome = (m.get none q).isSome := by
  rw [Map.get_set]
  split
  · next e => subst e; simp [hd]
  · rfl

theorem data_set_other {m : Map Addr (Option ProviderData)} {p q : Addr} (x : Option ProviderData) (h : q ≠ p) :
    (m.set p x).get none q = m.get none q := by
  rw [Map.get_set, if_neg (Ne.symm h)]

theorem figure_of_map {w w' : World} {f : ProviderData → Nat} {q : Addr}
    (h : (provider w' q).map f = (provider w q).map f) : figure f w' q = figure f w q := by
  unfold figure
  revert h
  cases provider w' q <;> cases provider w q <;> simp

theorem figure_of_eq {w w' : World} {f : ProviderData → Nat} {q : Addr}
    (h : provider w' q = provider w q) : figure f w' q = figure f w q := by
  unfold figure
  rw [h]

theorem get_moved {K : Type} [DecidableEq K] {m m' : Map K Nat} {c d a : K} {v u : Nat} (h : debit m c v = .ok m') (h1 : a ≠ c)
    (h2 : a ≠ d) : (credit m' d u).get 0 a = m.get 0 a := by
  rw [get_credit, if_neg (Ne.symm h2), get_debit h, if_neg (Ne.symm h1)]

theorem parts_delegate {w w' : World} {c : Addr} {v : Nat} (hs : delegate w c v = .ok w') (x : Part)
    (hx : x ∉ touched w (.delegate c v)) : Same w w' x := by
  obtain ⟨_, _, _, m, t, p, e, l, hm, ht, _, _, _, _, rfl⟩ := delegate_ok.1 hs
  untouched x hx
  · next a =>
    simp [touched] at hx
    exact get_moved hm hx.1 hx.2
  · next a =>
    simp [touched] at hx
    show (mintTo w.ls w.self c l).get 0 a = _
    rw [get_mintTo, if_neg (Ne.symm hx)]; rfl

theorem parts_withdraw {w w' : World} {c : Addr} {v : Nat} {ps : List Payment} (hr : RegInv w)
    (hs : withdraw w c v ps = .ok w') (x : Part) (hx : x ∉ touched w (.withdraw c v ps)) : Same w w' x := by
  have hr0 : RegOk w.st.lsToken w.st.unstakeToken w.st.delegList w.st.undelegList w.st.data w.flights w.dead := hr
  obtain ⟨hc, _, _, uid, t, m0, m, E, N, _, ht, hps, _, hm0, hm, rfl, n1, n2, n3, _, rfl⟩ := withdraw_ok hr0.tok hs
  untouched x hx
  · next a =>
    simp [touched] at hx
    show (credit m c _).get 0 a = _
    rw [get_moved hm hx.2 hx.1, get_moved hm0 hx.1 hx.2]; rfl
  · next n a =>
    simp [touched] at hx
    show N.get 0 (n, a) = w.nft.get 0 (n, a)
    by_cases h1 : a = w.self
    · subst h1; exact n2 n
    · by_cases h2 : a = c
      · subst h2
        have h0 : burnedAt n w.st.r.withdrawn ps = 0 := by
          have : ∀ (l : List Payment) (k : Nat), (∀ p ∈ l, p.nonce ≠ n) → burnedAt n k l = 0 := by
            intro l
            induction l with
            | nil => intro k _; rfl
            | cons p l ih =>
              intro k h
              simp only [burnedAt]
              rw [ih _ fun q hq => h q (List.mem_cons_of_mem _ hq), if_neg (h p List.mem_cons_self)]
          exact this ps _ fun p hp e => hx p hp e rfl
        have := n1 n
        omega
      · exact n3 n a h2 h1

theorem parts_delegatePending {w w' : World} {c : Addr} {o : Option Nat} (hs : delegatePending w c o = .ok w') (x : Part)
    (hx : x ∉ touched w (.delegatePending c o)) : Same w w' x := by
  obtain ⟨_, _, _, t, amt, sels, left, E, D, ht, _, _, hsub, _, e1, e2, e3, _, _, rfl⟩ := delegatePending_ok hs
  have hD : ∀ {β : Type} (g : ProviderData → β), (∀ d k, g { d with pStake := k } = g d) → ∀ q,
      (D.get none q).map g = (w.st.data.get none q).map g := by
    intro β g hg q
    rw [e3 q, Option.map_map]
    cases w.st.data.get none q <;> simp [hg]
  untouched x hx
  · next q =>
    show (D.get none q).isSome = _
    rw [e3 q, Option.isSome_map]; rfl
  · next q => exact hD (·.admin) (fun _ _ => rfl) q
  · next q => exact hD termsOf (fun _ _ => rfl) q
  · next q => exact hD (·.eligible) (fun _ _ => rfl) q
  · next q => exact figure_of_map (hD (·.staked) (fun _ _ => rfl) q)
  · next q => exact figure_of_map (hD (·.unstaked) (fun _ _ => rfl) q)
  · next q =>
    simp [touched] at hx
    have h0 : selAt q sels = 0 := selAt_eq_zero fun h => hx (hsub.subset h)
    refine figure_of_eq ?_
    show D.get none q = w.st.data.get none q
    rw [e3 q, h0]
    cases w.st.data.get none q <;> rfl
  · next q => exact figure_of_map (hD (·.pUnstake) (fun _ _ => rfl) q)
  · next a =>
    simp [touched] at hx
    exact e2 a hx

theorem parts_unDelegatePending {w w' : World} {c : Addr} {o : Option Nat} (hs : unDelegatePending w c o = .ok w') (x : Part)
    (hx : x ∉ touched w (.unDelegatePending c o)) : Same w w' x := by
  obtain ⟨_, _, _, t, amt, sels, left, E, D, ht, _, _, hsub, _, e1, e3, _, _, rfl⟩ := unDelegatePending_ok hs
  have hD : ∀ {β : Type} (g : ProviderData → β), (∀ d k, g { d with pUnstake := k } = g d) → ∀ q,
      (D.get none q).map g = (w.st.data.get none q).map g := by
    intro β g hg q
    rw [e3 q, Option.map_map]
    cases w.st.data.get none q <;> simp [hg]
  untouched x hx
  · next q =>
    show (D.get none q).isSome = _
    rw [e3 q, Option.isSome_map]; rfl
  · next q => exact hD (·.admin) (fun _ _ => rfl) q
  · next q => exact hD termsOf (fun _ _ => rfl) q
  · next q => exact hD (·.eligible) (fun _ _ => rfl) q
  · next q => exact figure_of_map (hD (·.staked) (fun _ _ => rfl) q)
  · next q => exact figure_of_map (hD (·.unstaked) (fun _ _ => rfl) q)
  · next q => exact figure_of_map (hD (·.pStake) (fun _ _ => rfl) q)
  · next q =>
    simp [touched] at hx
    have h0 : selAt q sels = 0 := selAt_eq_zero fun h => hx (hsub.subset h)
    refine figure_of_eq ?_
    show D.get none q = w.st.data.get none q
    rw [e3 q, h0]
    cases w.st.data.get none q <;> rfl
  · next a => exact e1 a

theorem parts_minted {w w' : World} {c : Addr} {u n : Nat} {m : Map (Nat × Addr) Nat} (hc : c ≠ w.self)
    (hM : MintedUnstake w ⟨w.epoch, w.epoch + w.st.unbondPeriod⟩ u (w.epoch + w.st.unbondPeriod) w.epoch w' n)
    (hm : debit w'.nft (n, w'.self) u = .ok m) (x : Part) (hx : x ∉ positionParts w c) :
    Same w { w' with nft := credit m (n, c) u } x := by
  cases hM with
  | topUp _ hn h0 hb =>
    simp only [positionParts, hn, ne_eq, h0, not_false_eq_true, if_true, List.mem_singleton] at hx
    cases x <;> first | rfl | exact ⟨rfl, rfl⟩ | exact ⟨rfl, rfl, rfl⟩ | skip
    next k a =>
    simp only [Part.unstakes.injEq, not_and] at hx
    show (credit m (n, c) u).get 0 (k, a) = w.nft.get 0 (k, a)
    rw [get_credit, if_neg (by simp only [Prod.mk.injEq]; rintro ⟨rfl, rfl⟩; exact hx rfl rfl), get_debit hm, get_credit]
    by_cases h : (n, w.self) = (k, a)
    · rw [if_pos h, if_pos h]; omega
    · rw [if_neg h, if_neg h]
  | fresh h0 hcl =>
    simp only [positionParts, h0, ne_eq, not_true, if_false, List.mem_append, List.mem_cons, not_or] at hx
    cases x <;> first | rfl | exact ⟨rfl, rfl⟩ | exact ⟨rfl, rfl, rfl⟩ | skip
    · next e =>
      have : e ≠ w.epoch + w.st.unbondPeriod := fun h => hx.1.2.2.2.2.2.1 (by rw [h])
      exact Map.get_set_other _ _ _ (Ne.symm this)
    · next k =>
      have : k ≠ w.lastNonce + 1 := fun h => hx.1.2.2.2.1 (by rw [h])
      exact Map.get_set_other _ _ _ (Ne.symm this)
    · simp at hx
    · next k a =>
      simp only [Part.unstakes.injEq] at hx
      show (credit m (w.lastNonce + 1, c) u).get 0 (k, a) = w.nft.get 0 (k, a)
      rw [get_credit, if_neg (by simp only [Prod.mk.injEq]; rintro ⟨rfl, rfl⟩; exact hx.1.1 ⟨rfl, rfl⟩), get_debit hm, get_credit,
        if_neg (by simp only [Prod.mk.injEq]; rintro ⟨rfl, rfl⟩; exact hx.1.2.1 ⟨rfl, rfl⟩),
        if_neg (by simp only [Prod.mk.injEq]; rintro ⟨rfl, rfl⟩; exact hx.1.2.1 ⟨rfl, rfl⟩)]
  | freshClean a' h0 hl ha hlt hb =>
    simp only [positionParts, h0, ne_eq, not_true, if_false, List.mem_append, List.mem_cons, not_or, maturityOf, ha,
      Option.map_some, Option.toList_some, List.map_cons, List.map_nil] at hx
    cases x <;> first | rfl | exact ⟨rfl, rfl⟩ | exact ⟨rfl, rfl, rfl⟩ | skip
    · next e =>
      have h1 : e ≠ w.epoch + w.st.unbondPeriod := fun h => hx.1.2.2.2.2.2.1 (by rw [h])
      have h2 : e ≠ a'.unbondEpoch := fun h => hx.2.1 (by rw [h])
      have : ((w.st.unstakeNonce.set (w.epoch + w.st.unbondPeriod) (w.lastNonce + 1)).set a'.unbondEpoch 0).get 0 e = _ :=
        Map.get_set_other _ _ _ (Ne.symm h2)
      exact this.trans (Map.get_set_other _ _ _ (Ne.symm h1))
    · next k =>
      have : k ≠ w.lastNonce + 1 := fun h => hx.1.2.2.2.1 (by rw [h])
      exact Map.get_set_other _ _ _ (Ne.symm this)
    · simp at hx
    · next k a =>
      simp only [Part.unstakes.injEq] at hx
      have h1 : ¬ (w.lastNonce + 1, w.self) = (k, a) := by
        simp only [Prod.mk.injEq]; rintro ⟨rfl, rfl⟩; exact hx.1.2.1 ⟨rfl, rfl⟩
      have h2 : ¬ (w.lastNonce, w.self) = (k, a) := by
        simp only [Prod.mk.injEq]; rintro ⟨rfl, rfl⟩; exact hx.1.2.2.1 ⟨rfl, rfl⟩
      show (credit m (w.lastNonce + 1, c) u).get 0 (k, a) = w.nft.get 0 (k, a)
      rw [get_credit, if_neg (by simp only [Prod.mk.injEq]; rintro ⟨rfl, rfl⟩; exact hx.1.1 ⟨rfl, rfl⟩), get_debit hm, if_neg h1,
        Map.get_set_other _ _ _ h2, get_credit, if_neg h1]

theorem parts_unDelegate {w w' : World} {c : Addr} {v : Nat} {ps : List Payment} (hs : unDelegate w c v ps = .ok w') (x : Part)
    (hx : x ∉ touched w (.unDelegate c v ps)) : Same w w' x := by
  obtain ⟨hc, _, _, amount, t, m0, m1, m2, e, i, u, w1, w2, _, ht, _, hm0, _, hm1, hm2, _, _, _, _, hi, hu, rfl⟩ := unDelegate_ok hs
  simp only [touched, List.mem_append, not_or] at hx
  obtain ⟨hx1, hx2⟩ := hx
  have hls : ∀ a, a ≠ c → m2.get 0 a = w.ls.get 0 a := by
    intro a ha
    rw [get_debit hm2, get_credit, get_debit hm1, if_neg (Ne.symm ha)]
    split <;> omega
  -- the instant payout
  have h1 : w1 = { w with egld := w1.egld, ls := m2 } ∧ ∀ a, a ≠ c → a ≠ w.self → w1.egld.get 0 a = w.egld.get 0 a := by
    rcases hi with ⟨_, rfl⟩ | ⟨_, m, hm, rfl⟩
    · exact ⟨rfl, fun a _ _ => hm0 a⟩
    · exact ⟨rfl, fun a ha hb => (get_moved hm hb ha).trans (hm0 a)⟩
  obtain ⟨h1, h1e⟩ := h1
  -- the position
  have h2 : ∀ y, y ∉ positionParts w c → Same w1 w2 y := by
    intro y hy
    rcases hu with ⟨_, rfl⟩ | ⟨_, _, _, w3, n, m, hM, hm, rfl⟩
    · cases y <;> first | rfl | exact ⟨rfl, rfl⟩ | exact ⟨rfl, rfl, rfl⟩
    · rw [h1] at hM
      rw [h1]
      exact parts_minted (w := { w with egld := w1.egld, ls := m2 }) hc hM hm y hy
  have h3 := h2 x hx2
  rw [h1] at h3
  cases x <;> first | exact h3 | rfl | (refine absurd ?_ hx1; simp; done) | skip
  · next a =>
    simp at hx1
    exact Eq.trans h3 (h1e a hx1.1 hx1.2)
  · next a =>
    simp at hx1
    exact Eq.trans h3 (hls a hx1)

theorem parts_whitelist {w w' : World} {c : Addr} {v : Nat} {p admin : Addr} {ts cap : Nat} {nn apy : UInt64}
    (hs : whitelist w c v p admin ts cap nn apy = .ok w') (x : Part)
    (hx : x ∉ touched w (.whitelist c v p admin ts cap nn apy)) : Same w w' x := by
  obtain ⟨_, _, _, _, hd, _, _, _, E, e1, e2, e3, rfl⟩ := whitelist_ok hs
  have hD : ∀ q, q ≠ p → (w.st.data.set p (some ⟨admin, ts, cap, nn, apy, 0, 0, true, 0, 0⟩)).get none q = w.st.data.get none q :=
    fun q hq => data_set_other _ hq
  have hF : ∀ (f : ProviderData → Nat) (q : Addr), f ⟨admin, ts, cap, nn, apy, 0, 0, true, 0, 0⟩ = 0 →
      figure f { w with
        egld := E, flights := w.flights ++ [.whitelist p v c],
        st := { w.st with data := w.st.data.set p (some ⟨admin, ts, cap, nn, apy, 0, 0, true, 0, 0⟩) } } q = figure f w q := by
    intro f q hf
    by_cases hq : q = p
    · subst hq
      unfold figure provider
      simp only [Map.get_set, if_true, hd, hf]
    · exact figure_of_eq (hD q hq)
  untouched x hx
  · next q => simp [touched] at hx; exact congrArg Option.isSome (hD q hx)
  · next q => simp [touched] at hx; exact congrArg (Option.map (·.admin)) (hD q hx)
  · next q => simp [touched] at hx; exact congrArg (Option.map termsOf) (hD q hx)
  · next q => simp [touched] at hx; exact congrArg (Option.map (·.eligible)) (hD q hx)
  · next q => exact hF _ q rfl
  · next q => exact hF _ q rfl
  · next q => exact hF _ q rfl
  · next q => exact hF _ q rfl
  · next a =>
    simp [touched] at hx
    by_cases h : a = w.self
    · subst h; exact e1
    · exact e3 a h hx

theorem parts_record {w : World} {p : Addr} {d d' : ProviderData} (hd : w.st.data.get none p = some d) (x : Part)
    (h1 : x ≠ .admin p ∨ d'.admin = d.admin) (h2 : x ≠ .terms p ∨ termsOf d' = termsOf d)
    (h3 : x ≠ .eligible p ∨ d'.eligible = d.eligible) (h4 : x ≠ .staked p ∨ d'.staked = d.staked)
    (h5 : x ≠ .unstaked p ∨ d'.unstaked = d.unstaked) (h6 : x ≠ .inFlightStake p ∨ d'.pStake = d.pStake)
    (h7 : x ≠ .inFlightUnstake p ∨ d'.pUnstake = d.pUnstake) :
    Same w { w with st := { w.st with data := w.st.data.set p (some d') } } x := by
  have key : ∀ {β : Type} (g : ProviderData → β) (q : Addr), q ≠ p ∨ g d' = g d →
      ((w.st.data.set p (some d')).get none q).map g = (w.st.data.get none q).map g := by
    intro β g q h
    rcases h with h | h
    · rw [data_set_other _ h]
    · exact data_set_map g hd h q
  cases x <;> first | rfl | exact ⟨rfl, rfl⟩ | exact ⟨rfl, rfl, rfl⟩ | skip
  · next q => exact data_set_isSome hd q
  · next q => exact key (·.admin) q (h1.imp_left fun h e => h (by rw [e]))
  · next q => exact key termsOf q (h2.imp_left fun h e => h (by rw [e]))
  · next q => exact key (·.eligible) q (h3.imp_left fun h e => h (by rw [e]))
  · next q => exact figure_of_map (key (·.staked) q (h4.imp_left fun h e => h (by rw [e])))
  · next q => exact figure_of_map (key (·.unstaked) q (h5.imp_left fun h e => h (by rw [e])))
  · next q => exact figure_of_map (key (·.pStake) q (h6.imp_left fun h e => h (by rw [e])))
  · next q => exact figure_of_map (key (·.pUnstake) q (h7.imp_left fun h e => h (by rw [e])))

theorem parts_owner {w w' : World} {c : Addr} {cmd : OwnerCmd} (hs : ownerCmd w c cmd = .ok w') (x : Part)
    (hx : x ∉ touched w (.owner c cmd)) : Same w w' x := by
  obtain ⟨_, _, st, h, rfl⟩ := ownerCmd_ok.1 hs
  simp only [touched, List.mem_singleton] at hx
  cases cmd <;> simp only [applyOwnerCmd, bind_ok, req_ok, exists_const, Except.ok.injEq] at h
  case maxAddresses =>
    obtain ⟨_, rfl⟩ := h
    cases x <;> first | rfl | exact ⟨rfl, rfl⟩ | exact ⟨rfl, rfl, rfl⟩ | exact absurd rfl hx
  case maxSelected =>
    obtain ⟨_, rfl⟩ := h
    cases x <;> first | rfl | exact ⟨rfl, rfl⟩ | exact ⟨rfl, rfl, rfl⟩ | exact absurd rfl hx
  all_goals
    subst h
    cases x <;> first | rfl | exact ⟨rfl, rfl⟩ | exact ⟨rfl, rfl, rfl⟩ | exact absurd rfl hx

theorem parts_issued {w w' : World} {i : Nat} {o : Option TokenId} (hs : issued w i o = .ok w') (x : Part)
    (hx : x ∉ touched w (.issued i o)) : Same w w' x := by
  obtain ⟨y, E, hy, _, hE, rfl⟩ := issued_ok.1 hs
  obtain ⟨k, c, v⟩ := y
  have hE' : ∀ a, (o = none → a ≠ c) → E.get 0 a = w.egld.get 0 a := by
    intro a ha
    cases o with
    | none =>
      simp only [if_true] at hE
      obtain ⟨m, hm, rfl⟩ := hE
      have := ha rfl
      rw [get_credit, if_neg (Ne.symm this), get_debit hm, get_credit]
      split <;> omega
    | some t => simp only [reduceCtorEq, if_false] at hE; rw [hE]
  cases k with
  | ls =>
    simp only [touched, hy, List.mem_append, List.mem_cons, not_or] at hx
    cases x <;> first | rfl | exact ⟨rfl, rfl⟩ | exact ⟨rfl, rfl, rfl⟩ | exact absurd rfl hx.1.1 | exact absurd rfl hx.1.2.1 | skip
    next a =>
    refine hE' a fun h e => ?_
    subst h e
    simp at hx
  | unstake =>
    simp only [touched, hy, List.mem_append, List.mem_cons, not_or] at hx
    cases x <;> first | rfl | exact ⟨rfl, rfl⟩ | exact ⟨rfl, rfl, rfl⟩ | exact absurd rfl hx.1.1 | exact absurd rfl hx.1.2.1 | skip
    next a =>
    refine hE' a fun h e => ?_
    subst h e
    simp at hx

theorem Spec.Same.trans {a b c : World} {x : Part} (h1 : Same a b x) (h2 : Same b c x) : Same a c x := by
  cases x <;> simp only [Same] at h1 h2 ⊢ <;> first
    | exact Eq.trans h2 h1
    | exact ⟨h2.1.trans h1.1, h2.2.trans h1.2⟩
    | exact ⟨h2.1.trans h1.1, h2.2.1.trans h1.2.1, h2.2.2.trans h1.2.2⟩

theorem Spec.Same.refl (w : World) (x : Part) : Same w w x := by
  cases x <;> first | rfl | exact ⟨rfl, rfl⟩ | exact ⟨rfl, rfl, rfl⟩

theorem parts_arrive {w : World} {i : Nat} {f : Flight} {o : Outcome} (x : Part) (h1 : x ≠ .calls)
    (h2 : x ≠ .egld w.self ∨ attached f o = 0) : Same w (arrive w i f o) x := by
  cases x <;> first | rfl | exact ⟨rfl, rfl⟩ | exact ⟨rfl, rfl, rfl⟩ | exact absurd rfl h1 | skip
  next a =>
  show (credit w.egld w.self (attached f o)).get 0 a = w.egld.get 0 a
  rw [get_credit]
  split
  · next e =>
    subst e
    rcases h2 with h2 | h2
    · exact absurd rfl h2
    · rw [h2, Nat.add_zero]
  · rfl

/-- The part of a pool figure. -/
theorem parts_commit {w : World} {s : CState} {t : TokenId} {r : Reserves} {k : EventKind} {u : Addr} (x : Part)
    (h0 : x ≠ .events) (h1 : x ≠ .supply ∨ r.lsSupply = w.st.r.lsSupply) (h2 : x ≠ .reserve ∨ r.reserve = w.st.r.reserve)
    (h3 : x ≠ .fees ∨ r.fees = w.st.r.fees) (h4 : x ≠ .withdrawable ∨ r.withdrawn = w.st.r.withdrawn)
    (h5 : x ≠ .pending ∨ r.pending = w.st.r.pending) (h6 : x ≠ .queue ∨ r.toUnstake = w.st.r.toUnstake)
    (h7 : x ≠ .unbonding ∨ r.toUnbond = w.st.r.toUnbond) : Same w (commit (emit w ⟨s, t, r⟩ k u) ⟨s, t, r⟩) x := by
  cases x <;> first
    | rfl | exact ⟨rfl, rfl⟩ | exact ⟨rfl, rfl, rfl⟩ | exact absurd rfl h0
    | exact h1.resolve_left fun h => h rfl | exact h2.resolve_left fun h => h rfl | exact h3.resolve_left fun h => h rfl
    | exact h4.resolve_left fun h => h rfl | exact h5.resolve_left fun h => h rfl | exact h6.resolve_left fun h => h rfl
    | exact h7.resolve_left fun h => h rfl

theorem parts_deliver {w w' : World} {i : Nat} {o : Outcome} (hr : Reachable w) (hs : deliver w i o = .ok w') (x : Part)
    (hx : x ∉ touched w (.deliver i o)) : Same w w' x := by
  have hr0 : RegOk w.st.lsToken w.st.unstakeToken w.st.delegList w.st.undelegList w.st.data w.flights w.dead :=
    reachable_regInv hr
  obtain ⟨f, hf, hcb⟩ := deliver_ok hs
  have hmem := List.mem_of_getElem? hf
  simp only [touched, hf] at hx
  -- a callback that fails leaves its call and the EGLD that came with it
  have dead : ∀ w'' : World, w'' = { arrive w i f o with dead := w.dead ++ [f] } → x ≠ .calls → x ≠ .failed →
      (x ≠ .egld w.self ∨ attached f o = 0) → Same w w'' x := by
    intro w'' hw h1 h2 h3
    subst hw
    have := parts_arrive (i := i) (f := f) (o := o) x h1 h3
    refine this.trans ?_
    cases x <;> first | rfl | exact ⟨rfl, rfl⟩ | exact ⟨rfl, rfl, rfl⟩ | exact absurd rfl h2
  cases f with
  | delegate p a =>
    obtain ⟨w1, h1⟩ := delegate_cb_ok hr o hf
    have hcb : runCallback (arrive w i (.delegate p a) o) (.delegate p a) o = .ok w' := by
      rcases hcb with h | ⟨⟨e, he⟩, _⟩
      · exact h
      · rw [he] at h1; cases h1
    cases o with
    | ok g r =>
      obtain ⟨_, d, hd, ha, rfl⟩ := addLiquidityCb_true_ok.1 hcb
      simp only [callbackParts, List.mem_cons, not_or] at hx
      refine (parts_arrive x hx.1 (.inl hx.2.1)).trans (parts_record hd x ?_ ?_ ?_ ?_ ?_ ?_ ?_)
      all_goals first | exact .inr rfl | exact .inl (by tauto)
    | err =>
      obtain ⟨t, d, ht, hd, ha, rfl⟩ := addLiquidityCb_false_ok.1 hcb
      simp only [callbackParts, List.mem_cons, not_or] at hx
      refine (parts_arrive x hx.1 (.inl hx.2.1)).trans ((parts_record hd x ?_ ?_ ?_ ?_ ?_ ?_ ?_).trans
        (parts_commit x (by tauto) ?_ ?_ ?_ ?_ ?_ ?_ ?_))
      all_goals first | exact .inr rfl | exact .inl (by tauto)
  | undelegate p a =>
    obtain ⟨t, d, ht, hd, ha, _, _⟩ := undelegate_flight hr hmem
    cases o with
    | ok g r =>
      simp only [callbackParts, List.mem_cons, not_or] at hx
      rcases hcb with hcb | ⟨_, rfl⟩
      · obtain ⟨t, d, ht, hd, h1, ha, rfl⟩ := removeLiquidityCb_true_ok.1 hcb
        refine (parts_arrive x hx.1 (.inl hx.2.1)).trans ((parts_record hd x ?_ ?_ ?_ ?_ ?_ ?_ ?_).trans
          (parts_commit x (by tauto) ?_ ?_ ?_ ?_ ?_ ?_ ?_))
        all_goals first | exact .inr rfl | exact .inl (by tauto)
      · exact dead _ rfl hx.1 hx.2.2.1 (.inl hx.2.1)
    | err =>
      simp only [callbackParts, List.mem_cons, not_or] at hx
      have hok := removeLiquidityCb_false_ok (w := arrive w i (.undelegate p a) .err) (p := p) (a := a).2 ⟨t, d, ht, hd, ha, rfl⟩
      have hcb : removeLiquidityCb (arrive w i (.undelegate p a) .err) p a false = .ok w' := by
        rcases hcb with h | ⟨⟨e, he⟩, _⟩
        · exact h
        · have := he.symm.trans hok
          cases this
      obtain ⟨t, d, ht, hd, ha, rfl⟩ := removeLiquidityCb_false_ok.1 hcb
      refine (parts_arrive x hx.1 (.inr rfl)).trans ((parts_record hd x ?_ ?_ ?_ ?_ ?_ ?_ ?_).trans
        (parts_commit x (by tauto) ?_ ?_ ?_ ?_ ?_ ?_ ?_))
      all_goals first | exact .inr rfl | exact .inl (by tauto)
  | withdraw p =>
    cases o with
    | ok g r =>
      simp only [callbackParts, List.mem_cons, not_or] at hx
      rcases hcb with hcb | ⟨_, rfl⟩
      · rcases withdrawTokensCb_ok.1 hcb with ⟨_, rfl⟩ | ⟨_, t, d, ht, hd, _, _, rfl⟩
        · exact parts_arrive x hx.1 (.inl hx.2.1)
        · refine (parts_arrive x hx.1 (.inl hx.2.1)).trans ((parts_record hd x ?_ ?_ ?_ ?_ ?_ ?_ ?_).trans
            (parts_commit x (by tauto) ?_ ?_ ?_ ?_ ?_ ?_ ?_))
          all_goals first | exact .inr rfl | exact .inl (by tauto)
      · exact dead _ rfl hx.1 hx.2.2.1 (.inl hx.2.1)
    | err =>
      simp only [callbackParts, List.mem_cons, not_or] at hx
      rcases hcb with hcb | ⟨⟨e, he⟩, _⟩
      · rcases withdrawTokensCb_ok.1 hcb with ⟨_, rfl⟩ | ⟨h, _⟩
        · exact parts_arrive x hx.1 (.inr rfl)
        · omega
      · cases he
  | claim ps =>
    cases o with
    | ok g r =>
      simp only [callbackParts, List.mem_cons, not_or] at hx
      rcases hcb with hcb | ⟨_, rfl⟩
      · rcases claimRewardsCb_ok.1 hcb with ⟨_, rfl⟩ | ⟨_, t, fee, ht, _, _, rfl⟩
        · exact parts_arrive x hx.1 (.inl hx.2.1)
        · refine (parts_arrive (i := i) (f := .claim ps) (o := .ok g r) x hx.1 (.inl hx.2.1)).trans (Spec.Same.trans (b := { arrive w i (.claim ps) (.ok g r) with
            events := (arrive w i (.claim ps) (.ok g r)).events ++ [.protocolRevenue fee (arrive w i (.claim ps) (.ok g r)).epoch] })
            ?_ (parts_commit x (by tauto) ?_ ?_ ?_ ?_ ?_ ?_ ?_))
          · cases x <;> first | rfl | exact ⟨rfl, rfl⟩ | exact ⟨rfl, rfl, rfl⟩ | (exfalso; tauto)
          all_goals first | exact .inr rfl | exact .inl (by tauto)
      · exact dead _ rfl hx.1 hx.2.2.1 (.inl hx.2.1)
    | err =>
      simp only [callbackParts, List.mem_cons, not_or] at hx
      rcases hcb with hcb | ⟨⟨e, he⟩, _⟩
      · have h : (arrive w i (.claim ps) .err) = w' := Except.ok.inj hcb
        subst h
        exact parts_arrive x hx.1 (.inr rfl)
      · cases he
  | whitelist p a u =>
    cases o with
    | ok g r =>
      simp only [callbackParts, List.mem_cons, not_or] at hx
      rcases hcb with hcb | ⟨_, rfl⟩
      · obtain ⟨t, d, l, ht, hd, hq, rfl⟩ := whitelistCb_true_ok.1 hcb
        refine (parts_arrive (i := i) (f := .whitelist p a u) (o := .ok g r) x hx.1 (.inl hx.2.1)).trans
          ((parts_record (d' := { d with staked := d.staked + a }) hd x ?_ ?_ ?_ ?_ ?_ ?_ ?_).trans
          (Spec.Same.trans ?_ (parts_commit x (by tauto) ?_ ?_ ?_ ?_ ?_ ?_ ?_)))
        all_goals first | exact .inr rfl | exact .inl (by tauto) | skip
        cases x <;> first | rfl | exact ⟨rfl, rfl⟩ | exact ⟨rfl, rfl, rfl⟩ | (exfalso; tauto) | skip
        next b =>
        show (mintTo w.ls w.self u l).get 0 b = w.ls.get 0 b
        rw [get_mintTo, if_neg (by rintro rfl; tauto)]; rfl
      · exact dead _ rfl hx.1 hx.2.2.1 (.inl hx.2.1)
    | err =>
      by_cases hlt : w.st.lsToken = none
      · simp only [callbackParts, hlt, if_true, List.mem_cons, not_or] at hx
        rcases hcb with hcb | ⟨_, rfl⟩
        · exact absurd hlt (whitelistCb_false_ok.1 hcb).1
        · exact dead _ rfl hx.1 hx.2.2.1 (.inl hx.2.1)
      · simp only [callbackParts, hlt, if_false, List.mem_cons, not_or] at hx
        have hself : a ≤ (credit w.egld w.self a).get 0 w.self := by rw [get_credit, if_pos rfl]; omega
        have hok := whitelistCb_false_ok (w := arrive w i (.whitelist p a u) .err) (p := p) (a := a) (u := u).2
          ⟨hlt, _, debit_ok.2 ⟨hself, rfl⟩, rfl⟩
        have hcb : whitelistCb (arrive w i (.whitelist p a u) .err) p a u false = .ok w' := by
          rcases hcb with h | ⟨⟨e, he⟩, _⟩
          · exact h
          · have := he.symm.trans hok
            cases this
        obtain ⟨_, m, hm, rfl⟩ := whitelistCb_false_ok.1 hcb
        obtain ⟨hnot, hrec⟩ := hr0.wl2 p a u hmem
        obtain ⟨d, hd⟩ := Option.ne_none_iff_exists'.1 hrec
        have hz := hr0.zero p d hd hnot
        have hD : ∀ q, q ≠ p → (w.st.data.set p none).get none q = w.st.data.get none q := fun q hq => data_set_other _ hq
        have hF : ∀ (f : ProviderData → Nat) (q : Addr), f d = 0 →
            figure f { arrive w i (.whitelist p a u) .err with
              egld := credit m u a, st := { w.st with data := w.st.data.set p none } } q = figure f w q := by
          intro f q h0
          by_cases hq : q = p
          · subst hq
            unfold figure provider
            simp only [Map.get_set, if_true, hd, h0]
          · exact figure_of_eq (hD q hq)
        cases x <;> first | rfl | exact ⟨rfl, rfl⟩ | exact ⟨rfl, rfl, rfl⟩ | (exfalso; tauto) | skip
        · next q => exact congrArg Option.isSome (hD q (by rintro rfl; tauto))
        · next q => exact congrArg (Option.map (·.admin)) (hD q (by rintro rfl; tauto))
        · next q => exact congrArg (Option.map termsOf) (hD q (by rintro rfl; tauto))
        · next q => exact congrArg (Option.map (·.eligible)) (hD q (by rintro rfl; tauto))
        · next q => exact hF _ q hz.1
        · next q => exact hF _ q hz.2.1
        · next q => exact hF _ q hz.2.2.1
        · next q => exact hF _ q hz.2.2.2
        · next b =>
          show (credit m u a).get 0 b = w.egld.get 0 b
          have h2 : b ≠ u := by rintro rfl; tauto
          have hm' : debit (credit w.egld w.self a) w.self a = .ok m := hm
          rw [get_credit, if_neg (Ne.symm h2), get_debit hm', get_credit]
          split <;> omega

theorem parts_step {w w' : World} {op : Op} (hr : Reachable w) (hs : step w op = .ok w') (x : Part) (hx : x ∉ touched w op) :
    Same w w' x := by
  cases op with
  | delegate c v => exact parts_delegate hs x hx
  | unDelegate c v ps => exact parts_unDelegate hs x hx
  | withdraw c v ps => exact parts_withdraw (reachable_regInv hr) hs x hx
  | upgrade => simp only [step, Except.ok.injEq] at hs; subst hs; exact .refl _ _
  | delegatePending c a => exact parts_delegatePending hs x hx
  | unDelegatePending c a => exact parts_unDelegatePending hs x hx
  | withdrawPending c p =>
    obtain ⟨_, _, _, _, _, E, hE, rfl⟩ := withdrawPending_ok hs
    untouched x hx
    next a => exact hE a
  | claimRewards c =>
    obtain ⟨_, _, _, _, _, E, hE, rfl⟩ := claimRewards_ok hs
    untouched x hx
    next a => exact hE a
  | claimFees c a =>
    obtain ⟨_, _, _, _, _, m, hm, rfl⟩ := claimFees_ok hs
    untouched x hx
    next a => simp [touched] at hx; exact get_moved hm hx.1 hx.2
  | whitelist c v p ad ts cap n apy => exact parts_whitelist hs x hx
  | changeAdmin c p a =>
    obtain ⟨_, _, d, hd, rfl⟩ := changeAdmin_ok.1 hs
    simp only [touched, List.mem_singleton] at hx
    exact parts_record hd x (.inl hx) (.inr rfl) (.inr rfl) (.inr rfl) (.inr rfl) (.inr rfl) (.inr rfl)
  | changeParams c p ts cap n apy e =>
    obtain ⟨_, _, d, hd, _, rfl⟩ := changeParams_ok.1 hs
    simp only [touched, List.mem_cons, not_or] at hx
    exact parts_record hd x (.inr rfl) (.inl hx.1) (.inl hx.2.1) (.inr rfl) (.inr rfl) (.inr rfl) (.inr rfl)
  | migrate c v o =>
    obtain ⟨_, _, _, _, t, l, ht, _, rfl⟩ := migrate_ok.1 hs
    untouched x hx
    next a =>
    simp [touched] at hx
    show (mintTo w.ls w.self c l).get 0 a = _
    rw [get_mintTo, if_neg (Ne.symm hx)]; rfl
  | migratePending c v =>
    obtain ⟨_, _, _, _, t, m, ht, hm, rfl⟩ := migratePending_ok.1 hs
    untouched x hx
    next a => simp [touched] at hx; exact get_moved hm hx.1 hx.2
  | addRewards c v =>
    obtain ⟨_, t, m, ht, hm, rfl⟩ := addRewards_ok.1 hs
    untouched x hx
    next a => simp [touched] at hx; exact get_moved hm hx.1 hx.2
  | setMigrationSc c a => obtain ⟨_, _, _, rfl⟩ := setMigrationSc_ok.1 hs; untouched x hx
  | registerLsToken c v =>
    obtain ⟨_, _, _, _, m, hm, rfl⟩ := registerLsToken_ok.1 hs
    untouched x hx
    next a => simp [touched] at hx; exact (get_debit hm a).trans (if_neg (Ne.symm hx))
  | registerUnstakeToken c v =>
    obtain ⟨_, _, _, _, m, hm, rfl⟩ := registerUnstakeToken_ok.1 hs
    untouched x hx
    next a => simp [touched] at hx; exact (get_debit hm a).trans (if_neg (Ne.symm hx))
  | owner c cmd => exact parts_owner hs x hx
  | setScoringConfig c cfg => obtain ⟨_, _, _, rfl⟩ := setScoringConfig_ok.1 hs; untouched x hx
  | viewLsValue l =>
    simp only [step, bind_ok, Prod.exists, Except.ok.injEq] at hs
    obtain ⟨e, w1, h1, rfl⟩ := hs
    obtain ⟨_, _, rfl⟩ := viewLsValue_ok.1 h1
    exact .refl _ _
  | viewEgldPosition l =>
    simp only [step, bind_ok, Prod.exists, Except.ok.injEq] at hs
    obtain ⟨e, w1, h1, rfl⟩ := hs
    obtain ⟨_, _, rfl⟩ := viewEgldPosition_ok.1 h1
    exact .refl _ _
  | deliver i o => exact parts_deliver hr hs x hx
  | issued i o => exact parts_issued hs x hx
  | transferLs a b v =>
    obtain ⟨_, _, m, hm, rfl⟩ := transferLs_ok.1 hs
    untouched x hx
    next a => simp [touched] at hx; exact get_moved hm hx.1 hx.2
  | transferNft a b n v =>
    obtain ⟨_, _, m, hm, rfl⟩ := transferNft_ok.1 hs
    untouched x hx
    next k a' =>
    simp [touched] at hx
    exact get_moved hm (by simp only [ne_eq, Prod.mk.injEq]; tauto) (by simp only [ne_eq, Prod.mk.injEq]; tauto)
  | fund a v =>
    obtain ⟨_, rfl⟩ := fund_ok.1 hs
    untouched x hx
    next b => simp [touched] at hx; exact (get_credit ..).trans (if_neg (Ne.symm hx))
  | advance e => obtain ⟨_, rfl⟩ := advance_ok.1 hs; untouched x hx
  | changeOwner c d => obtain ⟨_, _, rfl⟩ := changeOwner_ok.1 hs; untouched x hx
  | transferEgld a b v =>
    obtain ⟨_, _, m, hm, rfl⟩ := transferEgld_ok.1 hs
    untouched x hx
    next a => simp [touched] at hx; exact get_moved hm hx.1 hx.2
  | giveEgld a v =>
    obtain ⟨_, _, m, hm, rfl⟩ := giveEgld_ok.1 hs
    untouched x hx
    next a => simp [touched] at hx; exact get_moved hm hx.1 hx.2
  | giveLs a v =>
    obtain ⟨_, _, m, hm, rfl⟩ := giveLs_ok.1 hs
    untouched x hx
    next a => simp [touched] at hx; exact get_moved hm hx.1 hx.2
  | giveUnstake a n v =>
    obtain ⟨_, _, m, hm, rfl⟩ := giveUnstake_ok.1 hs
    untouched x hx
    next k a' =>
    simp [touched] at hx
    exact get_moved hm (by simp only [ne_eq, Prod.mk.injEq]; tauto) (by simp only [ne_eq, Prod.mk.injEq]; tauto)
  | burnLs a v =>
    obtain ⟨_, m, hm, rfl⟩ := holderBurnLs_ok.1 hs
    untouched x hx
    next b => simp [touched] at hx; exact (get_debit hm ..).trans (if_neg (Ne.symm hx))
  | burnUnstake a n v =>
    obtain ⟨_, m, hm, rfl⟩ := holderBurnNft_ok.1 hs
    untouched x hx
    next k b =>
    simp [touched] at hx
    exact (get_debit hm ..).trans (if_neg (by simp only [Prod.mk.injEq]; tauto))
  | starve i o =>
    obtain ⟨f, hf, rfl⟩ := starve_ok hs
    simp only [touched, List.mem_cons, List.not_mem_nil, or_false, not_or] at hx
    refine (parts_arrive (i := i) (f := f) (o := o) x hx.1 (.inl hx.2.1)).trans ?_
    cases x <;> first | rfl | exact ⟨rfl, rfl⟩ | exact ⟨rfl, rfl, rfl⟩ | exact absurd rfl hx.2.2

end LS
