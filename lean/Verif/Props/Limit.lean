import Verif.Props.Accept

/-! How far the number of providers gets beyond its limit: C30.  How far the stake of a provider gets beyond its cap: C19. -/

namespace LS
open Spec Demo

private def mkWl (v : Nat) (p : Addr) : Flight := .whitelist p v 1

private structure Steady (m : Nat) (w : World) : Prop where
  me : w.self = 1000
  own : w.owner = 1
  tok : ∃ t, w.st.lsToken = some t
  even : w.st.r.lsSupply = w.st.r.reserve
  lim : w.st.maxDelegationAddresses = m
  sub : w.st.undelegList = w.st.delegList
  reg : ∀ p ∈ w.st.delegList, w.st.data.get none p ≠ none

private theorem min_pos : 0 < MIN_EGLD := by decide

private theorem steady_whitelist {m k v : Nat} (hv : MIN_EGLD ≤ v) {w : World} {p : Addr} (hs : Steady m w) (hn : w.st.data.get none p = none)
    (hl : w.st.delegList.length ≤ m) (he : v ≤ w.egld.get 0 1) (hk : underWay w < k) :
    ∃ w', step w (.whitelist 1 v p 1 0 0 1 1) = .ok w' ∧ FewAtATime k w (.whitelist 1 v p 1 0 0 1 1) w' ∧
      Steady m w' ∧ w'.flights = w.flights ++ [mkWl v p] ∧ w'.st.delegList = w.st.delegList ∧
      w'.egld.get 0 1 + v = w.egld.get 0 1 ∧ w'.st.data.get none p ≠ none ∧
      ∀ q, q ≠ p → w'.st.data.get none q = w.st.data.get none q := by
  have g1 : (1 : Addr) ≠ w.self := by rw [hs.me]; decide
  have g2 : isManager w 1 = true := by unfold isManager; rw [hs.own]; simp
  have g3 : w.st.delegList.length ≤ w.st.maxDelegationAddresses := by rw [hs.lim]; exact hl
  have g4 : w.st.undelegList.length ≤ w.st.maxDelegationAddresses := by rw [hs.sub]; exact g3
  have : ∃ w', whitelist w 1 v p 1 0 0 1 1 = .ok w' := by
    apply NoErr.all
    intro e
    unfold whitelist payEgld registerPromise
    refine .bind (.req (.inl g1)) fun _ _ => .bind (.bind (.debit (.inl he)) fun _ _ => .ok _) fun w0 hw0 => ?_
    simp only [bind_ok, Except.ok.injEq] at hw0
    obtain ⟨m, hm, rfl⟩ := hw0
    refine .bind (.req (.inl g3)) fun _ _ => .bind (.req (.inl g4)) fun _ _ => .bind (.req (.inl g2)) fun _ _ =>
      .bind (.req (.inl hn)) fun _ _ => .bind (.req (.inl (.inr rfl))) fun _ _ => .bind (.req (.inl hv)) fun _ _ => ?_
    refine .bind (.debit (.inl ?_)) fun _ _ => .ok _
    dsimp only
    rw [get_credit, if_pos rfl]
    omega
  obtain ⟨w', h⟩ := this
  obtain ⟨_, _, _, _, _, _, _, _, E, hE1, hE2, hE3, rfl⟩ := whitelist_ok h
  refine ⟨_, h, ⟨fun _ _ _ _ _ _ _ _ _ => hk, Nat.le_refl _⟩,
    ⟨hs.me, hs.own, hs.tok, hs.even, hs.lim, hs.sub, fun q hq => ?_⟩, rfl, rfl, hE2, ?_, fun q hq => ?_⟩
  · dsimp only at hq ⊢
    rw [Map.get_set]
    split
    · simp
    · exact hs.reg q hq
  · dsimp only; rw [Map.get_set, if_pos rfl]; simp
  · dsimp only; rw [Map.get_set, if_neg (Ne.symm hq)]

private theorem steady_fill {m k v : Nat} (hv : MIN_EGLD ≤ v) : ∀ (ps : List Addr) {w : World}, Steady m w → ps.Nodup →
    (∀ p ∈ ps, w.st.data.get none p = none) → w.st.delegList.length ≤ m → ps.length * v ≤ w.egld.get 0 1 →
    underWay w + ps.length ≤ k →
    ∃ w', Trace (FewAtATime k) w w' ∧ Steady m w' ∧ w'.flights = w.flights ++ ps.map (mkWl v) ∧
      w'.st.delegList = w.st.delegList ∧ w'.egld.get 0 1 + ps.length * v = w.egld.get 0 1 ∧
      (∀ p, w.st.data.get none p ≠ none → w'.st.data.get none p ≠ none) ∧ (∀ p ∈ ps, w'.st.data.get none p ≠ none) ∧
      ∀ q, q ∉ ps → w'.st.data.get none q = w.st.data.get none q
  | [], w, hs, _, _, _, _, _ => ⟨w, .nil, hs, by simp, rfl, by simp, fun _ h => h, by simp, fun _ _ => rfl⟩
  | p :: ps, w, hs, hnd, hn, hl, he, hk => by
    rw [List.length_cons, Nat.add_mul, Nat.one_mul] at he
    rw [List.length_cons] at hk
    obtain ⟨w1, h1, hf, hs1, hfl, hdl, hE, hp, hq⟩ :=
      steady_whitelist (k := k) hv hs (hn p (by simp)) hl (by omega) (by omega)
    have hu : underWay w1 = underWay w + 1 := by
      unfold underWay
      rw [hfl, List.filter_append, List.length_append]
      rfl
    obtain ⟨hnp, hnd'⟩ := List.nodup_cons.1 hnd
    obtain ⟨w2, ht, hs2, hfl2, hdl2, hE2, hm2, hp2, hq2⟩ := steady_fill (k := k) hv ps hs1 hnd'
      (fun q hqm => by rw [hq q (fun e => hnp (e ▸ hqm))]; exact hn q (List.mem_cons_of_mem _ hqm))
      (by rw [hdl]; exact hl) (by omega) (by omega)
    refine ⟨w2, trace_cons h1 hf ht, hs2, ?_, by rw [hdl2, hdl], ?_, fun q hqn => hm2 q ?_, fun q hqm => ?_, fun q hqm => ?_⟩
    · rw [hfl2, hfl]; simp
    · rw [List.length_cons, Nat.add_mul, Nat.one_mul]; omega
    · by_cases e : q = p
      · rw [e]; exact hp
      · rw [hq q e]; exact hqn
    · rcases List.mem_cons.1 hqm with rfl | h
      · exact hm2 _ hp
      · exact hp2 q h
    · simp only [List.mem_cons, not_or] at hqm
      rw [hq2 q hqm.2, hq q hqm.1]

private theorem steady_answer {m k v : Nat} (hv : MIN_EGLD ≤ v) {w : World} {p : Addr} {fl : List Flight} (hs : Steady m w)
    (hf : w.flights = mkWl v p :: fl) (hp : p ∉ w.st.delegList) (hd : w.st.data.get none p ≠ none) :
    ∃ w', step w (.deliver 0 (.ok 0 0)) = .ok w' ∧ FewAtATime k w (.deliver 0 (.ok 0 0)) w' ∧ Steady m w' ∧
      w'.flights = fl ∧ w'.st.delegList = w.st.delegList ++ [p] ∧ w'.egld.get 0 1 = w.egld.get 0 1 ∧
      (∀ q, q ≠ p → w'.st.data.get none q = w.st.data.get none q) := by
  obtain ⟨t, ht⟩ := hs.tok
  obtain ⟨d, hd'⟩ := Option.ne_none_iff_exists'.1 hd
  have hq : LsQuote w.st.r v v := by
    refine ⟨Nat.lt_of_lt_of_le min_pos hv, ?_⟩
    rcases Nat.eq_zero_or_pos w.st.r.reserve with h0 | h0
    · exact .inr ⟨h0, rfl⟩
    · exact .inl ⟨h0, by rw [hs.even, Nat.mul_div_cancel _ h0]⟩
  have hcb := (whitelistCb_true_ok (w := arrive w 0 (mkWl v p) (.ok 0 0)) (p := p) (a := v) (u := 1)).2
    ⟨t, d, v, ht, hd', hq, rfl⟩
  have hstep : ∀ w', whitelistCb (arrive w 0 (mkWl v p) (.ok 0 0)) p v 1 true = .ok w' →
      step w (.deliver 0 (.ok 0 0)) = .ok w' := by
    intro w' h
    show deliver w 0 (.ok 0 0) = _
    unfold deliver
    rw [hf]
    simp only [List.getElem?_cons_zero]
    have : runCallback (arrive w 0 (mkWl v p) (.ok 0 0)) (mkWl v p) (.ok 0 0) = .ok w' := h
    rw [this]
  refine ⟨_, hstep _ hcb, ⟨fun _ _ _ _ _ _ _ _ h => (by cases h), Nat.le_refl _⟩,
    ⟨hs.me, hs.own, ⟨t, ht⟩, ?_, hs.lim, ?_, ?_⟩, ?_, ?_, ?_, ?_⟩
  · show w.st.r.lsSupply + v = w.st.r.reserve + v
    rw [hs.even]
  · show setInsert w.st.undelegList p = setInsert w.st.delegList p
    rw [hs.sub]
  · intro q hq
    change q ∈ setInsert w.st.delegList p at hq
    show (w.st.data.set p _).get none q ≠ none
    rw [Map.get_set]
    split
    · simp
    · rename_i hne
      unfold setInsert at hq
      rw [if_neg hp] at hq
      rcases List.mem_append.1 hq with h | h
      · exact hs.reg q h
      · exact absurd (List.mem_singleton.1 h).symm hne
  · show w.flights.eraseIdx 0 = fl
    rw [hf]; rfl
  · show setInsert w.st.delegList p = _
    unfold setInsert; rw [if_neg hp]
  · show (credit w.egld w.self 0).get 0 1 = _
    rw [get_credit]; split <;> rfl
  · intro q hq
    show (w.st.data.set p _).get none q = _
    rw [Map.get_set, if_neg (Ne.symm hq)]

private theorem steady_drain {m k v : Nat} (hv : MIN_EGLD ≤ v) : ∀ (ps : List Addr) {w : World}, Steady m w → w.flights = ps.map (mkWl v) → ps.Nodup →
    (∀ p ∈ ps, p ∉ w.st.delegList) → (∀ p ∈ ps, w.st.data.get none p ≠ none) →
    ∃ w', Trace (FewAtATime k) w w' ∧ Steady m w' ∧ w'.flights = [] ∧ w'.st.delegList = w.st.delegList ++ ps ∧
      w'.egld.get 0 1 = w.egld.get 0 1 ∧ ∀ q, q ∉ ps → w'.st.data.get none q = w.st.data.get none q
  | [], w, hs, hf, _, _, _ => ⟨w, .nil, hs, hf, by simp, rfl, fun _ _ => rfl⟩
  | p :: ps, w, hs, hf, hnd, hp, hd => by
    obtain ⟨hnp, hnd'⟩ := List.nodup_cons.1 hnd
    obtain ⟨w1, h1, hfew, hs1, hf1, hl1, hE1, hq1⟩ := steady_answer (k := k) hv hs hf (hp p (by simp)) (hd p (by simp))
    obtain ⟨w2, ht, hs2, hf2, hl2, hE2, hq2⟩ := steady_drain (k := k) hv ps hs1 hf1 hnd'
      (fun q hq h => by
        rw [hl1] at h
        rcases List.mem_append.1 h with h | h
        · exact hp q (List.mem_cons_of_mem _ hq) h
        · exact hnp (List.mem_singleton.1 h ▸ hq))
      (fun q hq => by rw [hq1 q (fun e => hnp (e ▸ hq))]; exact hd q (List.mem_cons_of_mem _ hq))
    refine ⟨w2, trace_cons h1 hfew ht, hs2, hf2, by rw [hl2, hl1]; simp, by rw [hE2, hE1], fun q hq => ?_⟩
    simp only [List.mem_cons, not_or] at hq
    rw [hq2 q hq.2, hq1 q hq.1]

private theorem trace_join {P} {w w1 w2 : World} (h1 : Trace P w w1) (h2 : Trace P w1 w2) : Trace P w w2 := by
  induction h2 with
  | nil => exact h1
  | snoc op _ hs hp ih => exact .snoc op ih hs hp

/-- Whitelist `ps` at once, then answer all. -/
private theorem steady_batch {m k v : Nat} (hv : MIN_EGLD ≤ v) {ps : List Addr} {w : World} (hs : Steady m w) (hf : w.flights = []) (hnd : ps.Nodup)
    (hn : ∀ p ∈ ps, w.st.data.get none p = none) (hl : w.st.delegList.length ≤ m)
    (he : ps.length * v ≤ w.egld.get 0 1) (hk : ps.length ≤ k) :
    ∃ w', Trace (FewAtATime k) w w' ∧ Steady m w' ∧ w'.flights = [] ∧ w'.st.delegList = w.st.delegList ++ ps ∧
      w'.egld.get 0 1 + ps.length * v = w.egld.get 0 1 ∧
      ∀ q, q ∉ ps → w'.st.data.get none q = w.st.data.get none q := by
  have hu : underWay w = 0 := by unfold underWay; rw [hf]; rfl
  obtain ⟨w1, ht1, hs1, hf1, hl1, hE1, _, hd1, hq1⟩ := steady_fill (k := k) hv ps hs hnd hn hl he (by omega)
  rw [hf, List.nil_append] at hf1
  obtain ⟨w2, ht2, hs2, hf2, hl2, hE2, hq2⟩ := steady_drain (k := k) hv ps hs1 hf1 hnd
    (fun p hp h => by rw [hl1] at h; exact hs.reg p h (hn p hp)) hd1
  refine ⟨w2, trace_join ht1 ht2, hs2, hf2, by rw [hl2, hl1], by rw [hE2]; exact hE1, fun q hq => ?_⟩
  rw [hq2 q hq, hq1 q hq]

/-- Whitelist `ps` one after the other. -/
private theorem steady_singles {m k v : Nat} (hv : MIN_EGLD ≤ v) (hk : 1 ≤ k) : ∀ (ps : List Addr) {w : World}, Steady m w → w.flights = [] →
    ps.Nodup → (∀ p ∈ ps, w.st.data.get none p = none) → w.st.delegList.length + ps.length ≤ m →
    ps.length * v ≤ w.egld.get 0 1 →
    ∃ w', Trace (FewAtATime k) w w' ∧ Steady m w' ∧ w'.flights = [] ∧ w'.st.delegList = w.st.delegList ++ ps ∧
      w'.egld.get 0 1 + ps.length * v = w.egld.get 0 1 ∧
      ∀ q, q ∉ ps → w'.st.data.get none q = w.st.data.get none q
  | [], w, hs, hf, _, _, _, _ => ⟨w, .nil, hs, hf, by simp, by simp, fun _ _ => rfl⟩
  | p :: ps, w, hs, hf, hnd, hn, hl, he => by
    obtain ⟨hnp, hnd'⟩ := List.nodup_cons.1 hnd
    rw [List.length_cons, Nat.add_mul, Nat.one_mul] at he
    rw [List.length_cons] at hl
    obtain ⟨w1, ht1, hs1, hf1, hl1, hE1, hq1⟩ := steady_batch (k := k) hv (ps := [p]) hs hf (by simp)
      (fun q hq => hn q (by rw [List.mem_singleton.1 hq]; simp)) (by omega) (by simp; omega) (by simpa using hk)
    simp only [List.length_singleton, Nat.one_mul] at hE1
    obtain ⟨w2, ht2, hs2, hf2, hl2, hE2, hq2⟩ := steady_singles hv hk ps hs1 hf1 hnd'
      (fun q hq => by
        rw [hq1 q (fun e => hnp (List.mem_singleton.1 e ▸ hq))]; exact hn q (List.mem_cons_of_mem _ hq))
      (by rw [hl1]; simp; omega) (by omega)
    refine ⟨w2, trace_join ht1 ht2, hs2, hf2, by rw [hl2, hl1]; simp, ?_, fun q hq => ?_⟩
    · rw [List.length_cons, Nat.add_mul, Nat.one_mul]; omega
    · simp only [List.mem_cons, not_or] at hq
      rw [hq2 q hq.2, hq1 q (by simpa using hq.1)]

/-- A deployment with limit `m` and an owner with `v` EGLD, after the LS token was issued. -/
private theorem steady_start (m v k : Nat) (hm : 1 ≤ m) :
    ∃ w, ReachableBy (FewAtATime k) w ∧ Steady m w ∧ w.flights = [] ∧ w.st.delegList = [] ∧ w.egld.get 0 1 = v ∧
      ∀ q, w.st.data.get none q = none := by
  obtain ⟨w0, hw0⟩ : ∃ w0, initWorld 1000 1 [2, 3] 0 [(1, v)] 2 400 14400 1400 25 m 10 = .ok w0 := by
    apply NoErr.all
    intro e
    unfold initWorld
    exact .bind (.req (.inl (by decide))) fun _ _ => .bind (.req (.inl hm)) fun _ _ => .ok _
  have hw0' := hw0
  unfold initWorld at hw0
  simp only [bind_ok, req_ok, exists_const, Except.ok.injEq] at hw0
  obtain ⟨_, _, rfl⟩ := hw0
  refine ⟨_, ⟨_, ⟨_, _, _, _, _, _, _, _, _, _, _, _, hw0'⟩,
    .snoc (.issued 0 (some 500)) (.snoc (.registerLsToken 1 0) .nil rfl ?_) rfl ?_⟩, ?_, ?_, ?_, ?_, ?_⟩
  · exact ⟨fun _ _ _ _ _ _ _ _ h => (by cases h), Nat.le_refl _⟩
  · exact ⟨fun _ _ _ _ _ _ _ _ h => (by cases h), Nat.le_refl _⟩
  · exact ⟨rfl, rfl, ⟨500, rfl⟩, rfl, rfl, rfl, fun q hq => (by cases hq)⟩
  · rfl
  · rfl
  · show Map.get 0 (Map.set _ _ _) 1 = v
    rfl
  · exact fun _ => rfl

/-- **C30 is false of the code, by any number**: for every limit and every number there is a reachable world with that limit and
that many providers.  All are whitelisted while none has answered. -/
theorem C30_unbounded (m n : Nat) (hm : 1 ≤ m) :
    ∃ w, Reachable w ∧ w.st.maxDelegationAddresses = m ∧ w.st.delegList.length = n := by
  obtain ⟨w, hr, hs, hf, hl, hE, hd⟩ := steady_start m (n * MIN_EGLD) n hm
  have hnd : (List.range n).Nodup := List.nodup_range
  obtain ⟨w', ht, hs', _, hl', _⟩ := steady_batch (k := n) (Nat.le_refl _) (ps := List.range n) hs hf hnd (fun p _ => hd p)
    (by rw [hl]; simp) (by rw [List.length_range, hE]) (by simp)
  exact ⟨w', reachable_trace (reachableBy_reachable hr) ht, hs'.lim, by rw [hl', hl]; simp⟩

/-- The bound of `C30_partial` is met exactly, for every limit and every number of whitelistings at a time. -/
theorem C30_tight (m k : Nat) (hm : 1 ≤ m) (hk : 1 ≤ k) :
    ∃ w, ReachableBy (FewAtATime k) w ∧ w.st.maxDelegationAddresses = m ∧ underWay w = 0 ∧
      w.st.delegList.length = m + k := by
  obtain ⟨w, hr, hs, hf, hl, hE, hd⟩ := steady_start m ((m + k) * MIN_EGLD) k hm
  rw [Nat.add_mul] at hE
  obtain ⟨w1, ht1, hs1, hf1, hl1, hE1, hq1⟩ := steady_singles (k := k) (Nat.le_refl _) hk (List.range m) hs hf List.nodup_range
    (fun p _ => hd p) (by rw [hl]; simp) (by rw [List.length_range, hE]; omega)
  rw [List.length_range] at hE1
  obtain ⟨w2, ht2, hs2, hf2, hl2, _, _⟩ := steady_batch (k := k) (Nat.le_refl _) (ps := List.range' m k) hs1 hf1 List.nodup_range'
    (fun p hp => by
      rw [hq1 p (by rw [List.mem_range'_1] at hp; rw [List.mem_range]; omega)]; exact hd p)
    (by rw [hl1, hl]; simp) (by rw [List.length_range']; omega) (by simp)
  obtain ⟨w0, h0, ht0⟩ := hr
  exact ⟨w2, ⟨w0, h0, trace_join ht0 (trace_join ht1 ht2)⟩, hs2.lim, by unfold underWay; rw [hf2]; rfl,
    by rw [hl2, hl1, hl]; simp⟩

/-- A limit of two, and 50 providers. -/
example : ∃ w, Reachable w ∧ w.st.maxDelegationAddresses = 2 ∧ w.st.delegList.length = 50 := C30_unbounded 2 50 (by decide)

example : ∃ w, ReachableBy (FewAtATime 3) w ∧ w.st.maxDelegationAddresses = 2 ∧ underWay w = 0 ∧ w.st.delegList.length = 5 :=
  C30_tight 2 3 (by decide) (by decide)

/-- The cap declared for `p` stays `cap`, and no un-delegation at `p` is answered by a failure. -/
def CapKept (p : Addr) (cap : Nat) (w : World) (op : Op) (_ : World) : Prop :=
  (∀ c ts cap' n apy e, op = .changeParams c p ts cap' n apy e → cap' = cap) ∧
  ∀ i a, op = .deliver i .err → w.flights[i]? ≠ some (.undelegate p a)

/-- The total declared for `p` counts what this contract has there, whenever a batch is sent. -/
def Declared (p : Addr) (w : World) (op : Op) (_ : World) : Prop :=
  ∀ c o d, op = .delegatePending c o → provider w p = some d → netStake w p ≤ d.totalStaked

private theorem net_step {w w' : World} {op : Op} {p : Addr} {d : ProviderData} (hr : Reachable w) (hs : step w op = .ok w')
    (hp : p ∈ w.st.delegList) (hd : provider w p = some d) (hc0 : d.cap ≠ 0) (hk : CapKept p d.cap w op w') :
    ∃ d', provider w' p = some d' ∧ d'.cap = d.cap ∧ (netStake w' p ≤ netStake w p ∨
      ∃ c o a, op = .delegatePending c o ∧ netStake w' p = netStake w p + a ∧ netStake w p + oneEgld ≤ d.cap ∧
        d.totalStaked + a ≤ d.cap) := by
  have hone : MIN_EGLD = oneEgld := rfl
  have hri := reachable_regInv hr
  have hnw : ∀ (i x : Nat) (u : Addr), w.flights[i]? ≠ some (Flight.whitelist p x u) := fun i x u hf =>
    (hri.wl2 p x u (List.mem_of_getElem? hf)).1 hp
  have h := pstep p hri hs
  unfold provider at hd
  have n1 : ∀ (w : World) (d : ProviderData), w.st.data.get none p = some d →
      netStake w p = d.staked + d.pStake - d.pUnstake := by
    intro w d hd; unfold netStake figure provider; rw [hd]
  have n2 := n1 w'
  rw [n1 w d hd]
  rw [hd] at h
  unfold provider
  generalize w'.st.data.get none p = x' at h n2 ⊢
  generalize ho : some d = x at h
  cases h with
  | same => subst ho; exact ⟨d, rfl, rfl, .inl (by rw [n2 d rfl])⟩
  | added => cases ho
  | dropped _ i x u _ hf => exact absurd hf (hnw i x u)
  | joined _ i _ _ x u _ hf => exact absurd hf (hnw i x u)
  | admin => cases ho; exact ⟨_, rfl, rfl, .inl (by rw [n2 _ rfl])⟩
  | params _ c ts cap n apy e hop => cases ho; exact ⟨_, rfl, hk.1 c ts cap n apy e hop, .inl (by rw [n2 _ rfl])⟩
  | sent _ c o a hop hm ha he hn hc =>
    cases ho
    refine ⟨_, rfl, rfl, .inr ⟨c, o, a, hop, ?_⟩⟩
    rw [n2 _ rfl]
    dsimp only
    rcases hc with hc | hc
    · exact absurd hc hc0
    · omega
  | asked _ _ _ _ _ => cases ho; refine ⟨_, rfl, rfl, .inl ?_⟩; rw [n2 _ rfl]; dsimp only; omega
  | stakeOk _ _ _ _ _ _ => cases ho; refine ⟨_, rfl, rfl, .inl ?_⟩; rw [n2 _ rfl]; dsimp only; omega
  | stakeErr _ _ _ _ => cases ho; refine ⟨_, rfl, rfl, .inl ?_⟩; rw [n2 _ rfl]; dsimp only; omega
  | unstakeOk _ _ _ _ _ _ => cases ho; refine ⟨_, rfl, rfl, .inl ?_⟩; rw [n2 _ rfl]; dsimp only; omega
  | unstakeErr _ i a hop hf => exact absurd hf (hk.2 i a hop)
  | returned _ _ _ _ _ => cases ho; refine ⟨_, rfl, rfl, .inl ?_⟩; rw [n2 _ rfl]

/-- **C19, what holds over a history.**  The full claim is refuted by `C19_false`.  From any reachable world with `p` among the
providers, as long as its cap is not changed and no un-delegation there fails: the net stake at `p` stays below twice the cap, or
does not exceed what it was. -/
theorem C19_twice_partial {w w' : World} {p : Addr} {d : ProviderData} (hr : Reachable w) (hp : p ∈ w.st.delegList)
    (hd : provider w p = some d) (hcap : d.cap ≠ 0) (ht : Trace (CapKept p d.cap) w w') :
    netStake w' p ≤ netStake w p ∨ netStake w' p + oneEgld ≤ 2 * d.cap := by
  suffices h : ∃ d', provider w' p = some d' ∧ d'.cap = d.cap ∧
      (netStake w' p ≤ netStake w p ∨ netStake w' p + oneEgld ≤ 2 * d.cap) from
    let ⟨_, _, _, h⟩ := h; h
  induction ht with
  | nil => exact ⟨d, hd, rfl, .inl (Nat.le_refl _)⟩
  | @snoc w1 w2 op ht hs hk ih =>
    obtain ⟨d1, hd1, hc1, hb⟩ := ih
    have hl : Later w w1 := trace_mono (fun _ _ _ _ => trivial) ht
    obtain ⟨d2, hd2, hc2, h⟩ := net_step (reachable_trace hr ht) hs (C31_never_removed hr hl hp).1 hd1 (hc1 ▸ hcap) (hc1 ▸ hk)
    refine ⟨d2, hd2, hc2.trans hc1, ?_⟩
    rw [hc1] at h
    rcases h with h | ⟨_, _, a, _, h1, h2, h3⟩ <;> omega

/-- **C19, what holds when the declared total is kept up to date.**  If moreover, whenever a batch is sent, the total declared
for `p` is at least what the contract has there, the net stake stays within the cap, or does not exceed what it was. -/
theorem C19_declared_partial {w w' : World} {p : Addr} {d : ProviderData} (hr : Reachable w) (hp : p ∈ w.st.delegList)
    (hd : provider w p = some d) (hcap : d.cap ≠ 0)
    (ht : Trace (fun w op w' => CapKept p d.cap w op w' ∧ Declared p w op w') w w') :
    netStake w' p ≤ netStake w p ∨ netStake w' p ≤ d.cap := by
  suffices h : ∃ d', provider w' p = some d' ∧ d'.cap = d.cap ∧ (netStake w' p ≤ netStake w p ∨ netStake w' p ≤ d.cap) from
    let ⟨_, _, _, h⟩ := h; h
  induction ht with
  | nil => exact ⟨d, hd, rfl, .inl (Nat.le_refl _)⟩
  | @snoc w1 w2 op ht hs hk ih =>
    obtain ⟨d1, hd1, hc1, hb⟩ := ih
    have hl : Later w w1 := trace_mono (fun _ _ _ _ => trivial) ht
    obtain ⟨d2, hd2, hc2, h⟩ :=
      net_step (reachable_trace hr ht) hs (C31_never_removed hr hl hp).1 hd1 (hc1 ▸ hcap) (hc1 ▸ hk.1)
    refine ⟨d2, hd2, hc2.trans hc1, ?_⟩
    rw [hc1] at h
    rcases h with h | ⟨c, o, a, hop, h1, h2, h3⟩
    · omega
    · have := hk.2 c o d1 hop hd1
      omega

/-- A provider with cap 15 of which one EGLD is used. -/
private def capped : World := run active [.whitelist 1 (E 1) 21 41 0 (E 15) 10 800, .deliver 0 (.ok 0 0), .delegate 11 (E 28)]

private def overCap : List Op := [.delegatePending 1 (some (E 13)), .deliver 0 (.ok 0 0), .delegatePending 1 (some (E 15)),
  .deliver 0 (.ok 0 0)]

private def capOne (p : Addr) (cap : Nat) (w : World) : Op → Bool
  | .changeParams _ q _ cap' _ _ _ => decide (q ≠ p ∨ cap' = cap)
  | .deliver i .err => match w.flights[i]? with | some (.undelegate q _) => decide (q ≠ p) | _ => true
  | _ => true

private def capChk (p : Addr) (cap : Nat) : World → List Op → Bool
  | _, [] => true
  | w, op :: ops => capOne p cap w op && capChk p cap (exec w op) ops

private theorem capChk_trace {p : Addr} {cap : Nat} {w : World} {ops : List Op} (h : capChk p cap w ops = true) :
    Trace (CapKept p cap) w (run w ops) := by
  refine trace_of_run (capChk p cap) (fun w op ops h => ?_) ops w h
  rw [capChk, Bool.and_eq_true] at h
  refine ⟨h.2, fun w' _ => ⟨?_, ?_⟩⟩
  · rintro c ts cap' n apy e rfl
    have h1 := h.1
    simpa [capOne] using h1
  · rintro i a rfl hf
    have h1 := h.1
    simp [capOne, hf] at h1

/-- The bound is met exactly: 29 EGLD at a cap of 15, though no un-delegation failed. -/
example : Reachable capped ∧ 21 ∈ capped.st.delegList ∧ (∃ d, provider capped 21 = some d ∧ d.cap = E 15) ∧
    netStake capped 21 = E 1 ∧ Trace (CapKept 21 (E 15)) capped (run capped overCap) ∧
    netStake (run capped overCap) 21 + oneEgld = 2 * E 15 :=
  ⟨reachable_run active_reachable _, by decide +kernel, ⟨_, rfl, by decide +kernel⟩, by decide +kernel,
    capChk_trace (by decide +kernel), by decide +kernel⟩

/-- Failing un-delegations are needed as an exception: after one the provider holds 44 EGLD at a cap of 15. -/
example : let w := run (run capped overCap) [.unDelegate 11 0 [⟨500, 0, E 25⟩], .unDelegatePending 1 none, .delegate 12 (E 15),
      .delegatePending 1 none, .deliver 1 (.ok 0 0), .deliver 0 .err]
    Reachable w ∧ netStake w 21 = E 44 ∧ ∃ d, provider w 21 = some d ∧ d.cap = E 15 :=
  ⟨reachable_run (reachable_run (reachable_run active_reachable _) _) _, by decide +kernel, ⟨_, rfl, by decide +kernel⟩⟩

/-- The admin declares what the contract has there, before each batch. -/
private def upToDate : List Op := [.changeParams 41 21 (E 1) (E 15) 10 800 true, .delegatePending 1 (some (E 13)),
  .deliver 0 (.ok 0 0), .changeParams 41 21 (E 14) (E 15) 10 800 true, .delegatePending 1 (some (E 1))]

private def declOne (p : Addr) (w : World) : Op → Bool
  | .delegatePending .. => match provider w p with | some d => decide (netStake w p ≤ d.totalStaked) | none => true
  | _ => true

private def declChk (p : Addr) (cap : Nat) : World → List Op → Bool
  | _, [] => true
  | w, op :: ops => (capOne p cap w op && declOne p w op) && declChk p cap (exec w op) ops

private theorem declChk_trace {p : Addr} {cap : Nat} {w : World} {ops : List Op} (h : declChk p cap w ops = true) :
    Trace (fun w op w' => CapKept p cap w op w' ∧ Declared p w op w') w (run w ops) := by
  refine trace_of_run (declChk p cap) (fun w op ops h => ?_) ops w h
  rw [declChk, Bool.and_eq_true, Bool.and_eq_true] at h
  obtain ⟨⟨h1, h2⟩, h3⟩ := h
  refine ⟨h3, fun w' _ => ⟨⟨?_, ?_⟩, ?_⟩⟩
  · rintro c ts cap' n apy e rfl
    simpa [capOne] using h1
  · rintro i a rfl hf
    simp [capOne, hf] at h1
  · rintro c o d rfl hd
    simpa [declOne, hd] using h2

example : Reachable capped ∧ 21 ∈ capped.st.delegList ∧ (∃ d, provider capped 21 = some d ∧ d.cap = E 15) ∧
    Trace (fun w op w' => CapKept 21 (E 15) w op w' ∧ Declared 21 w op w') capped (run capped upToDate) ∧
    netStake (run capped upToDate) 21 = E 15 ∧ works (run capped upToDate) (.delegatePending 1 (some (E 1))) = false :=
  ⟨reachable_run active_reachable _, by decide +kernel, ⟨_, rfl, by decide +kernel⟩, declChk_trace (by decide +kernel),
    by decide +kernel, by decide +kernel⟩

end LS
