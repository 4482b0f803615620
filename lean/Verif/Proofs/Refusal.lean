import Verif.Proofs.Network
import Verif.Proofs.Lists
import Verif.Props.Batch

/-! In the network with mocks no delegation and no un-delegation is refused. -/

namespace LS
open Spec

/-- A delegation or an un-delegation. -/
def moves : Flight → Bool
  | .delegate .. | .undelegate .. => true
  | _ => false

/-- The stake at `p` when all requests of a list are accepted in order; `none` when more is asked back than is there. -/
def stakeRun (p : Addr) : Nat → List Flight → Option Nat
  | v, [] => some v
  | v, .delegate q a :: l => stakeRun p (if q = p then v + a else v) l
  | v, .undelegate q a :: l => if q = p then (if a ≤ v then stakeRun p (v - a) l else none) else stakeRun p v l
  | v, .withdraw _ :: l | v, .claim _ :: l | v, .whitelist _ _ _ :: l => stakeRun p v l

theorem stakeRun_append {p : Addr} : ∀ {l l' : List Flight} {v : Nat}, stakeRun p v (l ++ l') = (stakeRun p v l).bind (stakeRun p · l')
  | [], _, _ => rfl
  | f :: l, l', v => by
    cases f with
    | delegate q a => exact stakeRun_append (l := l)
    | undelegate q a =>
      show (if q = p then (if a ≤ v then stakeRun p (v - a) (l ++ l') else none) else stakeRun p v (l ++ l')) =
        (if q = p then (if a ≤ v then stakeRun p (v - a) l else none) else stakeRun p v l).bind _
      by_cases h : q = p
      · by_cases h' : a ≤ v
        · simp only [if_pos h, if_pos h']; exact stakeRun_append
        · simp only [if_pos h, if_neg h']; rfl
      · simp only [if_neg h]; exact stakeRun_append
    | withdraw q => exact stakeRun_append (l := l)
    | claim ps => exact stakeRun_append (l := l)
    | whitelist q x u => exact stakeRun_append (l := l)

theorem stakeRun_skip {p : Addr} : ∀ {l : List Flight} {v : Nat}, (∀ f ∈ l, moves f = true → target f ≠ some p) → stakeRun p v l = some v
  | [], _, _ => rfl
  | f :: l, v, h => by
    have ih := fun v => stakeRun_skip (l := l) (v := v) fun g hg => h g (List.mem_cons_of_mem _ hg)
    have hf := h f (List.mem_cons_self ..)
    cases f with
    | delegate q a =>
      have : q ≠ p := fun e => hf rfl (by rw [e]; rfl)
      show stakeRun p (if q = p then _ else _) l = _
      rw [if_neg this, ih]
    | undelegate q a =>
      have : q ≠ p := fun e => hf rfl (by rw [e]; rfl)
      show (if q = p then _ else _) = _
      rw [if_neg this, ih]
    | withdraw q => exact ih v
    | claim ps => exact ih v
    | whitelist q x u => exact ih v

theorem stakeRun_value {p : Addr} : ∀ {l : List Flight} {v v' : Nat}, stakeRun p v l = some v' →
    v' + fsum (undelegAmt p) l = v + fsum (delegAmt p) l
  | [], v, v', h => by cases h; rfl
  | f :: l, v, v', h => by
    rw [fsum_cons, fsum_cons]
    cases f with
    | delegate q a =>
      have h : stakeRun p (if q = p then v + a else v) l = some v' := h
      have := stakeRun_value h
      by_cases e : q = p
      · simp only [if_pos e, delegAmt, undelegAmt] at *; omega
      · simp only [if_neg e, delegAmt, undelegAmt] at *; omega
    | undelegate q a =>
      have h : (if q = p then (if a ≤ v then stakeRun p (v - a) l else none) else stakeRun p v l) = some v' := h
      by_cases e : q = p
      · rw [if_pos e] at h
        by_cases h' : a ≤ v
        · rw [if_pos h'] at h
          have := stakeRun_value h
          simp only [if_pos e, delegAmt, undelegAmt] at *; omega
        · rw [if_neg h'] at h; cases h
      · rw [if_neg e] at h
        have := stakeRun_value h
        simp only [if_neg e, delegAmt, undelegAmt] at *; omega
    | withdraw q => have := stakeRun_value (l := l) h; simp only [delegAmt, undelegAmt]; omega
    | claim ps => have := stakeRun_value (l := l) h; simp only [delegAmt, undelegAmt]; omega
    | whitelist q x u => have := stakeRun_value (l := l) h; simp only [delegAmt, undelegAmt]; omega

/-- A batch of un-delegations from different providers, each within what is there. -/
theorem stakeRun_batch {p : Addr} : ∀ {b : List (Addr × Nat)} {v : Nat}, (b.map Prod.fst).Nodup → (∀ a, (p, a) ∈ b → a ≤ v) →
    stakeRun p v (undelegations b) ≠ none
  | [], v, _, _ => by intro h; cases h
  | (q, a) :: b, v, hnd, h => by
    obtain ⟨h1, h2⟩ := List.nodup_cons.1 hnd
    show (if q = p then (if a ≤ v then stakeRun p (v - a) (undelegations b) else none) else stakeRun p v (undelegations b)) ≠ none
    by_cases e : q = p
    · subst e
      rw [if_pos rfl, if_pos (h a (List.mem_cons_self ..)), stakeRun_skip]
      · simp
      · intro f hf _ ht
        obtain ⟨⟨r, x⟩, hx, rfl⟩ := List.mem_map.1 hf
        have : r = q := by simpa [target] using ht
        exact h1 (List.mem_map.2 ⟨(r, x), hx, this⟩)
    · rw [if_neg e]
      exact stakeRun_batch h2 fun x hx => h x (List.mem_cons_of_mem _ hx)

theorem effs_stake {p : Addr} : ∀ {l : List (Flight × Option Outcome)} {b b' : Books} {x v : Nat},
    (∀ e ∈ l, target e.1 = some p → e.2 ≠ none) → (∀ e ∈ l, e.2 = some .err → moves e.1 = false) →
    effs p b l = some b' → stakeRun p x (l.map Prod.fst) = some v → x ≤ b.stake → v ≤ b'.stake
  | [], b, b', x, v, _, _, h, h', hx => by cases h; cases h'; exact hx
  | (f, a) :: l, b, b', x, v, hs, he, h, h', hx => by
    have h : (eff p b (f, a)).bind (effs p · l) = some b' := h
    obtain ⟨b1, hb1, h⟩ := Option.bind_eq_some_iff.1 h
    have ih := fun x => effs_stake (x := x) (v := v) (fun e h => hs e (List.mem_cons_of_mem _ h))
      (fun e h => he e (List.mem_cons_of_mem _ h)) h
    have hs0 := hs _ (List.mem_cons_self ..)
    have he0 := he _ (List.mem_cons_self ..)
    by_cases ht : target f = some p
    · obtain ⟨o, ho⟩ := Option.ne_none_iff_exists'.1 (hs0 ht)
      have ho : a = some o := ho
      subst ho
      have hb2 : (serveOne b f o).toOption = some b1 := by
        have : eff p b (f, some o) = (serveOne b f o).toOption := by
          unfold eff; show (if _ then _ else _) = _; rw [if_pos ht]
        rw [← this]; exact hb1
      have hb3 : serveOne b f o = .ok b1 := by
        cases hx : serveOne b f o with
        | error e => rw [hx] at hb2; cases hb2
        | ok y => rw [hx] at hb2; cases hb2; rfl
      cases f with
      | claim ps => cases ht
      | delegate q y =>
        cases ht
        cases o with
        | err => exact absurd (he0 rfl) (by simp [moves])
        | ok g r =>
          cases hb3
          have h' : stakeRun p (if p = p then x + y else x) (l.map Prod.fst) = some v := h'
          rw [if_pos rfl] at h'
          exact ih _ h' (by show x + y ≤ b.stake + y; omega)
      | whitelist q y u =>
        cases ht
        have h' : stakeRun p x (l.map Prod.fst) = some v := h'
        refine ih _ h' ?_
        cases o with
        | err => cases hb3; exact hx
        | ok g r => cases hb3; show x ≤ b.stake + y; omega
      | undelegate q y =>
        cases ht
        cases o with
        | err => exact absurd (he0 rfl) (by simp [moves])
        | ok g r =>
          obtain ⟨z, hz, hb3⟩ := bind_ok.1 hb3
          have := csub_ok.1 hz
          cases hb3
          have h' : (if p = p then (if y ≤ x then stakeRun p (x - y) (l.map Prod.fst) else none) else _) = some v := h'
          rw [if_pos rfl] at h'
          by_cases hy : y ≤ x
          · rw [if_pos hy] at h'
            exact ih _ h' (by show x - y ≤ z; omega)
          · rw [if_neg hy] at h'; cases h'
      | withdraw q =>
        cases ht
        have h' : stakeRun p x (l.map Prod.fst) = some v := h'
        refine ih _ h' ?_
        cases o with
        | err => cases hb3; exact hx
        | ok g r =>
          obtain ⟨z, hz, hb3⟩ := bind_ok.1 hb3
          cases hb3; exact hx
    · rw [eff_other ht] at hb1
      cases hb1
      have h' : stakeRun p x (f :: l.map Prod.fst) = some v := h'
      have h1 : stakeRun p x ([f] ++ l.map Prod.fst) = some v := h'
      rw [stakeRun_append, stakeRun_skip (l := [f]) (fun g hg _ => by rw [List.mem_singleton.1 hg]; exact ht)] at h1
      exact ih _ h1 hx

/-- The invariant of the network. -/
structure NetInv (n : Net) : Prop where
  listed : ∀ p ∈ n.w.st.delegList, n.mocks.get none p ≠ none
  joining : ∀ p x u g r, (.whitelist p x u, some (.ok g r)) ∈ n.msgs → n.mocks.get none p ≠ none
  accepted : ∀ e ∈ n.msgs, e.2 = some .err → moves e.1 = false
  enough : ∀ p, stakeRun p (recBooks n.w p).stake n.w.flights ≠ none

theorem get_set_ne {ms : Mocks} {p q : Addr} {m : Mock} (h : ms.get none q ≠ none) : (ms.set p (some m)).get none q ≠ none := by
  rw [Map.get_set]
  split
  · simp
  · exact h

theorem claimMulti_deployed {now : UInt64} : ∀ {ps : List Addr} {ms ms' : Mocks} {t : Nat}, claimMulti now ps ms = .ok (ms', t) →
    ∀ q, ms.get none q ≠ none → ms'.get none q ≠ none
  | [], ms, ms', t, h, q, hq => by cases h; exact hq
  | p :: ps, ms, ms', t, h, q, hq => by
    obtain ⟨m, m', r, t', hm, hc, h, _⟩ := claimMulti_cons.1 h
    exact claimMulti_deployed h q (get_set_ne hq)

/-- A mock stays deployed. -/
theorem respond_deployed {now : UInt64} {ms : Mocks} {f : Flight} {q : Addr} (h : ms.get none q ≠ none) :
    (respond now ms f).2.get none q ≠ none := by
  have gen : ∀ (p : Addr) (k : Mock → Res (Mock × Nat)), (onMock ms p k).2.get none q ≠ none := by
    intro p k
    unfold onMock
    cases hm : ms.get none p with
    | none => exact h
    | some m =>
      cases hkm : k m with
      | error e => simp only [hkm]; exact h
      | ok x => simp only [hkm]; exact get_set_ne h
  cases f with
  | claim ps =>
    rcases respond_claim (now := now) (ms := ms) (ps := ps) with ⟨t, ms', h1, h'⟩ | ⟨e, _, h'⟩
    · rw [h']; exact claimMulti_deployed h1 q h
    · rw [h']; exact h
  | _ => exact gen _ _

/-- A request to move stake is accepted when it is served. -/
theorem accepted_of {n : Net} (hr : NetReachable n) (h : NetInv n) {i : Nat} {f : Flight} (hm : n.msgs[i]? = some (f, none))
    (ho : NetInOrder n (.serve i)) (hf : moves f = true) : (respond n.w.epoch n.mocks f).1 = .ok 0 0 := by
  obtain ⟨B, hB, hb⟩ := net_refines hr
  have hinv := sysInv (sysReachable_mono (Q := InOrder) (fun _ _ h => h.1) hB)
  have hreg : RegOk n.w.st.lsToken n.w.st.unstakeToken n.w.st.delegList n.w.st.undelegList n.w.st.data n.w.flights n.w.dead :=
    reachable_regInv hinv.reach
  have hfl : n.w.flights[i]? = some f := by rw [← (net_inv hr).2, List.getElem?_map, hm]; rfl
  have hmem := List.mem_of_getElem? hfl
  cases f with
  | withdraw q => cases hf
  | claim ps => cases hf
  | whitelist q x u => cases hf
  | delegate p a =>
    obtain ⟨m, hm⟩ := Option.ne_none_iff_exists'.1 (h.listed p (hreg.flt p a (.inl hmem)))
    show (onMock n.mocks p _).1 = _
    unfold onMock; simp only [hm]
  | undelegate p a =>
    have hp := hreg.flt p a (.inr hmem)
    have hpos : 0 < a := Nat.lt_of_lt_of_le (by unfold MIN_EGLD; omega) (hreg.pos p a (.inr hmem))
    obtain ⟨mk, hmk⟩ := Option.ne_none_iff_exists'.1 (h.listed p hp)
    have hle : a ≤ mk.deposit := by
      obtain ⟨hsplit, hpre⟩ := msgs_split hm
      have heq : effs p (recBooks n.w p) n.msgs = some (booksOf ⟨n.w, n.msgs, B⟩ p) :=
        hinv.eq p fun hd => (reachable_deadWl hinv.reach p hd).1 hp
      rw [hb p] at heq
      have hbk : (mbooks n.mocks p).stake = mk.deposit := by unfold mbooks; rw [hmk]
      rw [hsplit, effs_append] at heq
      obtain ⟨b1, hb1, hb2⟩ := Option.bind_eq_some_iff.1 heq
      have hsv : (n.msgs.take i ++ (.undelegate p a, none) :: n.msgs.drop (i + 1)).Pairwise _ := hsplit ▸ hinv.served
      have hpost : effs p b1 ((.undelegate p a, none) :: n.msgs.drop (i + 1)) = some b1 := effs_id fun e he ht => by
        rcases List.mem_cons.1 he with rfl | he
        · rfl
        · have h1 := (List.pairwise_cons.1 (List.pairwise_append.1 hsv).2.1).1 e he
          have h1 := h1 (by rw [ht]; rfl) (by simp [target])
          by_contra hc
          exact h1 hc rfl
      rw [hpost] at hb2
      cases hb2
      have hen := h.enough p
      rw [← (net_inv hr).2, hsplit, List.map_append, stakeRun_append] at hen
      cases hv : stakeRun p (recBooks n.w p).stake ((n.msgs.take i).map Prod.fst) with
      | none => rw [hv] at hen; exact absurd rfl hen
      | some v =>
        rw [hv] at hen
        have hen : (if p = p then (if a ≤ v then _ else none) else _) ≠ none := hen
        rw [if_pos rfl] at hen
        have hav : a ≤ v := by
          by_contra hc
          rw [if_neg hc] at hen; exact hen rfl
        have := effs_stake (p := p) (fun e he ht => by
            obtain ⟨j, hj, hj'⟩ := hpre e he
            exact ho j hj e.1 _ e.2 none hj' hm (by rw [ht]; rfl) (by rw [ht]; simp))
          (fun e he hx => h.accepted e (List.mem_of_mem_take he) hx) hb1 hv (Nat.le_refl _)
        omega
    have : mk.unDelegate n.w.epoch a = .ok _ := unDelegate_mock.2 ⟨hpos, hle, rfl⟩
    show (onMock n.mocks p _).1 = _
    unfold onMock
    simp only [hmk, this]
    rfl

theorem netInv {n : Net} (hr : NetReachable n) : NetInv n := by
  induction hr with
  | init hi =>
    obtain ⟨self, owner, contracts, epoch, funds, acc, fees, rpe, mr, ms, ma, ub, _, _, rfl⟩ := isInit_eq hi
    exact ⟨fun p h => by simp at h, fun _ _ _ _ _ h => by simp at h, fun _ h => by simp at h, fun p h => by cases h⟩
  | @step n n' op hr ho hs ih =>
    obtain ⟨hreach, hmsgs⟩ := net_inv hr
    have hreg : RegOk n.w.st.lsToken n.w.st.unstakeToken n.w.st.delegList n.w.st.undelegList n.w.st.data n.w.flights n.w.dead :=
      reachable_regInv hreach
    have hr' := NetReach.step op hr ho hs
    cases op with
    | lose i => exact ho.elim
    | call op =>
      obtain ⟨hd, w', hw, rfl⟩ := net_call.1 hs
      have hrec := (call_frame hreach hd hw).1
      refine ⟨fun p hp => ?_, fun p x u g r hm => ?_, fun e he hx => ?_, fun p => ?_⟩
      · cases lstep (reachable_regInv hreach) hw with
        | same h => exact ih.listed p ((h p).1 hp)
        | joined i g r q x u hop hf ht hl => rw [hop] at hd; cases hd
      · have hm : _ ∈ n.msgs ++ _ := hm
        rcases List.mem_append.1 hm with h | h
        · exact ih.joining p x u g r h
        · obtain ⟨_, _, h⟩ := List.mem_map.1 h; cases h
      · have he : _ ∈ n.msgs ++ _ := he
        rcases List.mem_append.1 he with h | h
        · exact ih.accepted e h hx
        · obtain ⟨_, _, h⟩ := List.mem_map.1 h
          rw [← h] at hx; cases hx
      · show stakeRun p (recBooks w' p).stake w'.flights ≠ none
        rw [hrec p]
        have hen := ih.enough p
        obtain ⟨v, hv⟩ := Option.ne_none_iff_exists'.1 hen
        have skip : ∀ l : List Flight, (∀ f ∈ l, moves f = false) → stakeRun p (recBooks n.w p).stake (n.w.flights ++ l) ≠ none := by
          intro l hl
          rw [stakeRun_append, hv]
          show stakeRun p v l ≠ none
          rw [stakeRun_skip fun f hf h => by rw [hl f hf] at h; cases h]
          simp
        by_cases hop : ∃ c o, op = .unDelegatePending c o
        · obtain ⟨c, o, rfl⟩ := hop
          obtain ⟨b, h1, _, _, _, h2, _, h3, _⟩ := C20_unDelegatePending_exact hreach hw
          rw [h1, stakeRun_append, hv]
          refine stakeRun_batch h2 fun a ha => ?_
          have := (h3 p a ha).2.2.1
          have hval := stakeRun_value hv
          have hdead : ∀ g : Addr → Flight → Nat, (∀ f, moves f = false → g p f = 0) → fsum (g p) n.w.dead = 0 := by
            intro g hg
            obtain ⟨B, hB, _⟩ := net_refines hr
            have hno := C38_none_failed (sysReachable_mono (Q := InOrder) (fun _ _ h => h.1) hB)
            refine fsum_zero fun f hf => ?_
            have := hno f hf
            refine hg f ?_
            cases f with
            | delegate q a => exact absurd trivial this
            | undelegate q a => exact absurd trivial this
            | _ => rfl
          have e1 := hreg.ps p
          have e2 := hreg.pu p
          rw [hdead delegAmt (fun f h => by cases f <;> first | rfl | cases h)] at e1
          rw [hdead undelegAmt (fun f h => by cases f <;> first | rfl | cases h)] at e2
          unfold netStake at this
          rw [figure_recOf, figure_recOf, figure_recOf] at this
          have e3 : (recBooks n.w p).stake = recOf (·.staked) n.w.st.data p := rfl
          omega
        · have hst := fstep (reachable_regInv hreach) hw
          generalize w'.flights = fl at hst
          generalize w'.dead = dd at hst
          cases hst with
          | same => exact hen
          | delegated c o sels hop' h1 =>
            rw [stakeRun_append, hv]
            show stakeRun p v (sels.map _) ≠ none
            clear h1 hv
            induction sels generalizing v with
            | nil => intro h; cases h
            | cons s l ih => exact ih _
          | undelegated c o sels hop' h1 => exact absurd ⟨c, o, hop'⟩ hop
          | withdrawn c q hop' => exact skip _ fun f hf => by rw [List.mem_singleton.1 hf]; rfl
          | claimed c hop' => exact skip _ fun f hf => by rw [List.mem_singleton.1 hf]; rfl
          | whitelisted c x q ad ts cap nn apy hop' h1 h2 => exact skip _ fun f hf => by rw [List.mem_singleton.1 hf]; rfl
          | settled i o f w'' hop' hf hcb => rw [hop'] at hd; cases hd
          | died i o f e hop' hf hcb => rw [hop'] at hd; cases hd
          | starved i o f hop' hf => rw [hop'] at hd; cases hd
    | deploy p =>
      obtain ⟨hm, rfl⟩ := net_deploy.1 hs
      exact ⟨fun q hq => get_set_ne (ih.listed q hq), fun q x u g r hq => get_set_ne (ih.joining q x u g r hq), ih.accepted, ih.enough⟩
    | deposit p v =>
      obtain ⟨m, hm, rfl⟩ := net_deposit.1 hs
      exact ⟨fun q hq => get_set_ne (ih.listed q hq), fun q x u g r hq => get_set_ne (ih.joining q x u g r hq), ih.accepted, ih.enough⟩
    | serve i =>
      obtain ⟨f, he, rfl⟩ := net_serve.1 hs
      refine ⟨fun q hq => respond_deployed (ih.listed q hq), fun q x u g r hq => ?_, fun e hm hx => ?_, ih.enough⟩
      · rcases List.mem_or_eq_of_mem_set hq with h | h
        · exact respond_deployed (ih.joining q x u g r h)
        · have h1 : f = .whitelist q x u := (congrArg Prod.fst h).symm
          subst h1
          refine respond_deployed fun hn => ?_
          have h2 : some (Outcome.ok g r) = some (respond n.w.epoch n.mocks (.whitelist q x u)).1 := congrArg Prod.snd h
          have h3 : (respond n.w.epoch n.mocks (.whitelist q x u)).1 = .err := by
            show (onMock n.mocks q _).1 = _
            unfold onMock; simp only [hn]
          rw [h3] at h2; cases h2
      · rcases List.mem_or_eq_of_mem_set hm with h | h
        · exact ih.accepted e h hx
        · subst h
          show moves f = false
          cases hf : moves f with
          | false => rfl
          | true =>
            have := accepted_of hr ih he ho hf
            rw [this] at hx
            exact absurd hx (by simp)
    | answer i =>
      obtain ⟨f, o, w', he, hw, rfl⟩ := net_answer.1 hs
      have hfl : n.w.flights[i]? = some f := by rw [← hmsgs, List.getElem?_map, he]; rfl
      refine ⟨fun p hp => ?_, fun p x u g r hm => ?_, fun e hm hx => ?_, fun p => ?_⟩
      · cases lstep (reachable_regInv hreach) hw with
        | same h => exact ih.listed p ((h p).1 hp)
        | joined j g r q x u hop hf ht hl =>
          cases hop
          have hp : p ∈ w'.st.delegList := hp
          rw [hl, mem_setInsert] at hp
          rcases hp with hp | rfl
          · exact ih.listed p hp
          · rw [hfl] at hf; cases hf
            exact ih.joining _ _ _ _ _ (List.mem_of_getElem? he)
      · exact ih.joining p x u g r (List.mem_of_mem_eraseIdx hm)
      · exact ih.accepted e (List.mem_of_mem_eraseIdx hm) hx
      · have hfl' : w'.flights = n.w.flights.eraseIdx i := by
          rw [← (net_inv hr').2]
          show (n.msgs.eraseIdx i).map Prod.fst = _
          rw [map_eraseIdx, hmsgs]
        show stakeRun p (recBooks w' p).stake w'.flights ≠ none
        have hsplit := (msgs_split (l := n.msgs) he).1
        have hsplitf : n.w.flights = (n.msgs.take i).map Prod.fst ++ f :: (n.msgs.drop (i + 1)).map Prod.fst := by
          rw [← hmsgs]; conv_lhs => rw [hsplit]
          simp
        have hersf : w'.flights = (n.msgs.take i).map Prod.fst ++ (n.msgs.drop (i + 1)).map Prod.fst := by
          rw [hfl', ← hmsgs, ← map_eraseIdx, List.eraseIdx_eq_take_drop_succ, List.map_append]
        have hen := ih.enough p
        have other : target f ≠ some p ∨ moves f = false → (recBooks w' p).stake = (recBooks n.w p).stake →
            stakeRun p (recBooks w' p).stake w'.flights ≠ none := by
          intro h1 h2
          rw [h2, hersf, stakeRun_append]
          rw [hsplitf, stakeRun_append] at hen
          have hsk : ∀ v, stakeRun p v (f :: (n.msgs.drop (i + 1)).map Prod.fst) = stakeRun p v ((n.msgs.drop (i + 1)).map Prod.fst) := by
            intro v
            show stakeRun p v ([f] ++ _) = _
            rw [stakeRun_append, stakeRun_skip fun g hg hmv => by
              rw [List.mem_singleton.1 hg] at hmv ⊢
              rcases h1 with h1 | h1
              · exact h1
              · rw [h1] at hmv; cases hmv]
            rfl
          simp only [hsk] at hen
          exact hen
        by_cases ht : target f = some p
        · cases hmv : moves f with
          | true =>
            have hpre0 : ∀ v, stakeRun p v ((n.msgs.take i).map Prod.fst) = some v := fun v => stakeRun_skip fun g hg _ ht' => by
              obtain ⟨e', he', rfl⟩ := List.mem_map.1 hg
              obtain ⟨j, hj, hj'⟩ := (msgs_split (l := n.msgs) he).2 e' he'
              have := ho j hj e'.1 f e'.2 (some o) hj' he (by rw [ht', ht])
              rw [ht'] at this; cases this
            rw [hersf, stakeRun_append, hpre0]
            rw [hsplitf, stakeRun_append, hpre0] at hen
            have hset : Settling f := by
              cases f <;> first | exact trivial | cases hmv
            have hcb : runCallback (arrive n.w i f o) f o = .ok w' := by
              obtain ⟨f', hf', hcb⟩ := deliver_ok hw
              rw [hfl] at hf'; cases hf'
              rcases hcb with hcb | ⟨_, rfl⟩
              · exact hcb
              · obtain ⟨B, hB, _⟩ := net_refines hr'
                have hno := C38_none_failed (sysReachable_mono (Q := InOrder) (fun _ _ h => h.1) hB)
                exact absurd hset (hno f (List.mem_append_right _ (List.mem_singleton.2 rfl)))
            have hoko : ∃ g r, o = .ok g r := by
              cases o with
              | ok g r => exact ⟨g, r, rfl⟩
              | err =>
                have := ih.accepted _ (List.mem_of_getElem? he) rfl
                rw [show moves f = true from hmv] at this; cases this
            obtain ⟨g, r, rfl⟩ := hoko
            cases f with
            | delegate q a =>
              cases ht
              rw [answer_books hreach hfl rfl (b := { recBooks n.w p with stake := (recBooks n.w p).stake + a }) rfl hcb]
              have hen : stakeRun p (if p = p then (recBooks n.w p).stake + a else _) ((n.msgs.drop (i + 1)).map Prod.fst) ≠ none := hen
              rw [if_pos rfl] at hen
              exact hen
            | undelegate q a =>
              cases ht
              have hen : (if p = p then (if a ≤ (recBooks n.w p).stake then
                stakeRun p ((recBooks n.w p).stake - a) ((n.msgs.drop (i + 1)).map Prod.fst) else none) else _) ≠ none := hen
              rw [if_pos rfl] at hen
              by_cases hle : a ≤ (recBooks n.w p).stake
              · rw [if_pos hle] at hen
                rw [answer_books hreach hfl rfl
                  (b := { stake := (recBooks n.w p).stake - a, unbonding := (recBooks n.w p).unbonding + a })
                  (by show (csub _ _).bind _ = _; rw [csub, if_pos hle]; rfl) hcb]
                exact hen
              · rw [if_neg hle] at hen; exact absurd rfl hen
            | withdraw q => cases hmv
            | claim ps => cases hmv
            | whitelist q x u => cases hmv
          | false =>
            cases f with
            | delegate q a => cases hmv
            | undelegate q a => cases hmv
            | claim ps => cases ht
            | withdraw q =>
              cases ht
              refine other (.inr rfl) ?_
              have hP := pstep p (reachable_regInv hreach) hw
              unfold recBooks recOf
              generalize w'.st.data.get none p = o' at hP ⊢
              generalize n.w.st.data.get none p = o1 at hP ⊢
              have key : ∀ {j o' g}, Op.deliver i o = .deliver j o' → n.w.flights[j]? = some g → g = .withdraw p := by
                intro j o' g h1 h2
                cases h1
                rw [hfl] at h2; cases h2; rfl
              cases hP with
              | dropped _ i y v hop hf => cases key hop hf
              | stakeOk d i g r a hop hf => cases key hop hf
              | stakeErr d i a hop hf => cases key hop hf
              | unstakeOk d i g r a hop hf => cases key hop hf
              | unstakeErr d i a hop hf => cases key hop hf
              | joined d i g r x u hop hf => cases key hop hf
              | _ => rfl
            | whitelist q x u =>
              cases ht
              have hnl := (hreg.wl2 p x u (List.mem_of_getElem? hfl)).1
              rw [stakeRun_skip]
              · simp
              · intro g hg hmv ht
                rw [hfl'] at hg
                have hg := List.mem_of_mem_eraseIdx hg
                cases g with
                | delegate q a => cases ht; exact hnl (hreg.flt p a (.inl hg))
                | undelegate q a => cases ht; exact hnl (hreg.flt p a (.inr hg))
                | _ => cases hmv
        · exact other (.inl ht) (by rw [answer_other hreach hfl ht hw])

end LS
