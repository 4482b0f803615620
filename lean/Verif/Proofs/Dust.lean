import Verif.Proofs.Refusal

/-! In the network with mocks no un-delegation leaves a provider with less than one EGLD. -/

namespace LS
open Spec

/-- When all requests of a list are accepted in order, each un-delegation leaves `p` with nothing or with at least one EGLD. -/
def cleanRun (p : Addr) : Nat → List Flight → Prop
  | _, [] => True
  | v, .delegate q a :: l => cleanRun p (if q = p then v + a else v) l
  | v, .undelegate q a :: l => if q = p then Whole (v - a) ∧ cleanRun p (v - a) l else cleanRun p v l
  | v, .withdraw _ :: l | v, .claim _ :: l | v, .whitelist _ _ _ :: l => cleanRun p v l

theorem cleanRun_append {p : Addr} : ∀ {l l' : List Flight} {v v' : Nat}, stakeRun p v l = some v' →
    (cleanRun p v (l ++ l') ↔ cleanRun p v l ∧ cleanRun p v' l')
  | [], _, _, _, h => by cases h; exact ⟨fun h => ⟨trivial, h⟩, And.right⟩
  | f :: l, l', v, v', h => by
    cases f with
    | delegate q a => exact cleanRun_append (l := l) h
    | undelegate q a =>
      have h : (if q = p then (if a ≤ v then stakeRun p (v - a) l else none) else stakeRun p v l) = some v' := h
      show (if q = p then Whole (v - a) ∧ cleanRun p (v - a) (l ++ l') else cleanRun p v (l ++ l')) ↔
        (if q = p then Whole (v - a) ∧ cleanRun p (v - a) l else cleanRun p v l) ∧ _
      by_cases e : q = p
      · rw [if_pos e] at h
        by_cases h' : a ≤ v
        · rw [if_pos h'] at h
          rw [if_pos e, if_pos e, cleanRun_append h, and_assoc]
        · rw [if_neg h'] at h; cases h
      · rw [if_neg e] at h
        rw [if_neg e, if_neg e, cleanRun_append h]
    | withdraw q => exact cleanRun_append (l := l) h
    | claim ps => exact cleanRun_append (l := l) h
    | whitelist q x u => exact cleanRun_append (l := l) h

theorem cleanRun_skip {p : Addr} : ∀ {l : List Flight} {v : Nat}, (∀ f ∈ l, moves f = true → target f ≠ some p) → cleanRun p v l
  | [], _, _ => trivial
  | f :: l, v, h => by
    have ih := fun v => cleanRun_skip (l := l) (v := v) fun g hg => h g (List.mem_cons_of_mem _ hg)
    have hf := h f (List.mem_cons_self ..)
    cases f with
    | delegate q a => exact ih _
    | undelegate q a =>
      have : q ≠ p := fun e => hf rfl (by rw [e]; rfl)
      show (if q = p then _ else _)
      rw [if_neg this]; exact ih v
    | withdraw q => exact ih v
    | claim ps => exact ih v
    | whitelist q x u => exact ih v

/-- A batch of un-delegations from different providers. -/
theorem cleanRun_batch {p : Addr} : ∀ {b : List (Addr × Nat)} {v : Nat}, (b.map Prod.fst).Nodup →
    (∀ a, (p, a) ∈ b → Whole (v - a)) → cleanRun p v (undelegations b)
  | [], v, _, _ => trivial
  | (q, a) :: b, v, hnd, h => by
    obtain ⟨h1, h2⟩ := List.nodup_cons.1 hnd
    show (if q = p then Whole (v - a) ∧ cleanRun p (v - a) (undelegations b) else cleanRun p v (undelegations b))
    by_cases e : q = p
    · subst e
      rw [if_pos rfl]
      refine ⟨h a (List.mem_cons_self ..), cleanRun_skip ?_⟩
      intro f hf _ ht
      obtain ⟨⟨r, x⟩, hx, rfl⟩ := List.mem_map.1 hf
      have : r = q := by simpa [target] using ht
      exact h1 (List.mem_map.2 ⟨(r, x), hx, this⟩)
    · rw [if_neg e]
      exact cleanRun_batch h2 fun x hx => h x (List.mem_cons_of_mem _ hx)

/-- What a provider holds after serving a list of requests none of which is its whitelisting. -/
theorem effs_stake_eq {p : Addr} : ∀ {l : List (Flight × Option Outcome)} {b b' : Books} {v : Nat},
    (∀ e ∈ l, target e.1 = some p → e.2 ≠ none) → (∀ e ∈ l, e.2 = some .err → moves e.1 = false) →
    (∀ e ∈ l, ∀ y u, e.1 ≠ .whitelist p y u) →
    effs p b l = some b' → stakeRun p b.stake (l.map Prod.fst) = some v → b'.stake = v
  | [], b, b', v, _, _, _, h, h' => by cases h; cases h'; rfl
  | (f, a) :: l, b, b', v, hs, he, hw, h, h' => by
    have h : (eff p b (f, a)).bind (effs p · l) = some b' := h
    obtain ⟨b1, hb1, h⟩ := Option.bind_eq_some_iff.1 h
    have ih := effs_stake_eq (v := v) (fun e h => hs e (List.mem_cons_of_mem _ h))
      (fun e h => he e (List.mem_cons_of_mem _ h)) (fun e h => hw e (List.mem_cons_of_mem _ h)) h
    have hs0 := hs _ (List.mem_cons_self ..)
    have he0 := he _ (List.mem_cons_self ..)
    have hw0 := hw _ (List.mem_cons_self ..)
    by_cases ht : target f = some p
    · obtain ⟨o, ho⟩ := Option.ne_none_iff_exists'.1 (hs0 ht)
      have ho : a = some o := ho
      subst ho
      have hb2 : (serveOne b f o).toOption = some b1 := by
        have : eff p b (f, some o) = (serveOne b f o).toOption := by
          unfold eff; show (if _ then _ else _) = _; rw [if_pos ht]
        rw [← this]; exact hb1
      have hb3 : serveOne b f o = .ok b1 := by
        cases hx : serveOne b f o with
        | error e => rw [hx] at hb2; cases hb2
        | ok y => rw [hx] at hb2; cases hb2; rfl
      cases f with
      | claim ps => cases ht
      | delegate q y =>
        cases ht
        cases o with
        | err => exact absurd (he0 rfl) (by simp [moves])
        | ok g r =>
          cases hb3
          have h' : stakeRun p (if p = p then b.stake + y else b.stake) (l.map Prod.fst) = some v := h'
          rw [if_pos rfl] at h'
          exact ih h'
      | whitelist q y u =>
        cases ht
        exact absurd rfl (hw0 y u)
      | undelegate q y =>
        cases ht
        cases o with
        | err => exact absurd (he0 rfl) (by simp [moves])
        | ok g r =>
          obtain ⟨z, hz, hb3⟩ := bind_ok.1 hb3
          have hz' := csub_ok.1 hz
          cases hb3
          have h' : (if p = p then (if y ≤ b.stake then stakeRun p (b.stake - y) (l.map Prod.fst) else none) else _) = some v := h'
          rw [if_pos rfl] at h'
          by_cases hy : y ≤ b.stake
          · rw [if_pos hy] at h'
            refine ih ?_
            show stakeRun p z _ = _
            have : z = b.stake - y := by omega
            rw [this]; exact h'
          · rw [if_neg hy] at h'; cases h'
      | withdraw q =>
        cases ht
        have h' : stakeRun p b.stake (l.map Prod.fst) = some v := h'
        cases o with
        | err => cases hb3; exact ih h'
        | ok g r =>
          obtain ⟨z, hz, hb3⟩ := bind_ok.1 hb3
          cases hb3; exact ih h'
    · rw [eff_other ht] at hb1
      cases hb1
      have h1 : stakeRun p b.stake ([f] ++ l.map Prod.fst) = some v := h'
      rw [stakeRun_append, stakeRun_skip (l := [f]) (fun g hg _ => by rw [List.mem_singleton.1 hg]; exact ht)] at h1
      exact ih h1

/-- Every un-delegation on its way will leave nothing or at least one EGLD. -/
theorem netClean {n : Net} (hr : NetReachable n) (p : Addr) : cleanRun p (recBooks n.w p).stake n.w.flights := by
  induction hr with
  | init hi =>
    obtain ⟨self, owner, contracts, epoch, funds, acc, fees, rpe, mr, ms, ma, ub, _, _, rfl⟩ := isInit_eq hi
    trivial
  | @step n n' op hr ho hs ih =>
    have inv := netInv hr
    obtain ⟨hreach, hmsgs⟩ := net_inv hr
    have hreg : RegOk n.w.st.lsToken n.w.st.unstakeToken n.w.st.delegList n.w.st.undelegList n.w.st.data n.w.flights n.w.dead :=
      reachable_regInv hreach
    have hr' := NetReach.step op hr ho hs
    obtain ⟨v, hv⟩ := Option.ne_none_iff_exists'.1 (inv.enough p)
    cases op with
    | lose i => exact ho.elim
    | call op =>
      obtain ⟨hd, w', hw, rfl⟩ := net_call.1 hs
      have hrec := (call_frame hreach hd hw).1
      show cleanRun p (recBooks w' p).stake w'.flights
      rw [hrec p]
      have skip : ∀ l : List Flight, (∀ f ∈ l, moves f = false) → cleanRun p (recBooks n.w p).stake (n.w.flights ++ l) := by
        intro l hl
        exact (cleanRun_append hv).2 ⟨ih, cleanRun_skip fun f hf h => by rw [hl f hf] at h; cases h⟩
      by_cases hop : ∃ c o, op = .unDelegatePending c o
      · obtain ⟨c, o, rfl⟩ := hop
        obtain ⟨b, h1, _, _, _, h2, _, h3, _⟩ := C20_unDelegatePending_exact hreach hw
        rw [h1]
        refine (cleanRun_append hv).2 ⟨ih, cleanRun_batch h2 fun a ha => ?_⟩
        have hwh := (h3 p a ha).2.2.2.1
        have hval := stakeRun_value hv
        have hdead : ∀ g : Addr → Flight → Nat, (∀ f, moves f = false → g p f = 0) → fsum (g p) n.w.dead = 0 := by
          intro g hg
          obtain ⟨B, hB, _⟩ := net_refines hr
          have hno := C38_none_failed (sysReachable_mono (Q := InOrder) (fun _ _ h => h.1) hB)
          refine fsum_zero fun f hf => ?_
          have := hno f hf
          refine hg f ?_
          cases f with
          | delegate q a => exact absurd trivial this
          | undelegate q a => exact absurd trivial this
          | _ => rfl
        have e1 := hreg.ps p
        have e2 := hreg.pu p
        rw [hdead delegAmt (fun f h => by cases f <;> first | rfl | cases h)] at e1
        rw [hdead undelegAmt (fun f h => by cases f <;> first | rfl | cases h)] at e2
        have e3 : (recBooks n.w p).stake = recOf (·.staked) n.w.st.data p := rfl
        have e4 : netStake n.w p = v := by
          unfold netStake
          rw [figure_recOf, figure_recOf, figure_recOf]
          omega
        rw [e4] at hwh; exact hwh
      · have hst := fstep (reachable_regInv hreach) hw
        generalize w'.flights = fl at hst
        generalize w'.dead = dd at hst
        cases hst with
        | same => exact ih
        | delegated c o sels hop' h1 =>
          refine (cleanRun_append hv).2 ⟨ih, ?_⟩
          show cleanRun p v (sels.map _)
          clear h1 hv
          induction sels generalizing v with
          | nil => trivial
          | cons s l ih => exact ih _
        | undelegated c o sels hop' h1 => exact absurd ⟨c, o, hop'⟩ hop
        | withdrawn c q hop' => exact skip _ fun f hf => by rw [List.mem_singleton.1 hf]; rfl
        | claimed c hop' => exact skip _ fun f hf => by rw [List.mem_singleton.1 hf]; rfl
        | whitelisted c x q ad ts cap nn apy hop' h1 h2 => exact skip _ fun f hf => by rw [List.mem_singleton.1 hf]; rfl
        | settled i o f w'' hop' hf hcb => rw [hop'] at hd; cases hd
        | died i o f e hop' hf hcb => rw [hop'] at hd; cases hd
        | starved i o f hop' hf => rw [hop'] at hd; cases hd
    | deploy q =>
      obtain ⟨hm, rfl⟩ := net_deploy.1 hs
      exact ih
    | deposit q v =>
      obtain ⟨m, hm, rfl⟩ := net_deposit.1 hs
      exact ih
    | serve i =>
      obtain ⟨f, he, rfl⟩ := net_serve.1 hs
      exact ih
    | answer i =>
      obtain ⟨f, o, w', he, hw, rfl⟩ := net_answer.1 hs
      have hfl : n.w.flights[i]? = some f := by rw [← hmsgs, List.getElem?_map, he]; rfl
      have hfl' : w'.flights = n.w.flights.eraseIdx i := by
        rw [← (net_inv hr').2]
        show (n.msgs.eraseIdx i).map Prod.fst = _
        rw [map_eraseIdx, hmsgs]
      show cleanRun p (recBooks w' p).stake w'.flights
      have hsplit := (msgs_split (l := n.msgs) he).1
      have hsplitf : n.w.flights = (n.msgs.take i).map Prod.fst ++ f :: (n.msgs.drop (i + 1)).map Prod.fst := by
        rw [← hmsgs]; conv_lhs => rw [hsplit]
        simp
      have hersf : w'.flights = (n.msgs.take i).map Prod.fst ++ (n.msgs.drop (i + 1)).map Prod.fst := by
        rw [hfl', ← hmsgs, ← map_eraseIdx, List.eraseIdx_eq_take_drop_succ, List.map_append]
      rw [hsplitf, stakeRun_append] at hv
      obtain ⟨v1, hv1, hv2⟩ := Option.bind_eq_some_iff.1 hv
      rw [hsplitf, cleanRun_append hv1] at ih
      have other : target f ≠ some p ∨ moves f = false → (recBooks w' p).stake = (recBooks n.w p).stake →
          cleanRun p (recBooks w' p).stake w'.flights := by
        intro h1 h2
        have hnf : ∀ g ∈ [f], moves g = true → target g ≠ some p := fun g hg hmv => by
          rw [List.mem_singleton.1 hg] at hmv ⊢
          rcases h1 with h1 | h1
          · exact h1
          · rw [h1] at hmv; cases hmv
        rw [h2, hersf, cleanRun_append hv1]
        have ih2 : cleanRun p v1 ([f] ++ (n.msgs.drop (i + 1)).map Prod.fst) := ih.2
        rw [cleanRun_append (stakeRun_skip hnf)] at ih2
        exact ⟨ih.1, ih2.2⟩
      by_cases ht : target f = some p
      · cases hmv : moves f with
        | true =>
          have hno : ∀ g ∈ (n.msgs.take i).map Prod.fst, moves g = true → target g ≠ some p := fun g hg _ ht' => by
            obtain ⟨e', he', rfl⟩ := List.mem_map.1 hg
            obtain ⟨j, hj, hj'⟩ := (msgs_split (l := n.msgs) he).2 e' he'
            have := ho j hj e'.1 f e'.2 (some o) hj' he (by rw [ht', ht])
            rw [ht'] at this; cases this
          have hpre0 : ∀ v, stakeRun p v ((n.msgs.take i).map Prod.fst) = some v := fun v => stakeRun_skip hno
          rw [hpre0] at hv1
          cases hv1
          rw [hersf, cleanRun_append (hpre0 _)]
          refine ⟨cleanRun_skip hno, ?_⟩
          have ih2 := ih.2
          have hset : Settling f := by
            cases f <;> first | exact trivial | cases hmv
          have hcb : runCallback (arrive n.w i f o) f o = .ok w' := by
            obtain ⟨f', hf', hcb⟩ := deliver_ok hw
            rw [hfl] at hf'; cases hf'
            rcases hcb with hcb | ⟨_, rfl⟩
            · exact hcb
            · obtain ⟨B, hB, _⟩ := net_refines hr'
              have hno := C38_none_failed (sysReachable_mono (Q := InOrder) (fun _ _ h => h.1) hB)
              exact absurd hset (hno f (List.mem_append_right _ (List.mem_singleton.2 rfl)))
          have hoko : ∃ g r, o = .ok g r := by
            cases o with
            | ok g r => exact ⟨g, r, rfl⟩
            | err =>
              have := inv.accepted _ (List.mem_of_getElem? he) rfl
              rw [show moves f = true from hmv] at this; cases this
          obtain ⟨g, r, rfl⟩ := hoko
          cases f with
          | delegate q a =>
            cases ht
            rw [answer_books hreach hfl rfl (b := { recBooks n.w p with stake := (recBooks n.w p).stake + a }) rfl hcb]
            have ih2 : cleanRun p (if p = p then (recBooks n.w p).stake + a else _) ((n.msgs.drop (i + 1)).map Prod.fst) := ih2
            rw [if_pos rfl] at ih2
            exact ih2
          | undelegate q a =>
            cases ht
            have ih2 : (if p = p then Whole ((recBooks n.w p).stake - a) ∧
              cleanRun p ((recBooks n.w p).stake - a) ((n.msgs.drop (i + 1)).map Prod.fst) else _) := ih2
            rw [if_pos rfl] at ih2
            have hv2 : (if p = p then (if a ≤ (recBooks n.w p).stake then
              stakeRun p ((recBooks n.w p).stake - a) ((n.msgs.drop (i + 1)).map Prod.fst) else none) else _) = some v := hv2
            rw [if_pos rfl] at hv2
            by_cases hle : a ≤ (recBooks n.w p).stake
            · rw [answer_books hreach hfl rfl
                (b := { stake := (recBooks n.w p).stake - a, unbonding := (recBooks n.w p).unbonding + a })
                (by show (csub _ _).bind _ = _; rw [csub, if_pos hle]; rfl) hcb]
              exact ih2.2
            · rw [if_neg hle] at hv2; cases hv2
          | withdraw q => cases hmv
          | claim ps => cases hmv
          | whitelist q x u => cases hmv
        | false =>
          cases f with
          | delegate q a => cases hmv
          | undelegate q a => cases hmv
          | claim ps => cases ht
          | withdraw q =>
            cases ht
            refine other (.inr rfl) ?_
            have hP := pstep p (reachable_regInv hreach) hw
            unfold recBooks recOf
            generalize w'.st.data.get none p = o' at hP ⊢
            generalize n.w.st.data.get none p = o1 at hP ⊢
            have key : ∀ {j o' g}, Op.deliver i o = .deliver j o' → n.w.flights[j]? = some g → g = .withdraw p := by
              intro j o' g h1 h2
              cases h1
              rw [hfl] at h2; cases h2; rfl
            cases hP with
            | dropped _ i y v hop hf => cases key hop hf
            | stakeOk d i g r a hop hf => cases key hop hf
            | stakeErr d i a hop hf => cases key hop hf
            | unstakeOk d i g r a hop hf => cases key hop hf
            | unstakeErr d i a hop hf => cases key hop hf
            | joined d i g r x u hop hf => cases key hop hf
            | _ => rfl
          | whitelist q x u =>
            cases ht
            have hnl := (hreg.wl2 p x u (List.mem_of_getElem? hfl)).1
            refine cleanRun_skip ?_
            intro g hg hmv ht
            rw [hfl'] at hg
            have hg := List.mem_of_mem_eraseIdx hg
            cases g with
            | delegate q a => cases ht; exact hnl (hreg.flt p a (.inl hg))
            | undelegate q a => cases ht; exact hnl (hreg.flt p a (.inr hg))
            | _ => cases hmv
      · exact other (.inl ht) (by rw [answer_other hreach hfl ht hw])

/-- An un-delegation served in order takes what the mock has and leaves nothing or at least one EGLD. -/
theorem clean_of {n : Net} (hr : NetReachable n) {i : Nat} {p : Addr} {a : Nat} {m : Mock} (hm : n.msgs[i]? = some (.undelegate p a, none))
    (ho : NetInOrder n (.serve i)) (hmk : n.mocks.get none p = some m) : a ≤ m.deposit ∧ Whole (m.deposit - a) := by
  have h := netInv hr
  obtain ⟨B, hB, hb⟩ := net_refines hr
  have hinv := sysInv (sysReachable_mono (Q := InOrder) (fun _ _ h => h.1) hB)
  have hreg : RegOk n.w.st.lsToken n.w.st.unstakeToken n.w.st.delegList n.w.st.undelegList n.w.st.data n.w.flights n.w.dead :=
    reachable_regInv hinv.reach
  have hfl : n.w.flights[i]? = some (.undelegate p a) := by rw [← (net_inv hr).2, List.getElem?_map, hm]; rfl
  have hp := hreg.flt p a (.inr (List.mem_of_getElem? hfl))
  obtain ⟨hsplit, hpre⟩ := msgs_split hm
  have heq : effs p (recBooks n.w p) n.msgs = some (booksOf ⟨n.w, n.msgs, B⟩ p) :=
    hinv.eq p fun hd => (reachable_deadWl hinv.reach p hd).1 hp
  rw [hb p] at heq
  have hbk : (mbooks n.mocks p).stake = m.deposit := by unfold mbooks; rw [hmk]
  rw [hsplit, effs_append] at heq
  obtain ⟨b1, hb1, hb2⟩ := Option.bind_eq_some_iff.1 heq
  have hsv : (n.msgs.take i ++ (.undelegate p a, none) :: n.msgs.drop (i + 1)).Pairwise _ := hsplit ▸ hinv.served
  have hpost : effs p b1 ((.undelegate p a, none) :: n.msgs.drop (i + 1)) = some b1 := effs_id fun e he ht => by
    rcases List.mem_cons.1 he with rfl | he
    · rfl
    · have h1 := (List.pairwise_cons.1 (List.pairwise_append.1 hsv).2.1).1 e he
      have h1 := h1 (by rw [ht]; rfl) (by simp [target])
      by_contra hc
      exact h1 hc rfl
  rw [hpost] at hb2
  cases hb2
  have hen := h.enough p
  rw [← (net_inv hr).2, hsplit, List.map_append, stakeRun_append] at hen
  have hcl := netClean hr p
  rw [← (net_inv hr).2] at hcl
  rw [hsplit, List.map_append] at hcl
  cases hv : stakeRun p (recBooks n.w p).stake ((n.msgs.take i).map Prod.fst) with
  | none => rw [hv] at hen; exact absurd rfl hen
  | some v =>
    rw [hv] at hen
    have hen : (if p = p then (if a ≤ v then _ else none) else _) ≠ none := hen
    rw [if_pos rfl] at hen
    have hav : a ≤ v := by
      by_contra hc
      rw [if_neg hc] at hen; exact hen rfl
    have hcl : (if p = p then Whole (v - a) ∧ _ else _) := ((cleanRun_append hv).1 hcl).2
    rw [if_pos rfl] at hcl
    have := effs_stake_eq (p := p) (fun e he ht => by
        obtain ⟨j, hj, hj'⟩ := hpre e he
        exact ho j hj e.1 _ e.2 none hj' hm (by rw [ht]; rfl) (by rw [ht]; simp))
      (fun e he hx => h.accepted e (List.mem_of_mem_take he) hx)
      (fun e he y u hx => by
        have he' : e.1 ∈ n.w.flights := by
          rw [← (net_inv hr).2]; exact List.mem_map.2 ⟨e, List.mem_of_mem_take he, rfl⟩
        rw [hx] at he'
        exact (hreg.wl2 p y u he').1 hp) hb1 hv
    rw [hbk] at this
    rw [this]
    exact ⟨hav, hcl.1⟩

end LS
