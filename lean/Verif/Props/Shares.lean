import Verif.Proofs.ShareLemmas

/-! How delegation batches are shared between the providers: C45. -/

namespace LS
open Spec Demo

private theorem sels_of {w w' : World} {b : List (Addr × Nat)} {sels : List Selection}
    (hf : w'.flights = w.flights ++ sels.map (fun s => Flight.delegate s.address s.amount))
    (hb : w'.flights = w.flights ++ delegations b) : b = batchOf sels := by
  rw [hf, delegations_eq] at hb
  exact (delegations_inj (List.append_cancel_left hb)).symm

private theorem res_room {w : World} {cfg : ScoringConfig} {l l0 : List Addr} {A T rem left : Nat} {res : List Selection}
    (hp : ∀ p ∈ l, provider w p ≠ none)
    (hd : distributeLoop A T true MIN_EGLD (l.map (scoredFor w cfg l0)) rem = .ok (res, left)) :
    (res.map Selection.address).Sublist l ∧
    ∀ s ∈ res, ∀ x, s.spaceLeft = some x → room w s.address = some (s.amount + x) := by
  obtain ⟨hsum0, infos, hsub, hfit⟩ := distributeLoop_ok MIN_EGLD_pos hd
  clear hsum0
  have haddr : res.map Selection.address = infos.map SelInfo.address :=
    forall2_addr (hfit.imp fun _ _ => Fits.final)
  refine ⟨?_, ?_⟩
  · rw [haddr]
    have := hsub.map SelInfo.address
    rw [List.map_map] at this
    have hid : (SelInfo.address ∘ scoredFor w cfg l0) = id := by
      funext p; exact scoredFor_address w cfg l0 p
    rw [hid, List.map_id] at this
    exact this
  · clear hd haddr
    have hin : ∀ i ∈ infos, ∃ p ∈ l, i = scoredFor w cfg l0 p := by
      intro i hi
      obtain ⟨p, hp, rfl⟩ := List.mem_map.1 (hsub.subset hi)
      exact ⟨p, hp, rfl⟩
    clear hsub
    induction hfit with
    | nil => simp
    | @cons i0 _ is0 _ hx _ ih =>
      intro s hs x hsx
      rcases List.mem_cons.1 hs with rfl | hs
      · obtain ⟨p, hpl, rfl⟩ := hin i0 (by simp)
        obtain ⟨f1, _, f3, _⟩ := hx
        rcases f3 rfl with ⟨_, g⟩ | ⟨sp, g1, g2, g3⟩
        · rw [g] at hsx; cases hsx
        · rw [g3] at hsx
          cases hsx
          rw [scoredFor_space (hp p hpl)] at g1
          rw [f1, scoredFor_address, g1]
          congr 1
          omega
      · exact ih (fun i hi => hin i (by simp [hi])) s hs x hsx

/-- **C45**, completeness: only candidates are addressed, and EGLD of the batch is kept back only if every provider addressed
has received all the room it has. -/
theorem C45_complete {w w' : World} {c : Addr} {o : Option Nat} {b : List (Addr × Nat)} (hr : Reachable w)
    (h : step w (.delegatePending c o) = .ok w') (hb : w'.flights = w.flights ++ delegations b)
    (hn : w.st.delegList.length < 2 ^ 32) :
    (b.map Prod.fst).Sublist (candidates w (batchAsked (pendingEgld w) o)) ∧
    (batchTotal b = batchAsked (pendingEgld w) o ∨ ∀ p a, (p, a) ∈ b → room w p = some a) := by
  obtain ⟨cfg, sels, res, rem, left, hf, _, _, _, hd, htop, hsum⟩ := delegatePending_shares h (reachable_limits hr).1 hn
  have hbs := sels_of hf hb
  obtain ⟨h1, h2⟩ := res_room (fun p hp => openTo_provider (mem_candidates hp).2) hd
  have hfst : b.map Prod.fst = sels.map Selection.address := by rw [hbs]; simp [batchOf]
  refine ⟨by rw [hfst, top_address htop]; exact h1, ?_⟩
  rcases Nat.eq_zero_or_pos left with h0 | h0
  · left
    rw [hbs, batchTotal_eq]
    omega
  · right
    intro p a hp
    rw [hbs] at hp
    obtain ⟨s, hs, hpa⟩ := List.mem_map.1 hp
    simp only [Prod.mk.injEq] at hpa
    obtain ⟨rfl, rfl⟩ := hpa
    exact top_full htop h2 h0 s hs

private theorem withinRoom_eq {w : World} {p : Addr} {x : Nat} : withinRoom w p x = cut (room w p) x := rfl

/-- **C45**, fair shares.  Every candidate whose share, cut down to its room, reaches one EGLD receives at least that; no other
candidate receives anything; and a provider receives more than that only when all addressed before it are filled up. -/
theorem C45_fair_shares {w w' : World} {c : Addr} {o : Option Nat} {b : List (Addr × Nat)} {cfg : ScoringConfig} (hr : Reachable w)
    (h : step w (.delegatePending c o) = .ok w') (hb : w'.flights = w.flights ++ delegations b)
    (hn : w.st.delegList.length < 2 ^ 32) (hcfg : w.st.scoring = some cfg) {A : Nat} (hA : A = batchAsked (pendingEgld w) o)
    {l : List Addr} (hl : l = candidates w A) (hT : 0 < scoresOf w cfg l) :
    b.map Prod.fst = l.filter (fun p => decide (oneEgld ≤ withinRoom w p (fairShare w cfg l A p))) ∧
    (∀ p a, (p, a) ∈ b → withinRoom w p (fairShare w cfg l A p) ≤ a) ∧
    (∀ b1 p a b2, b = b1 ++ (p, a) :: b2 → withinRoom w p (fairShare w cfg l A p) < a →
      ∀ q x, (q, x) ∈ b1 → room w q = some x) := by
  obtain ⟨cfg', sels, res, rem, left, hf, hcfg', _, _, hd, htop, hsum⟩ := delegatePending_shares h (reachable_limits hr).1 hn
  rw [hcfg] at hcfg'
  cases hcfg'
  have hbs := sels_of hf hb
  rw [← hA, ← hl] at hd
  have hprov : ∀ p ∈ l, provider w p ≠ none := by
    intro p hp; rw [hl] at hp; exact openTo_provider (mem_candidates hp).2
  obtain ⟨_, hroom⟩ := res_room hprov hd
  have hsc : ((l.map (scoredFor w cfg l)).map SelInfo.score).sum = scoresOf w cfg l := by
    rw [List.map_map]; rfl
  have hparts : parts A (scoresOf w cfg l) (l.map (scoredFor w cfg l)) ≤ A := by
    have := parts_le (A := A) hT (l.map (scoredFor w cfg l))
    rw [hsc, Nat.mul_comm (scoresOf w cfg l)] at this
    exact Nat.le_of_mul_le_mul_right this hT
  have hres := distributeLoop_eq hT hd hparts
  have hent : ∀ p ∈ l, cut (scoredFor w cfg l p).spaceLeft ((scoredFor w cfg l p).score * A / scoresOf w cfg l) =
      withinRoom w p (fairShare w cfg l A p) := by
    intro p hp
    rw [withinRoom_eq, scoredFor_space (hprov p hp)]; rfl
  have hone : MIN_EGLD = oneEgld := rfl
  have haddr : res.map Selection.address =
      l.filter (fun p => decide (oneEgld ≤ withinRoom w p (fairShare w cfg l A p))) := by
    rw [hres, List.filter_map, List.map_map, List.map_map]
    have hid : (Selection.address ∘ fun i : SelInfo => ({ address := i.address, amount := cut i.spaceLeft (i.score * A / scoresOf w cfg l), spaceLeft := i.spaceLeft.map (· - cut i.spaceLeft (i.score * A / scoresOf w cfg l)) } : Selection)) ∘ scoredFor w cfg l = id := by
      funext p; exact scoredFor_address w cfg l p
    rw [hid, List.map_id]
    apply List.filter_congr
    intro p hp
    show decide (MIN_EGLD ≤ cut (scoredFor w cfg l p).spaceLeft ((scoredFor w cfg l p).score * A / scoresOf w cfg l)) = _
    rw [hent p hp, hone]
  have hbase : ∀ s ∈ res, s.amount = withinRoom w s.address (fairShare w cfg l A s.address) := by
    intro s hs
    rw [hres] at hs
    obtain ⟨i, hi, rfl⟩ := List.mem_map.1 hs
    obtain ⟨p, hp, rfl⟩ := List.mem_map.1 (List.mem_filter.1 hi).1
    show cut _ _ = _
    rw [hent p hp, scoredFor_address]
  obtain ⟨t1, t2⟩ := top_share (w := w) (e := fun p => withinRoom w p (fairShare w cfg l A p)) htop hbase hroom
  have hfst : b.map Prod.fst = sels.map Selection.address := by rw [hbs]; simp [batchOf]
  refine ⟨by rw [hfst, top_address htop, haddr], ?_, ?_⟩
  · intro p a hp
    rw [hbs] at hp
    obtain ⟨s, hs, hpa⟩ := List.mem_map.1 hp
    simp only [Prod.mk.injEq] at hpa
    obtain ⟨rfl, rfl⟩ := hpa
    exact t1 s hs
  · intro b1 p a b2 hb1 hlt q x hq
    rw [hbs] at hb1
    obtain ⟨l1, l2', he1, he2, he3⟩ := List.map_eq_append_iff.1 hb1
    obtain ⟨s, l2, rfl, hs2, _⟩ := List.map_eq_cons_iff.1 he3
    simp only [Prod.mk.injEq] at hs2
    obtain ⟨rfl, rfl⟩ := hs2
    rw [← he2] at hq
    obtain ⟨y, hy, hyq⟩ := List.mem_map.1 hq
    simp only [Prod.mk.injEq] at hyq
    obtain ⟨rfl, rfl⟩ := hyq
    exact t2 l1 s l2 he1 hlt y hy

private theorem all_small {A T m : Nat} {f : Addr → Nat} (hT : 0 < T) : ∀ {l : List Addr}, l ≠ [] → (∀ p ∈ l, f p * A / T < m) →
    (l.map f).sum * A < l.length * m * T := by
  intro l
  induction l with
  | nil => intro h; exact absurd rfl h
  | cons p ps ih =>
    intro _ hs
    have h1 : f p * A < m * T := (Nat.div_lt_iff_lt_mul hT).1 (hs p (by simp))
    have e1 : ((p :: ps).map f).sum * A = f p * A + (ps.map f).sum * A := by simp [Nat.add_mul]
    have e2 : (p :: ps).length * m * T = m * T + ps.length * m * T := by
      rw [List.length_cons, Nat.add_mul, Nat.add_mul, Nat.one_mul]; omega
    rw [e1, e2]
    by_cases hp : ps = []
    · subst hp; simp; exact h1
    · have := ih hp (fun p hp' => hs p (by simp [hp']))
      omega

/-- **C45**, nothing kept back when nobody is capped: the whole amount asked for is sent. -/
theorem C45_all_sent {w w' : World} {c : Addr} {o : Option Nat} {b : List (Addr × Nat)} (hr : Reachable w)
    (h : step w (.delegatePending c o) = .ok w') (hb : w'.flights = w.flights ++ delegations b)
    (hn : w.st.delegList.length < 2 ^ 32)
    (hcap : ∀ p ∈ candidates w (batchAsked (pendingEgld w) o), room w p = none) :
    batchTotal b = batchAsked (pendingEgld w) o := by
  obtain ⟨hsub, hall | hall⟩ := C45_complete hr h hb hn
  · exact hall
  have hnil : b = [] := by
    cases hbb : b with
    | nil => rfl
    | cons x xs =>
      rw [hbb] at hall hsub
      have h1 := hall x.1 x.2 (by simp)
      rw [hcap x.1 (hsub.subset (by simp))] at h1
      cases h1
  subst hnil
  exfalso
  obtain ⟨cfg, sels, res, rem, left, hf, hcfg, hA1, hne, hd, htop, hsum⟩ := delegatePending_shares h (reachable_limits hr).1 hn
  generalize hA : batchAsked (pendingEgld w) o = A at *
  generalize hl : candidates w A = l at *
  by_cases hT : 0 < scoresOf w cfg l
  · obtain ⟨h1, _⟩ := C45_fair_shares hr h hb hn hcfg hA.symm hl.symm hT
    have h2 : ∀ p ∈ l, scoreAmong w cfg l p * A / scoresOf w cfg l < oneEgld := by
      intro p hp
      by_contra hge
      have : p ∈ l.filter (fun p => decide (oneEgld ≤ withinRoom w p (fairShare w cfg l A p))) := by
        refine List.mem_filter.2 ⟨hp, decide_eq_true ?_⟩
        unfold withinRoom
        rw [hcap p hp]
        unfold fairShare
        simp only
        omega
      rw [← h1] at this
      simp at this
    have h3 := all_small hT hne h2
    have h4 : scoresOf w cfg l * A < l.length * oneEgld * scoresOf w cfg l := h3
    rw [Nat.mul_comm (scoresOf w cfg l)] at h4
    have h5 : A < l.length * oneEgld := Nat.lt_of_mul_lt_mul_right h4
    have h6 : l.length ≤ A / oneEgld := by
      rw [← hl]
      unfold candidates howMany
      refine Nat.le_trans (List.length_take_le _ _) ?_
      omega
    have h7 : l.length * oneEgld ≤ A := by
      refine Nat.le_trans (Nat.mul_le_mul_right _ h6) (Nat.div_mul_le_self _ _)
    omega
  · have h0 : scoresOf w cfg l = 0 := by omega
    have hbs := sels_of hf hb
    have hs0 : sels = [] := by
      cases hss : sels with
      | nil => rfl
      | cons s ss => rw [hss] at hbs; simp [batchOf] at hbs
    have hr0 : res = [] := by
      have := top_address htop
      rw [hs0] at this
      exact List.map_eq_nil_iff.1 this.symm
    rw [h0, hr0] at hd
    cases hll : l with
    | nil => exact hne hll
    | cons p ps =>
      rw [hll] at hd hcap
      have hpr : provider w p ≠ none := by
        refine openTo_provider (mem_candidates (A := A) ?_).2
        rw [hl, hll]; simp
      have hamt : providerAmount (scoredFor w cfg (p :: ps) p) A A 0 true MIN_EGLD = .ok A := by
        unfold providerAmount proportionOf
        rw [if_neg (Nat.lt_irrefl 0)]
        simp only [scoredFor_space hpr, hcap p (by simp), if_true]
        show Except.ok (min A A) = _
        rw [Nat.min_self]
      have hA2 : MIN_EGLD ≤ A := hA1
      simp only [List.map_cons, distributeLoop, bind_ok] at hd
      obtain ⟨amt, ha, hd⟩ := hd
      rw [hamt] at ha
      simp only [Except.ok.injEq] at ha
      subst ha
      rw [if_pos hA2] at hd
      simp only [bind_ok, Prod.exists, Except.ok.injEq, Prod.mk.injEq] at hd
      obtain ⟨_, _, _, _, ss, _, _, hd, _⟩ := hd
      cases hd

/-- Nobody has a score: the providers are served in turn, each as much of what is left as it has room for, and one that could get less
than one EGLD is passed over. -/
def Spec.firstCome (w : World) : List Addr → Nat → List (Addr × Nat)
  | [], _ => []
  | p :: l, x =>
    if oneEgld ≤ withinRoom w p x then (p, withinRoom w p x) :: firstCome w l (x - withinRoom w p x) else firstCome w l x

private theorem loop_firstCome {w : World} {cfg : ScoringConfig} {l0 : List Addr} {A : Nat} :
    ∀ {l : List Addr} {x rem : Nat} {res : List Selection}, (∀ p ∈ l, provider w p ≠ none) →
    distributeLoop A 0 true MIN_EGLD (l.map (scoredFor w cfg l0)) x = .ok (res, rem) →
    batchOf res = firstCome w l x ∧ (0 < rem → ∀ s ∈ res, s.spaceLeft = some 0) ∧ rem ≤ x := by
  intro l
  induction l with
  | nil =>
    intro x rem res _ h
    simp only [List.map_nil, distributeLoop, Except.ok.injEq, Prod.mk.injEq] at h
    obtain ⟨rfl, rfl⟩ := h
    exact ⟨rfl, by simp, Nat.le_refl _⟩
  | cons p ps ih =>
    intro x rem res hp h
    have hpp := hp p (by simp)
    have hps : ∀ q ∈ ps, provider w q ≠ none := fun q hq => hp q (by simp [hq])
    have hamt : providerAmount (scoredFor w cfg l0 p) A x 0 true MIN_EGLD = .ok (withinRoom w p x) := by
      unfold providerAmount proportionOf withinRoom
      rw [if_neg (Nat.lt_irrefl 0)]
      simp only [scoredFor_space hpp, if_true]
      cases room w p with
      | none => show Except.ok (min x x) = _; rw [Nat.min_self]
      | some r =>
        show Except.ok (min (min x r) x) = Except.ok (min x r)
        congr 1; omega
    simp only [List.map_cons, distributeLoop, bind_ok] at h
    obtain ⟨amt, ha, h⟩ := h
    rw [hamt] at ha
    simp only [Except.ok.injEq] at ha
    subst ha
    rw [ite_ok] at h
    rcases h with ⟨h1, h⟩ | ⟨h1, h⟩
    · simp only [bind_ok, csub_ok, Prod.exists, Except.ok.injEq, Prod.mk.injEq] at h
      obtain ⟨x', ⟨hle, rfl⟩, sp, hsp, ss, left, hl, rfl, rfl⟩ := h
      obtain ⟨i1, i2, i3⟩ := ih hps hl
      have hone : MIN_EGLD = oneEgld := rfl
      refine ⟨?_, ?_, by omega⟩
      · rw [firstCome, if_pos (by rw [← hone]; exact h1), ← i1]
        simp [batchOf, scoredFor_address]
      · intro hr s hs
        rcases List.mem_cons.1 hs with rfl | hs
        · unfold spaceAfter at hsp
          rw [scoredFor_space hpp] at hsp
          unfold withinRoom at hsp i3
          cases hroom : room w p with
          | none => rw [hroom] at i3; simp only at i3; omega
          | some r =>
            rw [hroom] at i3 hsp
            simp only [if_true, bind_ok, csub_ok, Except.ok.injEq] at i3 hsp
            obtain ⟨y, ⟨_, rfl⟩, rfl⟩ := hsp
            show some _ = some 0
            congr 1
            omega
        · exact i2 hr s hs
    · obtain ⟨i1, i2, i3⟩ := ih hps h
      refine ⟨?_, i2, i3⟩
      rw [firstCome, if_neg (show ¬ oneEgld ≤ _ from h1), i1]

private theorem top_grows {ps ps' : List Selection} {left : Nat} (h : Top ps ps' left) : selSum ps ≤ selSum ps' := by
  induction h with
  | same => exact Nat.le_refl _
  | nil => exact Nat.le_refl _
  | stop p p' ps ha hle => simp only [selSum, List.map_cons, List.sum_cons]; omega
  | full p p' ps ps' left x ha hx hp _ ih => simp only [selSum, List.map_cons, List.sum_cons] at ih ⊢; omega

private theorem top_still {ps ps' : List Selection} {left : Nat} (h : Top ps ps' left) (hs : selSum ps' ≤ selSum ps) :
    batchOf ps' = batchOf ps := by
  induction h with
  | same => rfl
  | nil => rfl
  | stop p p' ps ha hle =>
    simp only [selSum, List.map_cons, List.sum_cons] at hs
    simp only [batchOf, List.map_cons, ha, (by omega : p'.amount = p.amount)]
  | full p p' ps ps' left x ha hx hp ht ih =>
    have := top_grows ht
    simp only [selSum, List.map_cons, List.sum_cons] at hs this ih
    have e := ih (by omega)
    simp only [batchOf] at e
    simp only [batchOf, List.map_cons, ha, e, (by omega : p'.amount = p.amount)]

private theorem top_zero {ps ps' : List Selection} {left : Nat} (h : Top ps ps' left) (hz : ∀ s ∈ ps, s.spaceLeft = some 0) :
    batchOf ps' = batchOf ps := by
  induction h with
  | same => rfl
  | nil => rfl
  | stop p p' ps ha hle hsp =>
    have := hsp 0 (hz p (by simp))
    simp only [batchOf, List.map_cons, ha, (by omega : p'.amount = p.amount)]
  | full p p' ps ps' left x ha hx hp ht ih =>
    have h0 := hz p (by simp)
    rw [hx, Option.some.injEq] at h0
    have e := ih fun s hs => hz s (by simp [hs])
    simp only [batchOf] at e
    simp only [batchOf, List.map_cons, ha, e, (by omega : p'.amount = p.amount)]

/-- **C45**, when no candidate has a score: first come, first served. -/
theorem C45_no_scores {w w' : World} {c : Addr} {o : Option Nat} {b : List (Addr × Nat)} {cfg : ScoringConfig} (hr : Reachable w)
    (h : step w (.delegatePending c o) = .ok w') (hb : w'.flights = w.flights ++ delegations b)
    (hn : w.st.delegList.length < 2 ^ 32) (hcfg : w.st.scoring = some cfg) {A : Nat} (hA : A = batchAsked (pendingEgld w) o)
    {l : List Addr} (hl : l = candidates w A) (hT : scoresOf w cfg l = 0) : b = firstCome w l A := by
  obtain ⟨cfg', sels, res, rem, left, hf, hcfg', _, _, hd, htop, hsum⟩ := delegatePending_shares h (reachable_limits hr).1 hn
  rw [hcfg] at hcfg'
  cases hcfg'
  have hbs := sels_of hf hb
  rw [← hA] at hsum hd
  rw [← hl, hT] at hd
  obtain ⟨h1, h2, _⟩ := loop_firstCome (fun p hp => openTo_provider (mem_candidates (hl ▸ hp)).2) hd
  rw [hbs, ← h1]
  rcases Nat.eq_zero_or_pos rem with h0 | h0
  · refine top_still htop ?_
    have := (distributeLoop_ok MIN_EGLD_pos hd).1
    omega
  · exact top_zero htop (h2 h0)

/-- 150 EGLD shared between the two providers of `deposited`, one capped with ample room, the other not. -/
example : Reachable deposited ∧ works deposited (.delegatePending 1 none) = true ∧
    candidates deposited (pendingEgld deposited) = [21, 22] ∧ deposited.st.scoring = some .default ∧
    0 < scoresOf deposited .default [21, 22] ∧ room deposited 21 = some (E 500) ∧ room deposited 22 = none ∧
    oneEgld < fairShare deposited .default [21, 22] (pendingEgld deposited) 21 ∧
    oneEgld < fairShare deposited .default [21, 22] (pendingEgld deposited) 22 :=
  ⟨deposited_reachable, by decide +kernel, by decide +kernel, by decide +kernel, by decide +kernel, by decide +kernel,
    by decide +kernel, by decide +kernel, by decide +kernel⟩

/-- A configuration with no points to win.  With 21's cap lowered to what it has plus 30 EGLD, 30 of the 150 EGLD go there. -/
example :
    let w := run deposited [.setScoringConfig 1 { ScoringConfig.default with maxScorePerCategory := 0 },
      .changeParams 1 21 (E 500) (E 530) 10 800 true]
    works w (.delegatePending 1 none) = true ∧
    scoresOf w { ScoringConfig.default with maxScorePerCategory := 0 } (candidates w (pendingEgld w)) = 0 ∧
    firstCome w (candidates w (pendingEgld w)) (pendingEgld w) = [(21, E 30), (22, E 120)] := by
  decide +kernel

end LS
