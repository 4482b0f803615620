import Verif.Props.Scoring

/-! How a delegation batch is shared between the providers. -/

namespace LS
open Spec

/-- The selection record of a provider, before scoring. -/
def infoFor (w : World) (p : Addr) : SelInfo :=
  match provider w p with
  | some d => { address := p, score := 0, totalStaked := d.totalStaked, apy := d.apy, nrNodes := d.nrNodes,
                stakedLs := netStake w p, spaceLeft := room w p }
  | none => { address := p, score := 0, totalStaked := 0, apy := 0, nrNodes := 0, stakedLs := 0, spaceLeft := none }

theorem infoFor_address (w : World) (p : Addr) : (infoFor w p).address = p := by
  unfold infoFor; split <;> rfl

theorem netStake_of {w : World} {p : Addr} {d : ProviderData} (h : provider w p = some d) :
    netStake w p = d.staked + d.pStake - d.pUnstake := by
  unfold netStake figure; rw [h]

theorem considerProvider_eq {w : World} {a : Addr} {sel sel' : List SelInfo} {tot tot' : Nat}
    (h : considerProvider w.st MIN_EGLD a sel tot = .ok (sel', tot')) :
    (openTo w a = true ∧ sel' = sel ++ [infoFor w a] ∧ tot' = tot + netStake w a) ∨
    (openTo w a = false ∧ sel' = sel ∧ tot' = tot) := by
  have hone : MIN_EGLD = oneEgld := rfl
  unfold considerProvider at h
  simp only [bind_ok] at h
  obtain ⟨d, hd, el, hel, h⟩ := h
  have hd' : provider w a = some d := by
    unfold getData at hd; unfold provider; cases hx : w.st.data.get none a <;> simp_all
  have hn := netStake_of hd'
  rw [ite_ok] at h
  rcases h with ⟨hel', h⟩ | ⟨hel', h⟩
  · left
    subst hel'
    obtain ⟨h1, h2⟩ := isProviderEligible_ok hel
    simp only [bind_ok, totalWithPending_ok, Except.ok.injEq, Prod.mk.injEq] at h
    obtain ⟨t, ⟨_, rfl⟩, info, hi, rfl, rfl⟩ := h
    refine ⟨?_, ?_, by rw [hn]⟩
    · unfold openTo
      rw [hd']
      simp only [h1, Bool.true_and, Bool.or_eq_true, beq_iff_eq, decide_eq_true_eq]
      rw [hn, ← hone]
      omega
    · congr 2
      unfold createSelInfo spaceLeftOf at hi
      simp only [bind_ok, ite_ok, csub_ok, Except.ok.injEq, totalWithPending_ok] at hi
      obtain ⟨sp, hsp, t, ⟨_, rfl⟩, rfl⟩ := hi
      unfold infoFor room
      rw [hd']
      simp only [hn]
      rcases hsp with ⟨hc, rfl⟩ | ⟨hc, s, ⟨_, rfl⟩, rfl⟩
      · rw [if_pos hc]
      · rw [if_neg hc]
  · right
    simp only [Except.ok.injEq, Prod.mk.injEq] at h
    obtain ⟨rfl, rfl⟩ := h
    refine ⟨?_, rfl, rfl⟩
    have hel0 : el = false := by simpa using hel'
    subst hel0
    unfold openTo
    rw [hd']
    unfold isProviderEligible at hel
    split at hel
    · next he =>
      have : d.eligible = false := by simpa using he
      simp [this]
    · split at hel
      · simp at hel
      · next hc =>
        simp only [bind_ok, totalWithPending_ok, csub_ok, Except.ok.injEq, decide_eq_false_iff_not] at hel
        obtain ⟨t, ⟨_, rfl⟩, s, ⟨h2, rfl⟩, h3⟩ := hel
        have : ¬ (netStake w a + oneEgld ≤ d.cap) := by rw [hn, ← hone]; omega
        simp [hc, this]

theorem selectDelegationLoop_eq {w : World} {maxP : Nat} : ∀ {list : List Addr} {sel sel' : List SelInfo} {tot tot' : Nat},
    selectDelegationLoop w.st MIN_EGLD maxP list sel tot = .ok (sel', tot') → sel.length < maxP →
    sel' = sel ++ ((list.filter (openTo w)).take (maxP - sel.length)).map (infoFor w) ∧
    tot' = tot + stakeOf w ((list.filter (openTo w)).take (maxP - sel.length)) := by
  intro list
  induction list with
  | nil =>
    intro sel sel' tot tot' h _
    simp only [selectDelegationLoop, Except.ok.injEq, Prod.mk.injEq] at h
    obtain ⟨rfl, rfl⟩ := h
    simp [stakeOf]
  | cons a rest ih =>
    intro sel sel' tot tot' h hlt
    simp only [selectDelegationLoop, bind_ok, Prod.exists] at h
    obtain ⟨s1, t1, hc, h⟩ := h
    rw [ite_ok] at h
    rcases considerProvider_eq hc with ⟨ho, rfl, rfl⟩ | ⟨ho, rfl, rfl⟩
    · have hf : (a :: rest).filter (openTo w) = a :: rest.filter (openTo w) := by simp [ho]
      rw [hf]
      obtain ⟨k, hk⟩ : ∃ k, maxP - sel.length = k + 1 := ⟨maxP - sel.length - 1, by omega⟩
      rw [hk, List.take_succ_cons]
      rcases h with ⟨hl, h⟩ | ⟨hl, h⟩
      · simp only [Except.ok.injEq, Prod.mk.injEq] at h
        obtain ⟨rfl, rfl⟩ := h
        have : k = 0 := by simp at hl; omega
        subst this
        simp [stakeOf]
      · have hl' : (sel ++ [infoFor w a]).length = sel.length + 1 := by simp
        obtain ⟨e1, e2⟩ := ih h (by rw [hl'] at hl ⊢; omega)
        have hk' : maxP - (sel ++ [infoFor w a]).length = k := by rw [hl']; omega
        rw [hk'] at e1 e2
        refine ⟨by rw [e1]; simp, ?_⟩
        rw [e2]; simp [stakeOf]; omega
    · have hf : (a :: rest).filter (openTo w) = rest.filter (openTo w) := by simp [ho]
      rw [hf]
      rcases h with ⟨hl, h⟩ | ⟨hl, h⟩
      · omega
      · exact ih h hlt

/-- The selection record of a provider, scored among `l`. -/
def scoredFor (w : World) (cfg : ScoringConfig) (l : List Addr) (p : Addr) : SelInfo :=
  { infoFor w p with score := scoreAmong w cfg l p }

theorem updateScore_infoFor {w : World} {cfg : ScoringConfig} {l : List Addr} {p : Addr} {j : SelInfo}
    (hp : provider w p ≠ none) (h : updateScore (infoFor w p) true (stakeOf w l) cfg = .ok j) : j = scoredFor w cfg l p := by
  have h1 := C33_only_score h
  have h2 := C33_delegation_score h
  rw [h1, h2]
  unfold scoredFor
  obtain ⟨d, hd⟩ := Option.ne_none_iff_exists'.1 hp
  have : delegationScore cfg (infoFor w p).nrNodes.toNat (infoFor w p).apy.toNat (infoFor w p).stakedLs (stakeOf w l) =
      scoreAmong w cfg l p := by
    unfold scoreAmong infoFor; rw [hd]
  rw [this]

theorem updateScores_infoFor {w : World} {cfg : ScoringConfig} {l : List Addr} : ∀ {l1 : List Addr} {l' : List SelInfo} {t : Nat},
    (∀ p ∈ l1, provider w p ≠ none) → updateScores true (stakeOf w l) cfg (l1.map (infoFor w)) = .ok (l', t) →
    l' = l1.map (scoredFor w cfg l) ∧ t = (l1.map (scoreAmong w cfg l)).sum := by
  intro l1
  induction l1 with
  | nil =>
    intro l' t _ h
    simp only [List.map_nil, updateScores, Except.ok.injEq, Prod.mk.injEq] at h
    obtain ⟨rfl, rfl⟩ := h
    exact ⟨rfl, rfl⟩
  | cons a rest ih =>
    intro l' t hp h
    simp only [List.map_cons, updateScores, bind_ok, Prod.exists, Except.ok.injEq, Prod.mk.injEq] at h
    obtain ⟨i', hi, is', t', his, rfl, rfl⟩ := h
    obtain ⟨rfl, rfl⟩ := ih (fun p hp' => hp p (by simp [hp'])) his
    have := updateScore_infoFor (hp a (by simp)) hi
    subst this
    exact ⟨by simp, by simp [scoredFor]⟩

/-! ### First pass -/

/-- `x` within a space. -/
def cut (sp : Option Nat) (x : Nat) : Nat :=
  match sp with
  | none => x
  | some r => min x r

theorem cut_le (sp : Option Nat) (x : Nat) : cut sp x ≤ x := by
  unfold cut; split
  · exact Nat.le_refl _
  · exact Nat.min_le_left _ _

/-- Sum of the proportional parts. -/
def parts (A T : Nat) (infos : List SelInfo) : Nat := (infos.map fun i => i.score * A / T).sum

theorem parts_le {A T : Nat} (hT : 0 < T) : ∀ infos : List SelInfo, parts A T infos * T ≤ (infos.map SelInfo.score).sum * A
  | [] => by simp [parts]
  | i :: is => by
    have ih := parts_le (A := A) hT is
    have h1 : i.score * A / T * T ≤ i.score * A := Nat.div_mul_le_self _ _
    have e1 : parts A T (i :: is) = i.score * A / T + parts A T is := by simp [parts]
    have e2 : ((i :: is).map SelInfo.score).sum = i.score + (is.map SelInfo.score).sum := by simp
    rw [e1, e2, Nat.add_mul, Nat.add_mul]
    omega

/-- What the first pass gives: everyone whose cut part is at least the minimum gets it. -/
theorem distributeLoop_eq {A T mn : Nat} (hT : 0 < T) : ∀ {infos : List SelInfo} {rem : Nat} {sels : List Selection} {left : Nat},
    distributeLoop A T true mn infos rem = .ok (sels, left) → parts A T infos ≤ rem →
    sels = (infos.filter fun i => decide (mn ≤ cut i.spaceLeft (i.score * A / T))).map fun i =>
      { address := i.address, amount := cut i.spaceLeft (i.score * A / T),
        spaceLeft := i.spaceLeft.map (· - cut i.spaceLeft (i.score * A / T)) } := by
  intro infos
  induction infos with
  | nil =>
    intro rem sels left h _
    simp only [distributeLoop, Except.ok.injEq, Prod.mk.injEq] at h
    obtain ⟨rfl, rfl⟩ := h
    rfl
  | cons i is ih =>
    intro rem sels left h hrem
    have e1 : parts A T (i :: is) = i.score * A / T + parts A T is := by simp [parts]
    rw [e1] at hrem
    simp only [distributeLoop, bind_ok] at h
    obtain ⟨amt, ha, h⟩ := h
    have hamt : amt = cut i.spaceLeft (i.score * A / T) := by
      unfold providerAmount proportionOf at ha
      rw [if_pos hT] at ha
      simp only [bind_ok, cdiv_ok, if_true] at ha
      obtain ⟨p, ⟨_, rfl⟩, ha⟩ := ha
      unfold cut
      cases hs : i.spaceLeft with
      | none =>
        rw [hs] at ha
        simp only [Except.ok.injEq] at ha
        simp only; omega
      | some s =>
        rw [hs] at ha
        simp only [Except.ok.injEq] at ha
        simp only; omega
    have hle := cut_le i.spaceLeft (i.score * A / T)
    rw [ite_ok] at h
    rcases h with ⟨h1, h⟩ | ⟨h1, h⟩
    · simp only [bind_ok, csub_ok, Prod.exists, Except.ok.injEq, Prod.mk.injEq] at h
      obtain ⟨rem', ⟨h2, rfl⟩, sp, hsp, ss, lf, hl, rfl, rfl⟩ := h
      rw [hamt] at h1
      have hf : (i :: is).filter (fun i => decide (mn ≤ cut i.spaceLeft (i.score * A / T))) =
          i :: is.filter (fun i => decide (mn ≤ cut i.spaceLeft (i.score * A / T))) := by simp [h1]
      rw [hf, List.map_cons, ← ih hl (by omega), ← hamt]
      congr 2
      unfold spaceAfter at hsp
      simp only [if_true] at hsp
      cases hs : i.spaceLeft with
      | none =>
        rw [hs] at hsp
        simp only [Except.ok.injEq] at hsp
        exact hsp.symm
      | some s0 =>
        rw [hs] at hsp
        simp only [bind_ok, csub_ok, Except.ok.injEq] at hsp
        obtain ⟨x, ⟨_, rfl⟩, rfl⟩ := hsp
        rfl
    · rw [hamt] at h1
      have hf : (i :: is).filter (fun i => decide (mn ≤ cut i.spaceLeft (i.score * A / T))) =
          is.filter (fun i => decide (mn ≤ cut i.spaceLeft (i.score * A / T))) := by simp [h1]
      rw [hf]
      exact ih h (by omega)

/-! ### Second pass -/

/-- How the second pass changes the amounts: the first providers are filled up, one gets the rest, the others nothing; `left`
remains. -/
inductive Top : List Selection → List Selection → Nat → Prop
  | same (ps) : Top ps ps 0
  | nil (left) : Top [] [] left
  | stop (p p' : Selection) (ps) (ha : p'.address = p.address) (hle : p.amount ≤ p'.amount)
      (hsp : ∀ x, p.spaceLeft = some x → p'.amount ≤ p.amount + x) : Top (p :: ps) (p' :: ps) 0
  | full (p p' : Selection) (ps ps') (left x) (ha : p'.address = p.address) (hx : p.spaceLeft = some x)
      (hp : p'.amount = p.amount + x) (h : Top ps ps' left) : Top (p :: ps) (p' :: ps') left

theorem handleRemainingLoop_top : ∀ {provs provs' : List Selection} {rem left : Nat}, 0 < rem →
    handleRemainingLoop true provs rem = .ok (provs', left) → Top provs provs' left := by
  intro provs
  induction provs with
  | nil =>
    intro provs' rem left _ h
    simp only [handleRemainingLoop, Except.ok.injEq, Prod.mk.injEq] at h
    obtain ⟨rfl, rfl⟩ := h
    exact .nil _
  | cons p ps ih =>
    intro provs' rem left hrem h
    simp only [handleRemainingLoop, bind_ok, Prod.exists] at h
    obtain ⟨p', rem', h1, h⟩ := h
    unfold fillOne at h1
    simp only [Bool.not_true, Bool.false_eq_true, if_false] at h1
    cases hs : p.spaceLeft with
    | none =>
      rw [hs] at h1
      simp only [Except.ok.injEq, Prod.mk.injEq, addAmount] at h1
      obtain ⟨rfl, rfl⟩ := h1
      rw [if_pos rfl] at h
      simp only [Except.ok.injEq, Prod.mk.injEq] at h
      obtain ⟨rfl, rfl⟩ := h
      exact .stop _ _ _ rfl (by simp) (by simp [hs])
    | some x =>
      rw [hs] at h1
      simp only at h1
      have hp' : p'.address = p.address ∧ p'.amount = p.amount + min x rem ∧ rem' = rem - min x rem := by
        rw [ite_ok] at h1
        rcases h1 with ⟨h2, h1⟩ | ⟨h2, h1⟩
        · simp only [Except.ok.injEq, Prod.mk.injEq, addAmount] at h1
          obtain ⟨rfl, rfl⟩ := h1
          exact ⟨rfl, rfl, rfl⟩
        · simp only [Except.ok.injEq, Prod.mk.injEq] at h1
          obtain ⟨rfl, rfl⟩ := h1
          exact ⟨rfl, by omega, by omega⟩
      obtain ⟨g1, g2, g3⟩ := hp'
      rw [ite_ok] at h
      rcases h with ⟨h2, h⟩ | ⟨h2, h⟩
      · simp only [Except.ok.injEq, Prod.mk.injEq] at h
        obtain ⟨rfl, rfl⟩ := h
        rw [h2]
        refine .stop _ _ _ g1 (by omega) ?_
        intro y hy
        rw [hs] at hy
        cases hy
        omega
      · simp only [bind_ok, Prod.exists, Except.ok.injEq, Prod.mk.injEq] at h
        obtain ⟨ps', r2, h3, rfl, rfl⟩ := h
        exact .full _ _ _ _ _ x g1 hs (by omega) (ih (by omega) h3)

theorem handleRemaining_top {provs provs' : List Selection} {rem : Nat} {c c' : Cache}
    (h : handleRemaining provs rem true c = .ok (provs', c')) :
    ∃ left, Top provs provs' left ∧ c' = { c with r := { c.r with pending := c.r.pending + left } } := by
  unfold handleRemaining at h
  rw [ite_ok] at h
  rcases h with ⟨h1, h⟩ | ⟨h1, h⟩
  · simp only [Except.ok.injEq, Prod.mk.injEq] at h
    obtain ⟨rfl, rfl⟩ := h
    exact ⟨0, .same _, rfl⟩
  · simp only [bind_ok, Prod.exists, if_true] at h
    obtain ⟨ps', left, h2, h⟩ := h
    have ht := handleRemainingLoop_top (by omega) h2
    rw [ite_ok] at h
    rcases h with ⟨h3, h⟩ | ⟨h3, h⟩
    · simp only [Except.ok.injEq, Prod.mk.injEq] at h
      obtain ⟨rfl, rfl⟩ := h
      exact ⟨left, ht, rfl⟩
    · simp only [Except.ok.injEq, Prod.mk.injEq] at h
      obtain ⟨rfl, rfl⟩ := h
      have : left = 0 := by omega
      subst this
      exact ⟨0, ht, rfl⟩

theorem top_address {ps ps' : List Selection} {left : Nat} (h : Top ps ps' left) :
    ps'.map Selection.address = ps.map Selection.address := by
  induction h with
  | same => rfl
  | nil => rfl
  | stop p p' ps ha => simp [ha]
  | full p p' ps ps' left x ha _ _ _ ih => simp [ha, ih]

/-- What is left is left only when everyone is full. -/
theorem top_full {w : World} {ps ps' : List Selection} {left : Nat} (h : Top ps ps' left)
    (hr : ∀ s ∈ ps, ∀ x, s.spaceLeft = some x → room w s.address = some (s.amount + x)) (hl : 0 < left) :
    ∀ s ∈ ps', room w s.address = some s.amount := by
  induction h with
  | same => omega
  | nil => simp
  | stop => omega
  | full p p' ps ps' left x ha hx hp _ ih =>
    intro s hs
    rcases List.mem_cons.1 hs with rfl | hs
    · rw [ha, hp]; exact hr p (by simp) x hx
    · exact ih (fun s hs' => hr s (by simp [hs'])) hl s hs

/-- The amounts only grow, and only once all before are full. -/
theorem top_share {w : World} {e : Addr → Nat} {ps ps' : List Selection} {left : Nat} (h : Top ps ps' left)
    (he : ∀ s ∈ ps, s.amount = e s.address)
    (hr : ∀ s ∈ ps, ∀ x, s.spaceLeft = some x → room w s.address = some (s.amount + x)) :
    (∀ s ∈ ps', e s.address ≤ s.amount) ∧
    ∀ l1 s l2, ps' = l1 ++ s :: l2 → e s.address < s.amount → ∀ q ∈ l1, room w q.address = some q.amount := by
  induction h with
  | same ps =>
    refine ⟨fun s hs => by rw [he s hs], fun l1 s l2 hl hlt => ?_⟩
    have := he s (by rw [hl]; simp)
    omega
  | nil => exact ⟨by simp, by simp⟩
  | stop p p' ps ha hle =>
    have h0 := he p (by simp)
    have hps : ∀ s ∈ ps, s.amount = e s.address := fun s hs => he s (by simp [hs])
    refine ⟨?_, ?_⟩
    · intro s hs
      rcases List.mem_cons.1 hs with rfl | hs
      · rw [ha]; omega
      · rw [hps s hs]
    · intro l1 s l2 hl hlt
      cases l1 with
      | nil => simp
      | cons y l1 =>
        simp only [List.cons_append, List.cons.injEq] at hl
        have := hps s (by rw [hl.2]; simp)
        omega
  | full p p' ps ps' left x ha hx hp _ ih =>
    have h0 := he p (by simp)
    obtain ⟨i1, i2⟩ := ih (fun s hs => he s (by simp [hs])) (fun s hs => hr s (by simp [hs]))
    have hfull : room w p'.address = some p'.amount := by rw [ha, hp]; exact hr p (by simp) x hx
    refine ⟨?_, ?_⟩
    · intro s hs
      rcases List.mem_cons.1 hs with rfl | hs
      · rw [ha]; omega
      · exact i1 s hs
    · intro l1 s l2 hl hlt
      cases l1 with
      | nil => simp
      | cons y l1 =>
        simp only [List.cons_append, List.cons.injEq] at hl
        intro q hq
        rcases List.mem_cons.1 hq with rfl | hq
        · rw [← hl.1]; exact hfull
        · exact i2 l1 s l2 hl.2 hlt q hq

/-! ### The batch -/

theorem scoredFor_address (w : World) (cfg : ScoringConfig) (l : List Addr) (p : Addr) : (scoredFor w cfg l p).address = p :=
  infoFor_address w p

theorem scoredFor_space {w : World} {cfg : ScoringConfig} {l : List Addr} {p : Addr} (h : provider w p ≠ none) :
    (scoredFor w cfg l p).spaceLeft = room w p := by
  obtain ⟨d, hd⟩ := Option.ne_none_iff_exists'.1 h
  show (infoFor w p).spaceLeft = _
  unfold infoFor; rw [hd]

theorem openTo_provider {w : World} {p : Addr} (h : openTo w p = true) : provider w p ≠ none := by
  unfold openTo at h; intro hn; rw [hn] at h; simp at h

theorem mem_candidates {w : World} {A : Nat} {p : Addr} (h : p ∈ candidates w A) : p ∈ w.st.delegList ∧ openTo w p = true :=
  List.mem_filter.1 (List.mem_of_mem_take h)

/-- A delegation batch in terms of the specification. -/
theorem delegatePending_shares {w w' : World} {c : Addr} {o : Option Nat} (h : delegatePending w c o = .ok w')
    (hm : 1 ≤ w.st.maxSelectedProviders) (hn : w.st.delegList.length < 2 ^ 32) :
    ∃ cfg sels res rem left, w'.flights = w.flights ++ sels.map (fun s => Flight.delegate s.address s.amount) ∧
      w.st.scoring = some cfg ∧ oneEgld ≤ batchAsked (pendingEgld w) o ∧
      candidates w (batchAsked (pendingEgld w) o) ≠ [] ∧
      distributeLoop (batchAsked (pendingEgld w) o) (scoresOf w cfg (candidates w (batchAsked (pendingEgld w) o))) true MIN_EGLD
        ((candidates w (batchAsked (pendingEgld w) o)).map
          (scoredFor w cfg (candidates w (batchAsked (pendingEgld w) o)))) (batchAsked (pendingEgld w) o) = .ok (res, rem) ∧
      Top res sels left ∧ selSum sels + left = batchAsked (pendingEgld w) o := by
  have hone : MIN_EGLD = oneEgld := rfl
  unfold delegatePending at h
  simp only [bind_ok, requireUser_ok, requireActive_ok, requireManager_ok, exists_const, cacheNew_ok, Prod.exists,
    csub_ok, Except.ok.injEq] at h
  obtain ⟨h1, c, ⟨t, ht, rfl⟩, h2, h3, amt, hamt, sels, c1, hsel, p, ⟨hp, rfl⟩, w1, hloop, rfl⟩ := h
  obtain ⟨E, D, rfl, _⟩ := delegateLoop_ok hloop
  obtain ⟨left0, hsum, hc1, _⟩ := selectDelegate_ok hsel
  have hA : amt = batchAsked (pendingEgld w) o := by
    unfold pendingEgld; exact (batchAsked_of hamt).symm
  have hb := batchAmount_ok hamt
  subst hA
  generalize batchAsked (pendingEgld w) o = A at *
  unfold getDelegationContract handleDelegation selectDelegationProviders at hsel
  simp only [bind_ok, if_true, req_ok, exists_const, Bool.not_true, Bool.false_eq_true, if_false, Prod.exists] at hsel
  obtain ⟨hne, sel, ts, ⟨mp, hmp, hsel⟩, hsne, cfg, hcfg, h⟩ := hsel
  obtain ⟨h0, _, rfl⟩ := maxProviders_ok hmp
  have k1 : 1 ≤ A / MIN_EGLD := Nat.div_pos hb.2.1 MIN_EGLD_pos
  have k2 : 1 ≤ w.st.delegList.length := List.length_pos_iff.2 hne
  rw [asUsize_small (by omega)] at hsel
  obtain ⟨e1, e2⟩ := selectDelegationLoop_eq hsel (by simp only [List.length_nil]; omega)
  rw [List.nil_append, List.length_nil, Nat.sub_zero] at e1
  rw [Nat.zero_add, List.length_nil, Nat.sub_zero] at e2
  have hcand : candidates w A = (w.st.delegList.filter (openTo w)).take
      (min (min (A / MIN_EGLD) w.st.maxSelectedProviders) w.st.delegList.length) := rfl
  rw [← hcand] at e1 e2
  subst e1 e2
  have hprov : ∀ p ∈ candidates w A, provider w p ≠ none := fun p hp => openTo_provider (mem_candidates hp).2
  unfold distributeAmount at h
  simp only [bind_ok, Prod.exists] at h
  obtain ⟨scored, tsc, hu, res, rem, hd, hrem⟩ := h
  obtain ⟨rfl, rfl⟩ := updateScores_infoFor hprov hu
  obtain ⟨left, htop, hc'⟩ := handleRemaining_top hrem
  have : left = left0 := by
    rw [hc'] at hc1
    injection hc1 with _ _ hc1
    injection hc1
    omega
  subst this
  refine ⟨cfg, sels, res, rem, left, rfl, ?_, hb.2.1, ?_, hd, htop, hsum⟩
  · unfold getScoringConfig at hcfg
    cases hx : w.st.scoring with
    | none => rw [hx] at hcfg; simp at hcfg
    | some x => rw [hx] at hcfg; simp only [Except.ok.injEq] at hcfg; rw [hcfg]
  · intro hnil; rw [hnil] at hsne; exact hsne rfl

end LS
