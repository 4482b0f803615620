import Verif.Proofs.LossLemmas
import Verif.Spec.Accept

/-! When the selection of providers succeeds. -/

namespace LS
open Spec

theorem getData_provider {w : World} {a : Addr} {d : ProviderData} : getData w.st a = .ok d ↔ provider w a = some d := by
  unfold getData provider; cases w.st.data.get none a <;> simp

theorem split_cons {a : Addr} {rest : List Addr} {P : List Addr → Addr → Prop} :
    (∀ l1 p l2, a :: rest = l1 ++ p :: l2 → P l1 p) ↔ P [] a ∧ ∀ l1 p l2, rest = l1 ++ p :: l2 → P (a :: l1) p := by
  constructor
  · intro h
    exact ⟨h [] a rest rfl, fun l1 p l2 he => h (a :: l1) p l2 (by rw [he]; rfl)⟩
  · rintro ⟨h0, h⟩ l1 p l2 he
    cases l1 with
    | nil =>
      simp only [List.nil_append, List.cons.injEq] at he
      rw [← he.1]; exact h0
    | cons b l1 =>
      simp only [List.cons_append, List.cons.injEq] at he
      rw [← he.1]; exact h l1 p l2 he.2

/-- Declared totals respect the declared caps. -/
def CapOk (w : World) : Prop := ∀ p d, provider w p = some d → d.totalStaked ≤ d.cap ∨ d.cap = 0

theorem considerProvider_iff {w : World} {a : Addr} {sel : List SelInfo} {tot : Nat} (hc : CapOk w) :
    (∃ r, considerProvider w.st MIN_EGLD a sel tot = .ok r) ↔ FitRecord w a := by
  constructor
  · rintro ⟨r, h⟩
    unfold considerProvider at h
    simp only [bind_ok, getData_provider] at h
    obtain ⟨d, hd, el, hel, h⟩ := h
    have hn := netStake_of hd
    refine ⟨d, hd, fun he => ?_⟩
    unfold isProviderEligible at hel
    rw [if_neg (by simp [he])] at hel
    rw [ite_ok] at hel
    rcases hel with ⟨hc0, hel⟩ | ⟨hc0, hel⟩
    · simp only [Except.ok.injEq] at hel
      subst hel
      simp only [if_true, bind_ok, totalWithPending_ok] at h
      obtain ⟨t, ⟨h1, _⟩, _⟩ := h
      exact ⟨h1, .inl hc0⟩
    · simp only [bind_ok, totalWithPending_ok, csub_ok] at hel
      obtain ⟨t, ⟨h1, rfl⟩, s, ⟨h2, _⟩, _⟩ := hel
      exact ⟨h1, .inr (by rw [hn]; exact h2)⟩
  · rintro ⟨d, hd, hgood⟩
    have hn := netStake_of hd
    apply NoErr.all
    intro e
    have hd0 : w.st.data.get none a = some d := hd
    unfold considerProvider isProviderEligible
    refine .bind (ne_getData hd0) fun d' hd' => ?_
    rw [getData_provider, hd] at hd'
    cases hd'
    refine .bind ?_ fun el hel => .ite (fun helt => ?_) (fun _ => .ok _)
    · refine .ite (fun _ => .ok _) fun he => .ite (fun _ => .ok _) fun hc => ?_
      obtain ⟨h1, h2⟩ := hgood (by simpa using he)
      refine .bind (.csub (.inl h1)) fun t ht => ?_
      have := (totalWithPending_ok.1 ht).2
      refine .bind (.csub (.inl ?_)) fun _ _ => .ok _
      rw [this, ← hn]
      exact h2.resolve_left hc
    · have he : d.eligible = true := by
        subst helt
        by_contra hc
        have : (!d.eligible) = true := by simpa using hc
        rw [ite_ok] at hel
        rcases hel with ⟨_, hel⟩ | ⟨hx, _⟩
        · simp at hel
        · exact hx this
      obtain ⟨h1, h2⟩ := hgood he
      refine .bind (.csub (.inl h1)) fun _ _ => .bind ?_ fun _ _ => .ok _
      unfold createSelInfo spaceLeftOf
      exact .bind (.ite (fun _ => .ok _) fun hc0 => .bind (.csub (.inl ((hc a d hd).resolve_right hc0))) fun _ _ => .ok _)
        fun _ _ => .bind (.csub (.inl h1)) fun _ _ => .ok _

theorem selectDelegationLoop_iff {w : World} {maxP : Nat} (hc : CapOk w) : ∀ {list : List Addr} {sel : List SelInfo} {tot : Nat},
    sel.length < maxP →
    ((∃ r, selectDelegationLoop w.st MIN_EGLD maxP list sel tot = .ok r) ↔
      ∀ l1 p l2, list = l1 ++ p :: l2 → sel.length + (l1.filter (openTo w)).length < maxP → FitRecord w p) := by
  intro list
  induction list with
  | nil => intro sel tot _; simp [selectDelegationLoop]
  | cons a rest ih =>
    intro sel tot hlt
    rw [split_cons (P := fun l1 p => sel.length + (l1.filter (openTo w)).length < maxP → FitRecord w p)]
    simp only [List.filter_nil, List.length_nil, Nat.add_zero, hlt, true_imp_iff]
    constructor
    · rintro ⟨r, h⟩
      simp only [selectDelegationLoop, bind_ok, Prod.exists] at h
      obtain ⟨s1, t1, h1, h⟩ := h
      refine ⟨(considerProvider_iff hc).1 ⟨_, h1⟩, fun l1 p l2 he hl => ?_⟩
      rw [ite_ok] at h
      rcases considerProvider_eq h1 with ⟨ho, rfl, rfl⟩ | ⟨ho, rfl, rfl⟩
      · rw [List.filter_cons_of_pos ho, List.length_cons] at hl
        have hlen : (sel ++ [infoFor w a]).length = sel.length + 1 := by simp
        rcases h with ⟨h2, _⟩ | ⟨h2, h⟩
        · omega
        · exact (ih (by omega)).1 ⟨r, h⟩ l1 p l2 he (by omega)
      · rw [List.filter_cons_of_neg (by simp [ho])] at hl
        rcases h with ⟨h2, _⟩ | ⟨h2, h⟩
        · omega
        · exact (ih hlt).1 ⟨r, h⟩ l1 p l2 he hl
    · rintro ⟨h0, h⟩
      obtain ⟨⟨s1, t1⟩, h1⟩ := (considerProvider_iff (sel := sel) (tot := tot) hc).2 h0
      simp only [selectDelegationLoop, bind_ok]
      rcases considerProvider_eq h1 with ⟨ho, hs, ht⟩ | ⟨ho, hs, ht⟩
      · have hlen : s1.length = sel.length + 1 := by rw [hs]; simp
        by_cases h2 : s1.length = maxP
        · exact ⟨_, (s1, t1), h1, if_pos h2⟩
        · obtain ⟨r, hr⟩ := (ih (sel := s1) (tot := t1) (by omega)).2 (by
            intro l1 p l2 he hl
            refine h l1 p l2 he ?_
            rw [List.filter_cons_of_pos ho, List.length_cons]
            omega)
          exact ⟨r, (s1, t1), h1, by dsimp only; rw [if_neg h2]; exact hr⟩
      · have hlen : s1.length = sel.length := by rw [hs]
        obtain ⟨r, hr⟩ := (ih (sel := s1) (tot := t1) (by omega)).2 (by
            intro l1 p l2 he hl
            refine h l1 p l2 he ?_
            rw [List.filter_cons_of_neg (by simp [ho]), ← hlen]
            exact hl)
        exact ⟨r, (s1, t1), h1, by dsimp only; rw [if_neg (by omega)]; exact hr⟩

theorem selectUndelegationLoop_iff {w : World} {A maxP : Nat} (hc : CapOk w) (ha : 0 < average w A)
    (hm : w.st.maxSelectedProviders < 2 ^ 32) : ∀ {list : List Addr} {sel : List SelInfo} {tot rem : Nat},
    ((∃ r, selectUndelegationLoop w.st MIN_EGLD maxP (average w A) list sel tot rem = .ok r) ↔
      ∀ l1 p l2, list = l1 ++ p :: l2 →
        sel.length + (l1.filter fun q => decide (0 < netStake w q)).length < w.st.maxSelectedProviders ∧
        (sel.length + (l1.filter fun q => decide (0 < netStake w q)).length < maxP ∨
          expectedOf w A (l1.filter fun q => decide (0 < netStake w q)) < rem) → NotOverdrawn w p) := by
  have hexp : ∀ a l, expectedOf w A (a :: l) = expected w A a + expectedOf w A l := by
    intro a l; simp [expectedOf]
  have h64 : toU64 w.st.maxSelectedProviders = some w.st.maxSelectedProviders := by
    unfold toU64; rw [if_pos (by omega)]
  intro list
  induction list with
  | nil => intro sel tot rem; simp [selectUndelegationLoop]
  | cons a rest ih =>
    intro sel tot rem
    rw [split_cons (P := fun l1 p => sel.length + (l1.filter fun q => decide (0 < netStake w q)).length <
        w.st.maxSelectedProviders ∧
        (sel.length + (l1.filter fun q => decide (0 < netStake w q)).length < maxP ∨
          expectedOf w A (l1.filter fun q => decide (0 < netStake w q)) < rem) → NotOverdrawn w p)]
    have he0 : expectedOf w A [] = 0 := rfl
    simp only [List.filter_nil, List.length_nil, Nat.add_zero, he0]
    simp only [selectUndelegationLoop, h64, unwrap, Except.bind, bind, asUsize_small hm]
    by_cases h1 : w.st.maxSelectedProviders ≤ sel.length
    · rw [if_pos h1]
      refine ⟨fun _ => ⟨fun h => absurd h.1 (by omega), fun l1 p l2 he h => absurd h.1 (by omega)⟩, fun _ => ⟨_, rfl⟩⟩
    rw [if_neg h1]
    by_cases h2 : maxP ≤ sel.length ∧ rem = 0
    · rw [if_pos h2]
      refine ⟨fun _ => ⟨fun h => absurd h.2 (by omega), fun l1 p l2 he h => absurd h.2 ?_⟩, fun _ => ⟨_, rfl⟩⟩
      omega
    rw [if_neg h2]
    have h3 : sel.length < w.st.maxSelectedProviders ∧ (sel.length < maxP ∨ 0 < rem) := by omega
    rw [show (sel.length < w.st.maxSelectedProviders ∧ (sel.length < maxP ∨ 0 < rem) → NotOverdrawn w a) = NotOverdrawn w a from
      propext ⟨fun h => h h3, fun h _ => h⟩]
    constructor
    · rintro ⟨r, h⟩
      cases hg : getData w.st a with
      | error e => rw [hg] at h; simp at h
      | ok d =>
        have hd := getData_provider.1 hg
        have hn := netStake_of hd
        rw [hg] at h
        simp only at h
        cases ht : d.totalWithPending with
        | error e => rw [ht] at h; simp at h
        | ok t =>
          obtain ⟨hle, rfl⟩ := totalWithPending_ok.1 ht
          rw [ht] at h
          simp only at h
          refine ⟨⟨d, hd, hle⟩, ?_⟩
          rw [← hn] at h
          cases hk : amountToTake (netStake w a) (average w A) MIN_EGLD with
          | error e => rw [hk] at h; simp at h
          | ok k =>
            rw [hk] at h
            have hk := amountToTake_eq hk
            subst hk
            simp only at h
            by_cases hp : 0 < expected w A a
            · have hs := (expected_pos ha).1 hp
              rw [if_pos hp] at h
              cases hi : createSelInfo a d with
              | error e => rw [hi] at h; simp at h
              | ok i =>
                rw [hi] at h
                simp only at h
                intro l1 p l2 he hcond
                refine ih.1 ⟨r, h⟩ l1 p l2 he ?_
                rw [List.filter_cons_of_pos (by simpa using hs), List.length_cons, hexp] at hcond
                simp only [List.length_append, List.length_singleton]
                split <;> omega
            · have hs : ¬ 0 < netStake w a := fun hs => hp ((expected_pos ha).2 hs)
              rw [if_neg hp] at h
              intro l1 p l2 he hcond
              refine ih.1 ⟨r, h⟩ l1 p l2 he ?_
              rw [List.filter_cons_of_neg (by simpa using hs)] at hcond
              exact hcond
    · rintro ⟨⟨d, hd, hle⟩, h⟩
      have hn := netStake_of hd
      have hk : amountToTake (netStake w a) (average w A) MIN_EGLD = .ok (expected w A a) := by
        obtain ⟨k, hk⟩ : ∃ k, amountToTake (netStake w a) (average w A) MIN_EGLD = .ok k := by
          apply NoErr.all
          intro e
          unfold amountToTake
          exact .ite (fun _ => .ok _) fun _ => .ite (fun h => .csub (.inl (by omega))) fun _ => .ok _
        rw [hk, amountToTake_eq hk]
      rw [getData_provider.2 hd]
      simp only
      rw [totalWithPending_ok.2 ⟨hle, rfl⟩]
      simp only
      rw [← hn, hk]
      simp only
      by_cases hp : 0 < expected w A a
      · have hs := (expected_pos ha).1 hp
        rw [if_pos hp]
        obtain ⟨i, hi⟩ : ∃ i, createSelInfo a d = .ok i := by
          apply NoErr.all
          intro e
          unfold createSelInfo spaceLeftOf
          exact .bind (.ite (fun _ => .ok _) fun hc0 => .bind (.csub (.inl ((hc a d hd).resolve_right hc0))) fun _ _ => .ok _)
            fun _ _ => .bind (.csub (.inl hle)) fun _ _ => .ok _
        rw [hi]
        simp only
        refine ih.2 fun l1 p l2 he hcond => h l1 p l2 he ?_
        rw [List.filter_cons_of_pos (by simpa using hs), List.length_cons, hexp]
        simp only [List.length_append, List.length_singleton] at hcond
        split at hcond <;> omega
      · have hs : ¬ 0 < netStake w a := fun hs => hp ((expected_pos ha).2 hs)
        rw [if_neg hp]
        refine ih.2 fun l1 p l2 he hcond => h l1 p l2 he ?_
        rw [List.filter_cons_of_neg (by simpa using hs)]
        exact hcond

/-! ### Scoring and distribution -/

theorem normLinearClamp_iff {v mn mx : Nat} {down : Bool} : (∃ r, normLinearClamp v mn mx down = .ok r) ↔ ¬ (v = mn ∧ v = mx) := by
  constructor
  · rintro ⟨r, h⟩ ⟨rfl, rfl⟩
    unfold normLinearClamp normClamp at h
    simp only [bind_ok] at h
    obtain ⟨x, hx, _⟩ := h
    rw [if_neg (by omega), if_neg (by omega)] at hx
    simp only [bind_ok, csub_ok, cdiv_ok] at hx
    obtain ⟨a, _, b, ⟨_, rfl⟩, h0, _⟩ := hx
    omega
  · intro h
    apply NoErr.all
    intro e
    by_cases h1 : v = mn
    · refine ne_normLinearClamp (.inl fun h2 => h ⟨h1, by omega⟩)
    · exact ne_normLinearClamp (.inr h1)

theorem updateScore_iff {i : SelInfo} {isD : Bool} {ts : Nat} {cfg : ScoringConfig} :
    (∃ r, updateScore i isD ts cfg = .ok r) ↔
      ¬ (i.nrNodes = cfg.minNodes ∧ i.nrNodes = cfg.maxNodes) ∧ ¬ (i.apy = cfg.minApy ∧ i.apy = cfg.maxApy) := by
  constructor
  · rintro ⟨r, h⟩
    unfold updateScore nodeScore apyScore at h
    simp only [bind_ok] at h
    obtain ⟨n, ⟨b, hb, _⟩, a, ⟨b2, hb2, _⟩, _⟩ := h
    have g1 := normLinearClamp_iff.1 ⟨_, hb⟩
    have g2 := normLinearClamp_iff.1 ⟨_, hb2⟩
    simp only [UInt64.toNat_inj] at g1 g2
    exact ⟨g1, g2⟩
  · rintro ⟨h1, h2⟩
    apply NoErr.all
    intro e
    unfold updateScore nodeScore apyScore stakeScore
    have g1 : ∀ down, NoErr e (normLinearClamp i.nrNodes.toNat cfg.minNodes.toNat cfg.maxNodes.toNat down) := by
      intro down
      obtain ⟨r, hr⟩ := (normLinearClamp_iff (v := i.nrNodes.toNat) (mn := cfg.minNodes.toNat) (mx := cfg.maxNodes.toNat)
        (down := down)).2 (by simpa only [UInt64.toNat_inj] using h1)
      rw [hr]; exact .ok _
    have g2 : ∀ down, NoErr e (normLinearClamp i.apy.toNat cfg.minApy.toNat cfg.maxApy.toNat down) := by
      intro down
      obtain ⟨r, hr⟩ := (normLinearClamp_iff (v := i.apy.toNat) (mn := cfg.minApy.toNat) (mx := cfg.maxApy.toNat)
        (down := down)).2 (by simpa only [UInt64.toNat_inj] using h2)
      rw [hr]; exact .ok _
    refine .bind (.bind (g1 _) fun _ _ => .ok _) fun _ _ => ?_
    refine .bind (.bind (g2 _) fun _ _ => .ok _) fun _ _ => ?_
    exact .bind (.ite (fun h0 => .bind (ne_normLinearClamp (.inl (by omega))) fun _ _ => .ok _) fun _ => .ok _) fun _ _ => .ok _

theorem updateScores_iff {isD : Bool} {ts : Nat} {cfg : ScoringConfig} : ∀ {l : List SelInfo},
    (∃ r, updateScores isD ts cfg l = .ok r) ↔
      ∀ i ∈ l, ¬ (i.nrNodes = cfg.minNodes ∧ i.nrNodes = cfg.maxNodes) ∧ ¬ (i.apy = cfg.minApy ∧ i.apy = cfg.maxApy) := by
  intro l
  induction l with
  | nil => simp [updateScores]
  | cons i is ih =>
    rw [List.forall_mem_cons, ← ih, ← updateScore_iff (isD := isD) (ts := ts)]
    constructor
    · rintro ⟨r, h⟩
      simp only [updateScores, bind_ok, Prod.exists] at h
      obtain ⟨i', hi, is', t, his, _⟩ := h
      exact ⟨⟨_, hi⟩, ⟨_, his⟩⟩
    · rintro ⟨⟨i', hi⟩, ⟨⟨is', t⟩, his⟩⟩
      simp only [updateScores, bind_ok]
      exact ⟨_, i', hi, (is', t), his, rfl⟩

theorem distributeLoop_needs {A T mn : Nat} : ∀ {l : List SelInfo} {rem : Nat} {r : List Selection × Nat},
    distributeLoop A T false mn l rem = .ok r → ∀ i ∈ l, mn ≤ i.stakedLs := by
  intro l
  induction l with
  | nil => intro rem r _ i hi; simp at hi
  | cons j js ih =>
    intro rem r h
    simp only [distributeLoop, bind_ok] at h
    obtain ⟨amt, ha, h⟩ := h
    rw [List.forall_mem_cons]
    refine ⟨?_, ?_⟩
    · unfold providerAmount at ha
      simp only [bind_ok, Bool.false_eq_true, if_false, csub_ok] at ha
      obtain ⟨_, _, left, ⟨h1, _⟩, _⟩ := ha
      omega
    · rw [ite_ok] at h
      rcases h with ⟨_, h⟩ | ⟨_, h⟩
      · simp only [bind_ok, Prod.exists] at h
        obtain ⟨_, _, _, _, ss, lf, h, _⟩ := h
        exact ih h
      · exact ih h

/-! ### Whole selections -/

theorem mem_front_filter {f : Addr → Bool} {l k : List Addr} {p : Addr} (hk : k <+: l.filter f) :
    p ∈ k ↔ f p = true ∧ ∃ l1 l2, l = l1 ++ p :: l2 ∧ (l1.filter f).length < k.length := by
  constructor
  · intro hp
    obtain ⟨t, ht⟩ := hk
    refine ⟨(List.mem_filter.1 (by rw [← ht]; simp [hp])).2, ?_⟩
    obtain ⟨k1, k2, rfl⟩ := List.append_of_mem hp
    have h1 : l.filter f = k1 ++ (p :: (k2 ++ t)) := by rw [← ht]; simp
    obtain ⟨la, lb, rfl, h2, h3⟩ := List.filter_eq_append_iff.1 h1
    obtain ⟨m1, m2, rfl, h4, _, _⟩ := List.filter_eq_cons_iff.1 h3
    have h5 : m1.filter f = [] := List.filter_eq_nil_iff.2 h4
    refine ⟨la ++ m1, m2, by simp, ?_⟩
    rw [List.filter_append, h5, h2]
    simp
  · rintro ⟨hf, l1, l2, rfl, hlt⟩
    rw [List.filter_append, List.filter_cons_of_pos hf] at hk
    have h1 : k[(l1.filter f).length]? = some p := by
      obtain ⟨t, ht⟩ := hk
      rw [← List.getElem?_append_left (l₂ := t) hlt, ht]
      simp
    exact List.mem_of_getElem? h1

theorem mem_candidates_iff {w : World} {A : Nat} {p : Addr} :
    p ∈ candidates w A ↔ openTo w p = true ∧ LooksAt w A p := by
  unfold candidates
  rw [mem_front_filter (List.take_prefix _ _)]
  refine and_congr_right fun hf => ?_
  unfold LooksAt
  refine exists_congr fun l1 => exists_congr fun l2 => and_congr_right fun he => ?_
  generalize howMany w A w.st.delegList.length = n
  rw [List.length_take]
  have : (l1.filter (openTo w)).length < (w.st.delegList.filter (openTo w)).length := by
    rw [he, List.filter_append, List.filter_cons_of_pos hf]; simp
  omega

theorem expectedOf_prefix {w : World} {A : Nat} {k l : List Addr} (h : k <+: l) : expectedOf w A k ≤ expectedOf w A l := by
  obtain ⟨t, rfl⟩ := h
  unfold expectedOf
  rw [List.map_append, List.sum_append]
  omega

theorem mem_givers_iff {w : World} {A : Nat} {k : List Addr} {p : Addr} (hk : IsGivers w A k) :
    p ∈ k ↔ 0 < netStake w p ∧ LooksBackAt w A p := by
  have hk0 := hk.front
  unfold withStake at hk0
  rw [mem_front_filter hk0, decide_eq_true_eq]
  refine and_congr_right fun hf => ?_
  unfold LooksBackAt
  refine exists_congr fun l1 => exists_congr fun l2 => and_congr_right fun he => ?_
  have hsp : w.st.undelegList.filter (fun q => decide (0 < netStake w q)) =
      l1.filter (fun q => decide (0 < netStake w q)) ++ (p :: l2.filter (fun q => decide (0 < netStake w q))) := by
    rw [he, List.filter_append, List.filter_cons_of_pos (by simpa using hf)]
  have hpre : l1.filter (fun q => decide (0 < netStake w q)) <+: w.st.undelegList.filter (fun q => decide (0 < netStake w q)) :=
    ⟨_, hsp.symm⟩
  generalize l1.filter (fun q => decide (0 < netStake w q)) = k1 at *
  constructor
  · intro hlt
    have h1 := List.prefix_of_prefix_length_le hpre hk0 (by omega)
    have h2 := hk.few
    refine ⟨by omega, hk.needed k1 h1 ?_⟩
    rintro rfl; omega
  · rintro ⟨h1, h2⟩
    by_contra hc
    have h3 := List.prefix_of_prefix_length_le hk0 hpre (by omega)
    have h4 := expectedOf_prefix (w := w) (A := A) h3
    rcases hk.enough with h5 | h5 | ⟨h5, h6⟩
    · rw [h5] at hc
      unfold withStake at hc
      rw [hsp] at hc
      simp at hc
    · omega
    · omega

theorem infoFor_scorable {w : World} {cfg : ScoringConfig} {p : Addr} (hp : provider w p ≠ none) :
    (¬ ((infoFor w p).nrNodes = cfg.minNodes ∧ (infoFor w p).nrNodes = cfg.maxNodes) ∧
      ¬ ((infoFor w p).apy = cfg.minApy ∧ (infoFor w p).apy = cfg.maxApy)) ↔ Scorable w cfg p := by
  obtain ⟨d, hd⟩ := Option.ne_none_iff_exists'.1 hp
  unfold infoFor Scorable
  rw [hd]
  constructor
  · intro h d' hd'
    cases hd'
    exact h
  · intro h
    exact h d rfl

theorem maxProviders_many {w : World} {A n : Nat} (hn : n < 2 ^ 32) : maxProviders w.st A MIN_EGLD n = .ok (howMany w A n) := by
  obtain ⟨m, hm⟩ := NoErr.all (fun e => ne_maxProviders (e := e) (st := w.st) (a := A) (mn := MIN_EGLD) (n := n) MIN_EGLD_pos (by omega))
  obtain ⟨_, _, rfl⟩ := maxProviders_ok hm
  rw [hm, asUsize_small (by omega)]
  rfl

theorem scoring_iff {st : Store} {cfg : ScoringConfig} : getScoringConfig st = .ok cfg ↔ st.scoring = some cfg := by
  unfold getScoringConfig; cases st.scoring <;> simp

theorem many_pos {w : World} {A n : Nat} (hA : oneEgld ≤ A) (hm : 1 ≤ w.st.maxSelectedProviders) (hn : 1 ≤ n) :
    1 ≤ howMany w A n := by
  have : 1 ≤ A / oneEgld := Nat.div_pos hA MIN_EGLD_pos
  unfold howMany
  omega

theorem average_pos {w : World} {A : Nat} (hA : oneEgld ≤ A) (hm : 1 ≤ w.st.maxSelectedProviders)
    (hn : 1 ≤ w.st.undelegList.length) : 0 < average w A := by
  have k3 := many_pos hA hm hn
  have h5 : howMany w A w.st.undelegList.length ≤ A / oneEgld := by unfold howMany; omega
  have h6 : howMany w A w.st.undelegList.length * oneEgld ≤ A :=
    Nat.le_trans (Nat.mul_le_mul_right _ h5) (Nat.div_mul_le_self _ _)
  have h7 : oneEgld ≤ A / howMany w A w.st.undelegList.length := by
    rw [Nat.le_div_iff_mul_le (by omega), Nat.mul_comm]; exact h6
  have h8 : 2 ≤ oneEgld := by decide
  exact Nat.div_pos (Nat.le_trans h8 (Nat.le_trans h7 (Nat.le_add_right _ _))) (by decide)

theorem shareOut_iff {w : World} {A : Nat} {c : Cache} (hc : CapOk w) (hA : oneEgld ≤ A) (hm : 1 ≤ w.st.maxSelectedProviders)
    (hn : w.st.delegList.length < 2 ^ 32) : (∃ r, getDelegationContract w.st A true c = .ok r) ↔ CanShareOut w A := by
  have hprov : ∀ p ∈ candidates w A, provider w p ≠ none := fun p hp => openTo_provider (mem_candidates hp).2
  have hloop : ∀ r, w.st.delegList ≠ [] →
      selectDelegationLoop w.st MIN_EGLD (howMany w A w.st.delegList.length) w.st.delegList [] 0 = .ok r →
      r = ((candidates w A).map (infoFor w), stakeOf w (candidates w A)) := by
    rintro ⟨s, t⟩ hne h
    have k := many_pos hA hm (List.length_pos_iff.2 hne)
    obtain ⟨e1, e2⟩ := selectDelegationLoop_eq h (by simp only [List.length_nil]; omega)
    rw [List.nil_append, List.length_nil, Nat.sub_zero] at e1
    rw [Nat.zero_add, List.length_nil, Nat.sub_zero] at e2
    rw [e1, e2]; rfl
  unfold getDelegationContract handleDelegation selectDelegationProviders distributeAmount
  simp only [bind_ok, if_true, req_ok, exists_const, Bool.not_true, Bool.false_eq_true, if_false, maxProviders_many hn]
  constructor
  · rintro ⟨r, hne, sl, ⟨mp, hmp, hsel⟩, hsne, cfg, hcfg, sc, hsc, _⟩
    cases hmp
    have k := many_pos hA hm (List.length_pos_iff.2 hne)
    have he := hloop sl hne hsel
    subst he
    dsimp only at hsne hsc
    refine ⟨cfg, scoring_iff.1 hcfg, ?_, ?_, ?_⟩
    · rintro p ⟨l1, l2, he, hl⟩
      exact (selectDelegationLoop_iff hc (by simp only [List.length_nil]; omega)).1 ⟨_, hsel⟩ l1 p l2 he
        (by simp only [List.length_nil]; omega)
    · have : candidates w A ≠ [] := by intro hx; rw [hx] at hsne; exact hsne rfl
      obtain ⟨p, hp⟩ := List.exists_mem_of_ne_nil _ this
      exact ⟨p, (mem_candidates_iff.1 hp).2, (mem_candidates_iff.1 hp).1⟩
    · intro p hp ho
      have hpc := mem_candidates_iff.2 ⟨ho, hp⟩
      have := updateScores_iff.1 ⟨_, hsc⟩ (infoFor w p) (List.mem_map_of_mem hpc)
      exact (infoFor_scorable (hprov p hpc)).1 this
  · rintro ⟨cfg, hcfg, h1, ⟨p0, hp0, ho0⟩, h3⟩
    have hne : w.st.delegList ≠ [] := by
      obtain ⟨l1, l2, he, _⟩ := hp0
      rw [he]; simp
    have k := many_pos hA hm (List.length_pos_iff.2 hne)
    obtain ⟨sl, hsel⟩ := (selectDelegationLoop_iff (maxP := howMany w A w.st.delegList.length) (sel := []) (tot := 0) hc
      (by simp only [List.length_nil]; omega)).2
      (fun l1 p l2 he hl => h1 p ⟨l1, l2, he, by simpa using hl⟩)
    have he := hloop sl hne hsel
    subst he
    obtain ⟨⟨is', tsc⟩, hsc⟩ := (updateScores_iff (isD := true) (ts := stakeOf w (candidates w A)) (cfg := cfg)
      (l := (candidates w A).map (infoFor w))).2 (by
        intro i hi
        obtain ⟨p, hp, rfl⟩ := List.mem_map.1 hi
        exact (infoFor_scorable (hprov p hp)).2 (h3 p (mem_candidates_iff.1 hp).2 (mem_candidates_iff.1 hp).1))
    obtain ⟨⟨res, rem⟩, hd⟩ := NoErr.all (fun e => ne_distributeLoop_delegate (e := e) (a := A) (ts := tsc) (mn := MIN_EGLD) is' A)
    obtain ⟨r, hr⟩ := NoErr.all (fun e => ne_handleRemaining (e := e) (isD := true) (l := res) (r := rem) (c := c) (by simp))
    refine ⟨r, hne, _, ⟨_, rfl, hsel⟩, ?_, cfg, scoring_iff.2 hcfg, _, hsc, _, hd, hr⟩
    dsimp only
    intro hx
    have := mem_candidates_iff.2 ⟨ho0, hp0⟩
    rw [List.map_eq_nil_iff] at hx
    rw [hx] at this
    simp at this

theorem collect_iff {w : World} {A : Nat} {c : Cache} (hc : CapOk w) (hA : oneEgld ≤ A) (hm : 1 ≤ w.st.maxSelectedProviders)
    (hm' : w.st.maxSelectedProviders < 2 ^ 32) (hn : w.st.undelegList.length < 2 ^ 32) :
    (∃ r, getDelegationContract w.st A false c = .ok r) ↔ CanCollect w A := by
  have hone : MIN_EGLD = oneEgld := rfl
  have hloop : ∀ r, w.st.undelegList ≠ [] →
      selectUndelegationLoop w.st MIN_EGLD (howMany w A w.st.undelegList.length) (average w A) w.st.undelegList [] 0 A = .ok r →
      ∃ k, IsGivers w A k ∧ (∀ p ∈ k, provider w p ≠ none) ∧ r = (k.map (infoFor w), stakeOf w k) := by
    rintro ⟨s, t⟩ hne h
    have ha := average_pos hA hm (List.length_pos_iff.2 hne)
    obtain ⟨k, p1, p2, p3, p4, p5, p6, p7⟩ := selectUndelegationLoop_eq ha hm' h
    rw [List.nil_append] at p2
    rw [Nat.zero_add] at p3
    simp only [List.length_nil, Nat.zero_add] at p5 p6 p7
    refine ⟨k, ⟨p1, p5 (by omega), ?_, p7⟩, p4, by rw [p2, p3]⟩
    rcases p6 with h | h | h
    · exact .inl h
    · exact .inr (.inl (by have := p5 (by omega); omega))
    · exact .inr (.inr h)
  have hiff : w.st.undelegList ≠ [] →
      ((∃ r, selectUndelegationLoop w.st MIN_EGLD (howMany w A w.st.undelegList.length) (average w A) w.st.undelegList [] 0 A = .ok r) ↔
      ∀ p, LooksBackAt w A p → NotOverdrawn w p) := by
    intro hne
    rw [selectUndelegationLoop_iff hc (average_pos hA hm (List.length_pos_iff.2 hne)) hm']
    simp only [List.length_nil, Nat.zero_add]
    constructor
    · rintro h p ⟨l1, l2, he, hx⟩
      exact h l1 p l2 he hx
    · intro h l1 p l2 he hx
      exact h p ⟨l1, l2, he, hx⟩
  unfold getDelegationContract handleUndelegation selectUndelegationProviders distributeAmount
  simp only [bind_ok, if_true, req_ok, exists_const, Bool.not_false, Bool.false_eq_true, if_false, maxProviders_many hn]
  constructor
  · rintro ⟨r, hne, sl, ⟨mp, hmp, pa, hpa, psl, hpsl, avg, havg, hsel⟩, hsne, cfg, hcfg, sc, hsc, ds, hds, _⟩
    cases hmp
    obtain ⟨_, rfl⟩ := cdiv_ok.1 hpa
    obtain ⟨_, rfl⟩ := cdiv_ok.1 hpsl
    obtain ⟨_, rfl⟩ := cdiv_ok.1 havg
    rw [show (A / howMany w A w.st.undelegList.length + A / w.st.maxSelectedProviders) / 2 = average w A from rfl] at hsel
    obtain ⟨k, hk, hprov, rfl⟩ := hloop sl hne hsel
    dsimp only at hsne hsc
    have hin : ∀ {p}, p ∈ k ↔ 0 < netStake w p ∧ LooksBackAt w A p := mem_givers_iff hk
    refine ⟨cfg, scoring_iff.1 hcfg, (hiff hne).1 ⟨_, hsel⟩, ?_, ?_⟩
    · have : k ≠ [] := by rintro rfl; exact hsne rfl
      obtain ⟨p, hp⟩ := List.exists_mem_of_ne_nil _ this
      exact ⟨p, (hin.1 hp).2, (hin.1 hp).1⟩
    · intro p hp hs
      have hpk := hin.2 ⟨hs, hp⟩
      have h1 := updateScores_iff.1 ⟨_, hsc⟩ (infoFor w p) (List.mem_map_of_mem hpk)
      refine ⟨?_, (infoFor_scorable (hprov p hpk)).1 h1⟩
      obtain ⟨scl, sct⟩ := sc
      obtain ⟨rfl, _⟩ := updateScores_lossFor hprov hsc
      have h2 := distributeLoop_needs hds (lossFor w cfg k p) (List.mem_map_of_mem hpk)
      rw [lossFor_stake (hprov p hpk)] at h2
      exact h2
  · rintro ⟨cfg, hcfg, h1, ⟨p0, hp0, ho0⟩, h3⟩
    have hne : w.st.undelegList ≠ [] := by
      obtain ⟨l1, l2, he, _⟩ := hp0
      rw [he]; simp
    have hk1 := many_pos hA hm (List.length_pos_iff.2 hne)
    obtain ⟨sl, hsel⟩ := (hiff hne).2 h1
    obtain ⟨k, hk, hprov, rfl⟩ := hloop sl hne hsel
    have hin : ∀ {p}, p ∈ k ↔ 0 < netStake w p ∧ LooksBackAt w A p := mem_givers_iff hk
    obtain ⟨⟨is', tsc⟩, hsc⟩ := (updateScores_iff (isD := false) (ts := stakeOf w k) (cfg := cfg)
      (l := k.map (infoFor w))).2 (by
        intro i hi
        obtain ⟨p, hp, rfl⟩ := List.mem_map.1 hi
        exact (infoFor_scorable (hprov p hp)).2 (h3 p (hin.1 hp).2 (hin.1 hp).1).2)
    obtain ⟨rfl, _⟩ := updateScores_lossFor hprov hsc
    obtain ⟨⟨res, rem⟩, hd⟩ := NoErr.all (fun e => ne_distributeLoop_undelegate (e := e) (a := A) (ts := tsc) (mn := MIN_EGLD)
      (k.map (lossFor w cfg k)) A (by
        intro i hi
        obtain ⟨p, hp, rfl⟩ := List.mem_map.1 hi
        rw [lossFor_stake (hprov p hp)]
        exact (h3 p (hin.1 hp).2 (hin.1 hp).1).1))
    obtain ⟨_, infos', _, hfit⟩ := distributeLoop_ok MIN_EGLD_pos hd
    obtain ⟨r, hr⟩ := NoErr.all (fun e => ne_handleRemaining (e := e) (isD := false) (l := res) (r := rem) (c := c)
      (fun _ => fits_space hfit))
    refine ⟨r, hne, _, ⟨_, rfl, _, cdiv_ok.2 ⟨by omega, rfl⟩, _, cdiv_ok.2 ⟨by omega, rfl⟩, _, cdiv_ok.2 ⟨by decide, rfl⟩, hsel⟩,
      ?_, cfg, scoring_iff.2 hcfg, _, hsc, _, hd, hr⟩
    dsimp only
    intro hx
    have := hin.2 ⟨ho0, hp0⟩
    rw [List.map_eq_nil_iff] at hx
    rw [hx] at this
    simp at this

/-! ### Whole batches -/

theorem batchAmount_iff {q a : Nat} {o : Option Nat} : batchAmount q o = .ok a ↔ a = batchAsked q o ∧ ValidBatch q o := by
  have hone : MIN_EGLD = oneEgld := rfl
  constructor
  · intro h
    exact ⟨(batchAsked_of h).symm, valid_of h⟩
  · rintro ⟨rfl, h1, h2, h3⟩
    obtain ⟨a, ha⟩ := NoErr.all (fun e => ne_batchAmount (e := e) (p := q) (o := o) h1 h2 (by
      unfold Whole batchAsked at h3; rw [hone]; exact h3.symm))
    rw [ha, batchAsked_of ha]

theorem delegatePending_iff {w : World} {c : Addr} {o : Option Nat} (hc : CapOk w) (hm : 1 ≤ w.st.maxSelectedProviders)
    (hn : w.st.delegList.length < 2 ^ 32) (hbal : w.st.r.pending ≤ w.egld.get 0 w.self) :
    (∃ w', delegatePending w c o = .ok w') ↔ c ≠ w.self ∧ w.st.lsToken ≠ none ∧ w.st.state = .active ∧ isManager w c = true ∧
      ValidBatch (pendingEgld w) o ∧ CanShareOut w (batchAsked (pendingEgld w) o) := by
  constructor
  · rintro ⟨w', h⟩
    unfold delegatePending at h
    simp only [bind_ok, requireUser_ok, requireActive_ok, requireManager_ok, exists_const, cacheNew_ok, Prod.exists] at h
    obtain ⟨h1, c0, ⟨t, ht, rfl⟩, h2, h3, amt, hamt, sels, c1, hsel, _⟩ := h
    obtain ⟨rfl, hv⟩ := batchAmount_iff.1 hamt
    exact ⟨h1, by rw [ht]; simp, h2, h3, hv, (shareOut_iff hc hv.1 hm hn).1 ⟨_, hsel⟩⟩
  · rintro ⟨h1, h2, h3, h4, hv, h5⟩
    obtain ⟨t, ht⟩ := Option.ne_none_iff_exists'.1 h2
    apply NoErr.all
    intro e
    unfold delegatePending
    refine .bind (.req (.inl h1)) fun _ _ => .bind (cacheNew_noErr ht) fun cc hcc => ?_
    obtain ⟨t', ht', rfl⟩ := cacheNew_ok.1 hcc
    refine .bind (.req (.inl h3)) fun _ _ => .bind (.req (.inl h4)) fun _ _ => ?_
    dsimp only
    rw [(batchAmount_iff (q := w.st.r.pending) (o := o)).2 ⟨rfl, hv⟩]
    refine .bind (.ok _) fun amt hamt => ?_
    cases hamt
    refine .bind ?_ fun r hr => ?_
    · obtain ⟨r, hr⟩ := (shareOut_iff (c := _) hc hv.1 hm hn).2 h5
      unfold pendingEgld at hr
      rw [hr]; exact .ok _
    obtain ⟨sels, c1⟩ := r
    obtain ⟨left, g1, rfl, g3, g4⟩ := selectDelegate_ok hr
    have hle := hv.2.1
    unfold pendingEgld at hle
    refine .bind (.csub (.inl (by dsimp only; omega))) fun p hp => ?_
    refine .bind (ne_delegateLoop sels w (by omega) ?_) fun _ _ => .ok _
    intro s hs
    obtain ⟨d, hd, _⟩ := g4 s hs
    rw [hd]; simp

theorem unDelegatePending_iff {w : World} {c : Addr} {o : Option Nat} (hc : CapOk w) (hm : 1 ≤ w.st.maxSelectedProviders)
    (hm' : w.st.maxSelectedProviders < 2 ^ 32) (hn : w.st.undelegList.length < 2 ^ 32) :
    (∃ w', unDelegatePending w c o = .ok w') ↔ c ≠ w.self ∧ w.st.lsToken ≠ none ∧ w.st.state = .active ∧ isManager w c = true ∧
      ValidBatch (toUndelegate w) o ∧ CanCollect w (batchAsked (toUndelegate w) o) := by
  constructor
  · rintro ⟨w', h⟩
    unfold unDelegatePending at h
    simp only [bind_ok, requireUser_ok, requireActive_ok, requireManager_ok, exists_const, cacheNew_ok, Prod.exists] at h
    obtain ⟨h1, c0, ⟨t, ht, rfl⟩, h2, h3, amt, hamt, sels, c1, hsel, _⟩ := h
    obtain ⟨rfl, hv⟩ := batchAmount_iff.1 hamt
    exact ⟨h1, by rw [ht]; simp, h2, h3, hv, (collect_iff hc hv.1 hm hm' hn).1 ⟨_, hsel⟩⟩
  · rintro ⟨h1, h2, h3, h4, hv, h5⟩
    obtain ⟨t, ht⟩ := Option.ne_none_iff_exists'.1 h2
    apply NoErr.all
    intro e
    unfold unDelegatePending
    refine .bind (.req (.inl h1)) fun _ _ => .bind (cacheNew_noErr ht) fun cc hcc => ?_
    obtain ⟨t', ht', rfl⟩ := cacheNew_ok.1 hcc
    refine .bind (.req (.inl h3)) fun _ _ => .bind (.req (.inl h4)) fun _ _ => ?_
    dsimp only
    rw [(batchAmount_iff (q := w.st.r.toUnstake) (o := o)).2 ⟨rfl, hv⟩]
    refine .bind (.ok _) fun amt hamt => ?_
    cases hamt
    refine .bind ?_ fun r hr => ?_
    · obtain ⟨r, hr⟩ := (collect_iff (c := _) hc hv.1 hm hm' hn).2 h5
      unfold toUndelegate at hr
      rw [hr]; exact .ok _
    obtain ⟨sels, c1⟩ := r
    obtain ⟨left, g1, rfl, g3, g4⟩ := selectUndelegate_ok hr
    have hle := hv.2.1
    unfold toUndelegate at hle
    refine .bind (.csub (.inl (by dsimp only; omega))) fun p hp => ?_
    refine .bind (ne_undelegateLoop sels w ?_) fun _ _ => .ok _
    intro s hs
    obtain ⟨d, hd, _⟩ := g4 s hs
    rw [hd]; simp

end LS
