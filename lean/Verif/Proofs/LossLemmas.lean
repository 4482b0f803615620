import Verif.Proofs.ShareLemmas
import Verif.Spec.Losing

/-! How an un-delegation batch is shared between the providers. -/

namespace LS
open Spec

theorem createSelInfo_infoFor {w : World} {a : Addr} {d : ProviderData} {i : SelInfo} (hd : provider w a = some d)
    (h : createSelInfo a d = .ok i) : i = infoFor w a := by
  have hn := netStake_of hd
  unfold createSelInfo spaceLeftOf at h
  simp only [bind_ok, ite_ok, csub_ok, Except.ok.injEq, totalWithPending_ok] at h
  obtain ⟨sp, hsp, t, ⟨_, rfl⟩, rfl⟩ := h
  unfold infoFor room
  rw [hd]
  simp only [hn]
  rcases hsp with ⟨hc, rfl⟩ | ⟨hc, s, ⟨_, rfl⟩, rfl⟩
  · rw [if_pos hc]
  · rw [if_neg hc]

theorem amountToTake_eq {w : World} {A : Nat} {p : Addr} {t : Nat}
    (h : amountToTake (netStake w p) (average w A) MIN_EGLD = .ok t) : t = expected w A p := by
  have hone : MIN_EGLD = oneEgld := rfl
  unfold amountToTake at h
  unfold expected
  rw [← hone]
  rw [ite_ok] at h
  rcases h with ⟨h1, h⟩ | ⟨h1, h⟩
  · simp only [Except.ok.injEq] at h
    rw [if_pos h1, h]
  · rw [if_neg h1]
    rw [ite_ok] at h
    rcases h with ⟨h2, h⟩ | ⟨h2, h⟩
    · rw [if_pos (by omega)]
      simp only [csub_ok] at h
      exact h.2
    · rw [if_neg (by omega)]
      simp only [Except.ok.injEq] at h
      exact h.symm

theorem expected_pos {w : World} {A : Nat} {p : Addr} (h : 0 < average w A) : 0 < expected w A p ↔ 0 < netStake w p := by
  have hone : 0 < oneEgld := MIN_EGLD_pos
  unfold expected
  split
  · omega
  · split <;> omega

theorem selectUndelegationLoop_eq {w : World} {A maxP : Nat} (ha : 0 < average w A) (hm : w.st.maxSelectedProviders < 2 ^ 32) :
    ∀ {list : List Addr} {sel sel' : List SelInfo} {tot tot' rem : Nat},
    selectUndelegationLoop w.st MIN_EGLD maxP (average w A) list sel tot rem = .ok (sel', tot') →
    ∃ k, k <+: list.filter (fun p => decide (0 < netStake w p)) ∧ sel' = sel ++ k.map (infoFor w) ∧ tot' = tot + stakeOf w k ∧
      (∀ p ∈ k, provider w p ≠ none) ∧
      (sel.length ≤ w.st.maxSelectedProviders → sel.length + k.length ≤ w.st.maxSelectedProviders) ∧
      (k = list.filter (fun p => decide (0 < netStake w p)) ∨ w.st.maxSelectedProviders ≤ sel.length + k.length ∨
        (maxP ≤ sel.length + k.length ∧ rem ≤ expectedOf w A k)) ∧
      ∀ k', k' <+: k → k' ≠ k → sel.length + k'.length < maxP ∨ expectedOf w A k' < rem := by
  intro list
  induction list with
  | nil =>
    intro sel sel' tot tot' rem h
    simp only [selectUndelegationLoop, Except.ok.injEq, Prod.mk.injEq] at h
    obtain ⟨rfl, rfl⟩ := h
    refine ⟨[], by simp, by simp, by simp [stakeOf], by simp, by simp, by simp, ?_⟩
    intro k' h1 h2
    exact absurd (List.prefix_nil.1 h1) h2
  | cons a rest ih =>
    intro sel sel' tot tot' rem h
    simp only [selectUndelegationLoop, bind_ok, unwrap_ok] at h
    obtain ⟨hard, hh, h⟩ := h
    have hhard : asUsize hard = w.st.maxSelectedProviders := by
      unfold toU64 at hh
      split at hh
      · simp only [Option.some.injEq] at hh
        subst hh; exact asUsize_small hm
      · simp at hh
    rw [hhard, ite_ok] at h
    rcases h with ⟨h1, h⟩ | ⟨h1, h⟩
    · simp only [Except.ok.injEq, Prod.mk.injEq] at h
      obtain ⟨rfl, rfl⟩ := h
      refine ⟨[], by simp, by simp, by simp [stakeOf], by simp, by simp, .inr (.inl (by simpa using h1)), ?_⟩
      intro k' h1 h2
      exact absurd (List.prefix_nil.1 h1) h2
    rw [ite_ok] at h
    rcases h with ⟨h2, h⟩ | ⟨h2, h⟩
    · simp only [Except.ok.injEq, Prod.mk.injEq] at h
      obtain ⟨rfl, rfl⟩ := h
      refine ⟨[], by simp, by simp, by simp [stakeOf], by simp, by simp, .inr (.inr ⟨by simpa using h2.1, by omega⟩), ?_⟩
      intro k' h1 h2
      exact absurd (List.prefix_nil.1 h1) h2
    simp only [bind_ok, totalWithPending_ok] at h
    obtain ⟨d, hd, st, ⟨hle, rfl⟩, t, htake, h⟩ := h
    have hd' : provider w a = some d := by
      unfold getData at hd; unfold provider; cases hx : w.st.data.get none a <;> simp_all
    have hn := netStake_of hd'
    rw [← hn] at htake
    have ht := amountToTake_eq htake
    subst ht
    rw [ite_ok] at h
    rcases h with ⟨h3, h⟩ | ⟨h3, h⟩
    · have hs : 0 < netStake w a := (expected_pos ha).1 h3
      have hf : (a :: rest).filter (fun p => decide (0 < netStake w p)) =
          a :: rest.filter (fun p => decide (0 < netStake w p)) := by simp [hs]
      rw [hf]
      simp only [bind_ok] at h
      obtain ⟨info, hi, h⟩ := h
      have hi := createSelInfo_infoFor hd' hi
      subst hi
      obtain ⟨k, p1, p2, p3, p4, p5, p6, p7⟩ := ih h
      have hlen : (sel ++ [infoFor w a]).length = sel.length + 1 := by simp
      rw [hlen] at p5 p6 p7
      have hexp : ∀ l, expectedOf w A (a :: l) = expected w A a + expectedOf w A l := by
        intro l; simp [expectedOf]
      refine ⟨a :: k, ?_, by rw [p2]; simp, ?_, ?_, ?_, ?_, ?_⟩
      · exact (List.prefix_cons_inj a).2 p1
      · rw [p3, ← hn]; simp [stakeOf]; omega
      · intro p hp
        rcases List.mem_cons.1 hp with rfl | hp
        · rw [hd']; simp
        · exact p4 p hp
      · intro _
        have := p5 (by omega)
        simp only [List.length_cons]; omega
      · rw [hexp]
        simp only [List.length_cons]
        rcases p6 with p6 | p6 | ⟨p6, p7⟩
        · exact .inl (by rw [p6])
        · exact .inr (.inl (by omega))
        · refine .inr (.inr ⟨by omega, ?_⟩)
          split at p7 <;> omega
      · intro k' hk hk'
        rw [List.prefix_cons_iff] at hk
        rcases hk with rfl | ⟨k'', rfl, hk⟩
        · have : ¬ (maxP ≤ sel.length ∧ rem = 0) := h2
          simp only [expectedOf, List.map_nil, List.sum_nil, List.length_nil]
          omega
        · have := p7 k'' hk (fun e => hk' (by rw [e]))
          rw [hexp]
          simp only [List.length_cons]
          rcases this with h | h
          · left; omega
          · right; split at h <;> omega
    · have hs : ¬ 0 < netStake w a := fun hs => h3 ((expected_pos ha).2 hs)
      have hf : (a :: rest).filter (fun p => decide (0 < netStake w p)) =
          rest.filter (fun p => decide (0 < netStake w p)) := by simp [hs]
      rw [hf]
      exact ih h

/-! ### Scores -/

/-- The selection record of a provider, scored for losing stake among `l`. -/
def lossFor (w : World) (cfg : ScoringConfig) (l : List Addr) (p : Addr) : SelInfo :=
  { infoFor w p with score := lossScore w cfg l p }

theorem lossFor_address (w : World) (cfg : ScoringConfig) (l : List Addr) (p : Addr) : (lossFor w cfg l p).address = p :=
  infoFor_address w p

theorem lossFor_stake {w : World} {cfg : ScoringConfig} {l : List Addr} {p : Addr} (h : provider w p ≠ none) :
    (lossFor w cfg l p).stakedLs = netStake w p := by
  obtain ⟨d, hd⟩ := Option.ne_none_iff_exists'.1 h
  show (infoFor w p).stakedLs = _
  unfold infoFor; rw [hd]

theorem updateScore_lossFor {w : World} {cfg : ScoringConfig} {l : List Addr} {p : Addr} {j : SelInfo}
    (hp : provider w p ≠ none) (h : updateScore (infoFor w p) false (stakeOf w l) cfg = .ok j) : j = lossFor w cfg l p := by
  have h1 := C33_only_score h
  have h2 := C33_undelegation_score h
  rw [h1, h2]
  unfold lossFor
  obtain ⟨d, hd⟩ := Option.ne_none_iff_exists'.1 hp
  have : undelegationScore cfg (infoFor w p).nrNodes.toNat (infoFor w p).apy.toNat (infoFor w p).stakedLs (stakeOf w l) =
      lossScore w cfg l p := by
    unfold lossScore infoFor; rw [hd]
  rw [this]

theorem updateScores_lossFor {w : World} {cfg : ScoringConfig} {l : List Addr} : ∀ {l1 : List Addr} {l' : List SelInfo} {t : Nat},
    (∀ p ∈ l1, provider w p ≠ none) → updateScores false (stakeOf w l) cfg (l1.map (infoFor w)) = .ok (l', t) →
    l' = l1.map (lossFor w cfg l) ∧ t = (l1.map (lossScore w cfg l)).sum := by
  intro l1
  induction l1 with
  | nil =>
    intro l' t _ h
    simp only [List.map_nil, updateScores, Except.ok.injEq, Prod.mk.injEq] at h
    obtain ⟨rfl, rfl⟩ := h
    exact ⟨rfl, rfl⟩
  | cons a rest ih =>
    intro l' t hp h
    simp only [List.map_cons, updateScores, bind_ok, Prod.exists, Except.ok.injEq, Prod.mk.injEq] at h
    obtain ⟨i', hi, is', t', his, rfl, rfl⟩ := h
    obtain ⟨rfl, rfl⟩ := ih (fun p hp' => hp p (by simp [hp'])) his
    have := updateScore_lossFor (hp a (by simp)) hi
    subst this
    exact ⟨by simp, by simp [lossFor]⟩

/-! ### First pass -/

/-- The amount of the first pass, for those addressed and those passed over. -/
theorem providerAmount_loss {i : SelInfo} {A rem T mn amt : Nat} (h : providerAmount i A rem T false mn = .ok amt) :
    amt ≤ rem ∧ amt ≤ i.stakedLs ∧
    (mn ≤ amt → 0 < T → min (i.score * A / T) (min i.stakedLs rem) ≤ amt ∧
      (amt ≤ max (i.score * A / T) mn ∨ amt = i.stakedLs)) ∧
    (amt < mn → i.stakedLs < rem + mn ∨ rem < mn) := by
  obtain ⟨h1, h2, _⟩ := providerAmount_undelegate h
  refine ⟨h1, h2, ?_⟩
  unfold providerAmount proportionOf at h
  simp only [bind_ok, Bool.false_eq_true, if_false, csub_ok] at h
  obtain ⟨p, hp, left, ⟨h3, rfl⟩, h⟩ := h
  have hp' : 0 < T → p = i.score * A / T := by
    intro hT
    rw [if_pos hT, cdiv_ok] at hp
    exact hp.2
  rw [ite_ok] at h
  rcases h with ⟨h4, h⟩ | ⟨h4, h⟩
  · rw [ite_ok] at h
    rcases h with ⟨h5, h⟩ | ⟨h5, h⟩
    · simp only [Except.ok.injEq] at h
      exact ⟨fun _ _ => by omega, fun _ => by omega⟩
    · simp only [bind_ok, csub_ok] at h
      obtain ⟨x, ⟨h6, rfl⟩, h⟩ := h
      rw [ite_ok] at h
      rcases h with ⟨h7, h⟩ | ⟨h7, h⟩ <;> simp only [Except.ok.injEq] at h
      · exact ⟨fun _ _ => by omega, fun _ => by omega⟩
      · exact ⟨fun _ _ => by omega, fun _ => by omega⟩
  · simp only [Except.ok.injEq] at h
    refine ⟨fun h8 hT => ?_, fun _ => by omega⟩
    have := hp' hT
    rw [← this]
    omega

/-- The amount and space of a record after the first pass; `e` is the share. -/
structure First (mn : Nat) (i : SelInfo) (e : Nat) (s : Selection) : Prop where
  addr : s.address = i.address
  le : s.amount ≤ i.stakedLs
  space : s.spaceLeft = some (i.stakedLs - s.amount)
  min : mn ≤ s.amount
  top : s.amount ≤ max e mn ∨ s.amount = i.stakedLs

theorem distributeLoop_loss {A T mn : Nat} (hT : 0 < T) (hmn : 0 < mn) : ∀ {infos : List SelInfo} {rem : Nat} {sels : List Selection} {left : Nat},
    distributeLoop A T false mn infos rem = .ok (sels, left) →
    selSum sels + left = rem ∧
    (∀ s ∈ sels, ∃ i ∈ infos, First mn i (i.score * A / T) s) ∧
    (∀ l1 s l2, sels = l1 ++ s :: l2 → ∃ i ∈ infos, i.address = s.address ∧
      min (i.score * A / T) (min i.stakedLs (rem - selSum l1)) ≤ s.amount) ∧
    ((∀ i ∈ infos, rem + mn ≤ i.stakedLs) → left < mn ∨ parts A T infos + left ≤ rem) := by
  intro infos
  induction infos with
  | nil =>
    intro rem sels left h
    simp only [distributeLoop, Except.ok.injEq, Prod.mk.injEq] at h
    obtain ⟨rfl, rfl⟩ := h
    exact ⟨by simp [selSum], by simp, by simp, fun _ => .inr (by simp [parts])⟩
  | cons i is ih =>
    intro rem sels left h
    simp only [distributeLoop, bind_ok] at h
    obtain ⟨amt, ha, h⟩ := h
    obtain ⟨a1, a2, a3, a4⟩ := providerAmount_loss ha
    rw [ite_ok] at h
    rcases h with ⟨h1, h⟩ | ⟨h1, h⟩
    · simp only [bind_ok, csub_ok, Prod.exists, Except.ok.injEq, Prod.mk.injEq] at h
      obtain ⟨rem', ⟨h2, rfl⟩, sp, hsp, ss, lf, hl, rfl, rfl⟩ := h
      obtain ⟨i1, i2, i3, i4⟩ := ih hl
      obtain ⟨b1, b2⟩ := a3 h1 hT
      have hsp' : sp = some (i.stakedLs - amt) := by
        unfold spaceAfter at hsp
        simp only [Bool.false_eq_true, if_false, bind_ok, csub_ok, Except.ok.injEq] at hsp
        obtain ⟨x, ⟨h5, rfl⟩, rfl⟩ := hsp
        rfl
      refine ⟨by rw [selSum_cons]; simp only; omega, ?_, ?_, ?_⟩
      · intro s hs
        rcases List.mem_cons.1 hs with rfl | hs
        · exact ⟨i, by simp, rfl, a2, hsp', h1, b2⟩
        · obtain ⟨j, hj, hf⟩ := i2 s hs
          exact ⟨j, by simp [hj], hf⟩
      · intro l1 s l2 he
        cases l1 with
        | nil =>
          simp only [List.nil_append, List.cons.injEq] at he
          obtain ⟨rfl, rfl⟩ := he
          exact ⟨i, by simp, rfl, by simpa [selSum] using b1⟩
        | cons y l1 =>
          simp only [List.cons_append, List.cons.injEq] at he
          obtain ⟨rfl, he⟩ := he
          obtain ⟨j, hj, hja, hjm⟩ := i3 l1 s l2 he
          refine ⟨j, by simp [hj], hja, ?_⟩
          rw [selSum_cons]
          simp only
          rw [Nat.sub_sub] at hjm
          exact hjm
      · intro hp
        have e1 : parts A T (i :: is) = i.score * A / T + parts A T is := by simp [parts]
        have hpi := hp i (by simp)
        rcases i4 (fun j hj => by have := hp j (by simp [hj]); omega) with h5 | h5
        · exact .inl h5
        · rw [e1]
          by_cases hlt : lf < mn
          · exact .inl hlt
          · right
            have : lf ≤ rem - amt := by omega
            have : i.score * A / T ≤ amt := by omega
            omega
    · obtain ⟨i1, i2, i3, i4⟩ := ih h
      refine ⟨i1, ?_, ?_, ?_⟩
      · intro s hs
        obtain ⟨j, hj, hf⟩ := i2 s hs
        exact ⟨j, by simp [hj], hf⟩
      · intro l1 s l2 he
        obtain ⟨j, hj, hf⟩ := i3 l1 s l2 he
        exact ⟨j, by simp [hj], hf⟩
      · intro hp
        have hpi := hp i (by simp)
        rcases a4 (by omega) with h5 | h5
        · omega
        · left; omega

/-- The first provider is addressed when it has plenty. -/
theorem distributeLoop_first {A T mn rem : Nat} {i : SelInfo} {is : List SelInfo} {sels : List Selection} {left : Nat}
    (h : distributeLoop A T false mn (i :: is) rem = .ok (sels, left)) (hr : mn ≤ rem) (hi : rem + mn ≤ i.stakedLs) :
    ∃ s ss, sels = s :: ss ∧ s.address = i.address := by
  simp only [distributeLoop, bind_ok] at h
  obtain ⟨amt, ha, h⟩ := h
  obtain ⟨a1, a2, a3, a4⟩ := providerAmount_loss ha
  rw [ite_ok] at h
  rcases h with ⟨h1, h⟩ | ⟨h1, h⟩
  · simp only [bind_ok, csub_ok, Prod.exists, Except.ok.injEq, Prod.mk.injEq] at h
    obtain ⟨rem', ⟨h2, rfl⟩, sp, hsp, ss, lf, hl, rfl, rfl⟩ := h
    exact ⟨_, _, rfl, rfl⟩
  · rcases a4 (by omega) with h5 | h5 <;> omega

/-- The proportional parts miss less than one per record. -/
theorem parts_ge {A T : Nat} (hT : 0 < T) : ∀ infos : List SelInfo,
    (infos.map SelInfo.score).sum * A ≤ (parts A T infos + infos.length) * T
  | [] => by simp [parts]
  | i :: is => by
    have ih := parts_ge (A := A) hT is
    have h1 : i.score * A ≤ (i.score * A / T + 1) * T := by
      have := Nat.lt_div_mul_add (a := i.score * A) hT
      rw [Nat.add_mul, Nat.one_mul]; omega
    have e1 : parts A T (i :: is) = i.score * A / T + parts A T is := by simp [parts]
    have e2 : ((i :: is).map SelInfo.score).sum = i.score + (is.map SelInfo.score).sum := by simp
    have e3 : (parts A T (i :: is) + (i :: is).length) * T =
        (i.score * A / T + 1) * T + (parts A T is + is.length) * T := by
      rw [e1, List.length_cons, ← Nat.add_mul]; congr 1; omega
    rw [e2, e3, Nat.add_mul]
    omega

/-! ### Second pass -/

/-- How the second pass changes the amounts: from `rem` down to `left`. -/
inductive Drain : List Selection → List Selection → Nat → Nat → Prop
  | done (ps) : Drain ps ps 0 0
  | nil (rem) : Drain [] [] rem rem
  | fill (p p' : Selection) (ps ps') (rem left x : Nat) (ha : p'.address = p.address) (hx : p.spaceLeft = some x) (hle : x ≤ rem)
      (hp : p'.amount = p.amount + x) (h : Drain ps ps' (rem - x) left) : Drain (p :: ps) (p' :: ps') rem left
  | last (p p' : Selection) (ps) (rem x : Nat) (ha : p'.address = p.address) (hx : p.spaceLeft = some x)
      (hle : rem + MIN_EGLD ≤ x) (hp : p'.amount = p.amount + rem) : Drain (p :: ps) (p' :: ps) rem 0
  | skip (p : Selection) (ps ps') (rem left x : Nat) (hx : p.spaceLeft = some x) (hgt : rem < x) (hlt : x < rem + MIN_EGLD)
      (h : Drain ps ps' rem left) : Drain (p :: ps) (p :: ps') rem left

theorem handleRemainingLoop_drain : ∀ {provs provs' : List Selection} {rem left : Nat}, 0 < rem →
    handleRemainingLoop false provs rem = .ok (provs', left) → Drain provs provs' rem left := by
  intro provs
  induction provs with
  | nil =>
    intro provs' rem left _ h
    simp only [handleRemainingLoop, Except.ok.injEq, Prod.mk.injEq] at h
    obtain ⟨rfl, rfl⟩ := h
    exact .nil _
  | cons p ps ih =>
    intro provs' rem left hrem h
    simp only [handleRemainingLoop, bind_ok, Prod.exists] at h
    obtain ⟨p', rem', h1, h⟩ := h
    unfold fillOne at h1
    simp only [Bool.not_false, if_true, bind_ok, unwrap_ok] at h1
    obtain ⟨x, hx, h1⟩ := h1
    have hrest : ∀ {r : Nat}, (if rem' = 0 then Except.ok (p' :: ps, rem') else do
        let (ps', rem'') ← handleRemainingLoop false ps rem'
        .ok (p' :: ps', rem'')) = .ok (provs', left) → rem' = r → ∃ ps', provs' = p' :: ps' ∧ Drain ps ps' r left := by
      intro r h hr
      subst hr
      rw [ite_ok] at h
      rcases h with ⟨h2, h⟩ | ⟨h2, h⟩
      · simp only [Except.ok.injEq, Prod.mk.injEq] at h
        obtain ⟨rfl, rfl⟩ := h
        rw [h2]
        exact ⟨ps, rfl, .done _⟩
      · simp only [bind_ok, Prod.exists, Except.ok.injEq, Prod.mk.injEq] at h
        obtain ⟨ps', r2, h3, rfl, rfl⟩ := h
        exact ⟨ps', rfl, ih (by omega) h3⟩
    rw [ite_ok] at h1
    rcases h1 with ⟨h2, h1⟩ | ⟨h2, h1⟩
    · simp only [Except.ok.injEq, Prod.mk.injEq, addAmount] at h1
      obtain ⟨rfl, hr⟩ := h1
      by_cases hle : x ≤ rem
      · have hm : min x rem = x := by omega
        rw [hm] at hr h
        obtain ⟨ps', rfl, hd⟩ := hrest (by rw [hm]; exact h) hr.symm
        exact .fill _ _ _ _ _ _ x rfl hx hle (by simp only; omega) hd
      · have hm : min x rem = rem := by omega
        rw [hm] at h hr h2
        rw [Nat.sub_self] at hr
        rw [if_pos hr.symm] at h
        simp only [Except.ok.injEq, Prod.mk.injEq] at h
        obtain ⟨rfl, rfl⟩ := h
        rw [← hr]
        exact .last _ _ _ _ x rfl hx (by omega) rfl
    · simp only [Except.ok.injEq, Prod.mk.injEq] at h1
      obtain ⟨rfl, rfl⟩ := h1
      by_cases hle : x ≤ rem
      · have : x = 0 := by omega
        subst this
        obtain ⟨ps', rfl, hd⟩ := hrest h rfl
        exact .fill _ _ _ _ _ _ 0 rfl hx hle rfl (by simpa using hd)
      · obtain ⟨ps', rfl, hd⟩ := hrest h rfl
        exact .skip _ _ _ _ _ x hx (by omega) (by omega) hd

theorem handleRemaining_drain {provs provs' : List Selection} {rem : Nat} {c c' : Cache}
    (h : handleRemaining provs rem false c = .ok (provs', c')) :
    ∃ left, Drain provs provs' rem left ∧ c' = { c with r := { c.r with toUnstake := c.r.toUnstake + left } } := by
  unfold handleRemaining at h
  rw [ite_ok] at h
  rcases h with ⟨h1, h⟩ | ⟨h1, h⟩
  · simp only [Except.ok.injEq, Prod.mk.injEq] at h
    obtain ⟨rfl, rfl⟩ := h
    subst h1
    exact ⟨0, .done _, rfl⟩
  · simp only [bind_ok, Prod.exists, Bool.false_eq_true, if_false] at h
    obtain ⟨ps', left, h2, h⟩ := h
    have ht := handleRemainingLoop_drain (by omega) h2
    rw [ite_ok] at h
    rcases h with ⟨h3, h⟩ | ⟨h3, h⟩
    · simp only [Except.ok.injEq, Prod.mk.injEq] at h
      obtain ⟨rfl, rfl⟩ := h
      exact ⟨left, ht, rfl⟩
    · simp only [Except.ok.injEq, Prod.mk.injEq] at h
      obtain ⟨rfl, rfl⟩ := h
      have : left = 0 := by omega
      subst this
      exact ⟨0, ht, rfl⟩

theorem drain_address {ps ps' : List Selection} {rem left : Nat} (h : Drain ps ps' rem left) :
    ps'.map Selection.address = ps.map Selection.address := by
  induction h with
  | done => rfl
  | nil => rfl
  | fill p p' ps ps' rem left x ha _ _ _ _ ih => simp [ha, ih]
  | last p p' ps rem x ha => simp [ha]
  | skip p ps ps' rem left x _ _ _ _ ih => simp [ih]

theorem drain_sum {ps ps' : List Selection} {rem left : Nat} (h : Drain ps ps' rem left) :
    selSum ps' + left = selSum ps + rem := by
  induction h with
  | done => rfl
  | nil => rfl
  | fill p p' ps ps' rem left x ha hx hle hp _ ih => rw [selSum_cons, selSum_cons]; omega
  | last p p' ps rem x ha hx hle hp => rw [selSum_cons, selSum_cons]; omega
  | skip p ps ps' rem left x _ _ _ _ ih => rw [selSum_cons, selSum_cons]; omega

/-- Somebody with plenty left takes all that remains. -/
theorem drain_plenty {ps ps' : List Selection} {rem left : Nat} (h : Drain ps ps' rem left)
    {s : Selection} (hs : s ∈ ps) {x : Nat} (hx : s.spaceLeft = some x) (hp : rem + MIN_EGLD ≤ x) : left = 0 := by
  have := MIN_EGLD_pos
  induction h with
  | done => rfl
  | nil => simp at hs
  | fill p p' ps ps' rem left y ha hy hle _ _ ih =>
    rcases List.mem_cons.1 hs with rfl | hs
    · rw [hx] at hy; cases hy; omega
    · exact ih hs (by omega)
  | last => rfl
  | skip p ps ps' rem left y hy _ hlt _ ih =>
    rcases List.mem_cons.1 hs with rfl | hs
    · rw [hx] at hy; cases hy; omega
    · exact ih hs hp

/-- Position by position: amounts only grow; by something only up to the whole space or when everybody before is drained or
would have been left with dust. -/
theorem drain_split {ps ps' : List Selection} {rem left : Nat} (h : Drain ps ps' rem left) :
    ∀ {l1' : List Selection} {s' : Selection} {l2' : List Selection}, ps' = l1' ++ s' :: l2' →
    ∃ l1 s l2, ps = l1 ++ s :: l2 ∧ s'.address = s.address ∧ s.amount ≤ s'.amount ∧ selSum l1 ≤ selSum l1' ∧ l1.length = l1'.length ∧
      s'.amount - s.amount ≤ rem ∧
      (s'.amount = s.amount ∨ (∃ x, s.spaceLeft = some x ∧ s'.amount = s.amount + x) ∨ left = 0) := by
  induction h with
  | done ps =>
    intro l1' s' l2' he
    exact ⟨l1', s', l2', he, rfl, Nat.le_refl _, Nat.le_refl _, rfl, by omega, .inl rfl⟩
  | nil => intro l1' s' l2' he; simp at he
  | fill p p' ps ps' rem left x ha hx hle hp _ ih =>
    intro l1' s' l2' he
    cases l1' with
    | nil =>
      simp only [List.nil_append, List.cons.injEq] at he
      obtain ⟨rfl, rfl⟩ := he
      exact ⟨[], p, ps, rfl, ha, by omega, Nat.le_refl _, rfl, by omega, .inr (.inl ⟨x, hx, hp⟩)⟩
    | cons y l1' =>
      simp only [List.cons_append, List.cons.injEq] at he
      obtain ⟨rfl, he⟩ := he
      obtain ⟨l1, s, l2, e1, e2, e3, e4, e7, e5, e6⟩ := ih he
      refine ⟨p :: l1, s, l2, by rw [e1]; rfl, e2, e3, ?_, by simp [e7], by omega, e6⟩
      rw [selSum_cons, selSum_cons]; omega
  | last p p' ps rem x ha hx hle hp =>
    intro l1' s' l2' he
    cases l1' with
    | nil =>
      simp only [List.nil_append, List.cons.injEq] at he
      obtain ⟨rfl, rfl⟩ := he
      exact ⟨[], p, ps, rfl, ha, by omega, Nat.le_refl _, rfl, by omega, .inr (.inr rfl)⟩
    | cons y l1' =>
      simp only [List.cons_append, List.cons.injEq] at he
      obtain ⟨rfl, he⟩ := he
      refine ⟨p :: l1', s', l2', by rw [he]; rfl, rfl, Nat.le_refl _, ?_, by simp, by omega, .inl rfl⟩
      rw [selSum_cons, selSum_cons]; omega
  | skip p ps ps' rem left x _ _ _ _ ih =>
    intro l1' s' l2' he
    cases l1' with
    | nil =>
      simp only [List.nil_append, List.cons.injEq] at he
      obtain ⟨rfl, rfl⟩ := he
      exact ⟨[], p, ps, rfl, rfl, Nat.le_refl _, Nat.le_refl _, rfl, by omega, .inl rfl⟩
    | cons y l1' =>
      simp only [List.cons_append, List.cons.injEq] at he
      obtain ⟨rfl, he⟩ := he
      obtain ⟨l1, s, l2, e1, e2, e3, e4, e7, e5, e6⟩ := ih he
      refine ⟨p :: l1, s, l2, by rw [e1]; rfl, e2, e3, ?_, by simp [e7], by omega, e6⟩
      rw [selSum_cons, selSum_cons]; omega

/-- Whoever is not drained before the remainder has been placed would have been left with dust. -/
theorem drain_before {w : World} {ps ps' : List Selection} {rem left : Nat} (h : Drain ps ps' rem left)
    (hr : ∀ s ∈ ps, ∀ x, s.spaceLeft = some x → netStake w s.address = s.amount + x) :
    ∀ {l1' : List Selection} {s' : Selection} {l2' : List Selection}, ps' = l1' ++ s' :: l2' →
    ∀ {l1 : List Selection} {s : Selection} {l2 : List Selection}, ps = l1 ++ s :: l2 → l1.length = l1'.length →
    s.amount < s'.amount → ∀ k1 q k2, l1' = k1 ++ q :: k2 →
      q.amount = netStake w q.address ∨ netStake w q.address < q.amount + (selSum (k2 ++ s' :: l2') + left) + MIN_EGLD := by
  induction h with
  | done ps =>
    intro l1' s' l2' he l1 s l2 he' hl hlt
    rw [he] at he'
    have := List.append_inj he' hl.symm
    simp only [List.cons.injEq] at this
    rw [this.2.1] at hlt; omega
  | nil => intro l1' s' l2' he; simp at he
  | fill p p' ps ps' rem left x ha hx hle hp hd ih =>
    intro l1' s' l2' he l1 s l2 he' hl hlt k1 q k2 hk
    cases l1' with
    | nil => simp at hk
    | cons y l1' =>
      cases l1 with
      | nil => simp at hl
      | cons z l1 =>
        simp only [List.cons_append, List.cons.injEq] at he he'
        obtain ⟨rfl, he⟩ := he
        obtain ⟨rfl, he'⟩ := he'
        cases k1 with
        | nil =>
          simp only [List.nil_append, List.cons.injEq] at hk
          obtain ⟨rfl, rfl⟩ := hk
          left
          rw [ha, hr p (by simp) x hx, hp]
        | cons u k1 =>
          simp only [List.cons_append, List.cons.injEq] at hk
          have := ih (fun s hs => hr s (by simp [hs])) he he' (by simpa using hl) hlt k1 q k2 hk.2
          omega
  | last p p' ps rem x ha hx hle hp =>
    intro l1' s' l2' he l1 s l2 he' hl hlt k1 q k2 hk
    cases l1' with
    | nil => simp at hk
    | cons y l1' =>
      cases l1 with
      | nil => simp at hl
      | cons z l1 =>
        simp only [List.cons_append, List.cons.injEq] at he he'
        rw [he.2] at he'
        have := List.append_inj he'.2 (by simpa using hl.symm)
        simp only [List.cons.injEq] at this
        rw [this.2.1] at hlt; omega
  | skip p ps ps' rem left x hx hgt hlt' hd ih =>
    intro l1' s' l2' he l1 s l2 he' hl hlt k1 q k2 hk
    cases l1' with
    | nil => simp at hk
    | cons y l1' =>
      cases l1 with
      | nil => simp at hl
      | cons z l1 =>
        simp only [List.cons_append, List.cons.injEq] at he he'
        obtain ⟨rfl, he⟩ := he
        obtain ⟨rfl, he'⟩ := he'
        cases k1 with
        | nil =>
          simp only [List.nil_append, List.cons.injEq] at hk
          obtain ⟨rfl, rfl⟩ := hk
          right
          rw [hr p (by simp) x hx]
          have := drain_sum hd
          rw [he] at this
          omega
        | cons u k1 =>
          simp only [List.cons_append, List.cons.injEq] at hk
          exact ih (fun s hs => hr s (by simp [hs])) he he' (by simpa using hl) hlt k1 q k2 hk.2

/-! ### The batch -/

theorem prefix_len_lt {k l m : List Addr} (h1 : k <+: m) (h2 : l <+: m) (hlt : k.length < l.length) : k <+: l ∧ k ≠ l :=
  ⟨List.prefix_of_prefix_length_le h1 h2 (Nat.le_of_lt hlt), fun e => by rw [e] at hlt; omega⟩

/-- An un-delegation batch in terms of the specification. -/
theorem unDelegatePending_shares {w w' : World} {c : Addr} {o : Option Nat} (h : unDelegatePending w c o = .ok w')
    (hm : 1 ≤ w.st.maxSelectedProviders) (hm' : w.st.maxSelectedProviders < 2 ^ 32) :
    ∃ l cfg sels res rem left, w'.flights = w.flights ++ sels.map (fun s => Flight.undelegate s.address s.amount) ∧
      w.st.scoring = some cfg ∧ oneEgld ≤ batchAsked (toUndelegate w) o ∧ IsGivers w (batchAsked (toUndelegate w) o) l ∧ l ≠ [] ∧
      (∀ p ∈ l, provider w p ≠ none) ∧
      distributeLoop (batchAsked (toUndelegate w) o) (lossScores w cfg l) false MIN_EGLD (l.map (lossFor w cfg l))
        (batchAsked (toUndelegate w) o) = .ok (res, rem) ∧
      Drain res sels rem left ∧ selSum sels + left = batchAsked (toUndelegate w) o := by
  have hone : MIN_EGLD = oneEgld := rfl
  unfold unDelegatePending at h
  simp only [bind_ok, requireUser_ok, requireActive_ok, requireManager_ok, exists_const, cacheNew_ok, Prod.exists,
    csub_ok, Except.ok.injEq] at h
  obtain ⟨h1, c, ⟨t, ht, rfl⟩, h2, h3, amt, hamt, sels, c1, hsel, p, ⟨hp, rfl⟩, w1, hloop, rfl⟩ := h
  obtain ⟨E, D, rfl, _⟩ := undelegateLoop_ok hloop
  obtain ⟨left0, hsum, hc1, _⟩ := selectUndelegate_ok hsel
  have hA : amt = batchAsked (toUndelegate w) o := by
    unfold toUndelegate; exact (batchAsked_of hamt).symm
  have hb := batchAmount_ok hamt
  subst hA
  generalize batchAsked (toUndelegate w) o = A at *
  unfold getDelegationContract handleUndelegation selectUndelegationProviders at hsel
  simp only [bind_ok, if_true, req_ok, exists_const, Bool.not_false, Bool.false_eq_true, if_false, Prod.exists, cdiv_ok] at hsel
  obtain ⟨hne, sel, ts, ⟨mp, hmp, pa, ⟨_, rfl⟩, psl, ⟨_, rfl⟩, avg, ⟨_, rfl⟩, hsel⟩, hsne, cfg, hcfg, h⟩ := hsel
  obtain ⟨h0, _, rfl⟩ := maxProviders_ok hmp
  have k1 : 1 ≤ A / MIN_EGLD := Nat.div_pos hb.2.1 MIN_EGLD_pos
  have k2 : 1 ≤ w.st.undelegList.length := List.length_pos_iff.2 hne
  rw [asUsize_small (by omega)] at hsel
  have hmany : min (min (A / MIN_EGLD) w.st.maxSelectedProviders) w.st.undelegList.length =
      howMany w A w.st.undelegList.length := rfl
  rw [hmany] at hsel
  have k3 : 1 ≤ howMany w A w.st.undelegList.length := by rw [← hmany]; omega
  have havg : (A / howMany w A w.st.undelegList.length + A / w.st.maxSelectedProviders) / 2 = average w A := rfl
  rw [havg] at hsel
  have k4 : 0 < average w A := by
    have h5 : howMany w A w.st.undelegList.length ≤ A / oneEgld := by rw [← hmany, hone]; omega
    have h6 : howMany w A w.st.undelegList.length * oneEgld ≤ A :=
      Nat.le_trans (Nat.mul_le_mul_right _ h5) (Nat.div_mul_le_self _ _)
    have h7 : oneEgld ≤ A / howMany w A w.st.undelegList.length := by
      rw [Nat.le_div_iff_mul_le (by omega), Nat.mul_comm]; exact h6
    have h8 : 2 ≤ oneEgld := by decide
    exact Nat.div_pos (Nat.le_trans h8 (Nat.le_trans h7 (Nat.le_add_right _ _))) (by decide)
  obtain ⟨l, p1, p2, p3, p4, p5, p6, p7⟩ := selectUndelegationLoop_eq k4 hm' hsel
  rw [List.nil_append] at p2
  rw [Nat.zero_add] at p3
  simp only [List.length_nil, Nat.zero_add] at p5 p6 p7
  have hg : IsGivers w A l := by
    refine ⟨p1, p5 (by omega), ?_, p7⟩
    rcases p6 with h | h | h
    · exact .inl h
    · exact .inr (.inl (by have := p5 (by omega); omega))
    · exact .inr (.inr h)
  subst p2 p3
  unfold distributeAmount at h
  simp only [bind_ok, Prod.exists] at h
  obtain ⟨scored, tsc, hu, res, rem, hd, hrem⟩ := h
  obtain ⟨rfl, rfl⟩ := updateScores_lossFor p4 hu
  obtain ⟨left, htop, hc'⟩ := handleRemaining_drain hrem
  have : left = left0 := by
    rw [hc'] at hc1
    injection hc1 with _ _ hc1
    injection hc1
    omega
  subst this
  refine ⟨l, cfg, sels, res, rem, left, rfl, ?_, hb.2.1, hg, ?_, p4, hd, htop, hsum⟩
  · unfold getScoringConfig at hcfg
    cases hx : w.st.scoring with
    | none => rw [hx] at hcfg; simp at hcfg
    | some x => rw [hx] at hcfg; simp only [Except.ok.injEq] at hcfg; rw [hcfg]
  · rintro rfl; exact hsne rfl

/-- There is only one such list. -/
theorem Spec.IsGivers.unique {w : World} {A : Nat} {l l' : List Addr} (h : IsGivers w A l) (h' : IsGivers w A l') : l = l' := by
  have key : ∀ {l l' : List Addr}, IsGivers w A l → IsGivers w A l' → ¬ l.length < l'.length := by
    intro l l' h h' hlt
    obtain ⟨e1, e2⟩ := prefix_len_lt h.front h'.front hlt
    rcases h.enough with h1 | h1 | ⟨h1, h2⟩
    · have := h'.front.length_le
      rw [← h1] at this; omega
    · have := h'.few; omega
    · rcases h'.needed l e1 e2 with h3 | h3 <;> omega
  have h1 := key h h'
  have h2 := key h' h
  exact List.prefix_of_prefix_length_le h.front h'.front (by omega) |>.eq_of_length (by omega)

end LS
