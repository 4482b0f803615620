import Verif.Proofs.Basic

/-! What provider selection returns. -/

namespace LS

/-- Sum of the amounts of a list of selections. -/
def selSum (l : List Selection) : Nat := (l.map Selection.amount).sum

theorem selSum_cons (s : Selection) (l : List Selection) : selSum (s :: l) = s.amount + selSum l := by simp [selSum]

theorem totalWithPending_ok {d : ProviderData} {t : Nat} :
    d.totalWithPending = .ok t ↔ d.pUnstake ≤ d.staked + d.pStake ∧ t = d.staked + d.pStake - d.pUnstake := by
  unfold ProviderData.totalWithPending; exact csub_ok

/-- A selection record agrees with the stored record of its provider. -/
def InfoGood (st : Store) (i : SelInfo) : Prop :=
  ∃ d, st.data.get none i.address = some d ∧ i.totalStaked = d.totalStaked ∧ i.apy = d.apy ∧ i.nrNodes = d.nrNodes ∧
    d.pUnstake ≤ d.staked + d.pStake ∧ i.stakedLs = d.staked + d.pStake - d.pUnstake ∧
    ((d.cap = 0 ∧ i.spaceLeft = none) ∨ (d.cap ≠ 0 ∧ d.totalStaked ≤ d.cap ∧ i.spaceLeft = some (d.cap - d.totalStaked)))

/-- A provider that may receive stake. -/
def Delegable (st : Store) (mn : Nat) (a : Addr) : Prop :=
  ∃ d, st.data.get none a = some d ∧ d.eligible = true ∧ (d.cap = 0 ∨ mn + (d.staked + d.pStake - d.pUnstake) ≤ d.cap)

theorem createSelInfo_ok {st : Store} {a : Addr} {d : ProviderData} {i : SelInfo}
    (hd : st.data.get none a = some d) (h : createSelInfo a d = .ok i) : i.address = a ∧ InfoGood st i := by
  unfold createSelInfo spaceLeftOf at h
  simp only [bind_ok, ite_ok, csub_ok, Except.ok.injEq, totalWithPending_ok] at h
  obtain ⟨sp, hsp, t, ⟨h1, rfl⟩, rfl⟩ := h
  refine ⟨rfl, d, hd, rfl, rfl, rfl, h1, rfl, ?_⟩
  rcases hsp with ⟨hc, rfl⟩ | ⟨hc, s, ⟨hs, rfl⟩, rfl⟩
  · exact .inl ⟨hc, rfl⟩
  · exact .inr ⟨hc, hs, rfl⟩

theorem isProviderEligible_ok {d : ProviderData} {mn : Nat} (h : isProviderEligible d mn = .ok true) :
    d.eligible = true ∧ (d.cap = 0 ∨ mn + (d.staked + d.pStake - d.pUnstake) ≤ d.cap) := by
  unfold isProviderEligible at h
  split at h
  · simp at h
  · next he =>
    have he' : d.eligible = true := by simpa using he
    refine ⟨he', ?_⟩
    split at h
    · next hc => exact .inl hc
    · simp only [bind_ok, totalWithPending_ok, csub_ok, Except.ok.injEq, decide_eq_true_eq] at h
      obtain ⟨t, ⟨h1, rfl⟩, s, ⟨h2, rfl⟩, h3⟩ := h
      exact .inr (by omega)

theorem selectDelegationLoop_ok {st : Store} {mn maxP : Nat} : ∀ {list : List Addr} {sel sel' : List SelInfo} {tot tot' : Nat},
    selectDelegationLoop st mn maxP list sel tot = .ok (sel', tot') →
    ∃ new, sel' = sel ++ new ∧ (new.map SelInfo.address).Sublist list ∧
      (∀ i ∈ new, InfoGood st i ∧ Delegable st mn i.address) ∧ tot' = tot + (new.map SelInfo.stakedLs).sum ∧
      (sel.length < maxP → sel'.length ≤ maxP) := by
  intro list
  induction list with
  | nil =>
    intro sel sel' tot tot' h
    simp only [selectDelegationLoop, Except.ok.injEq, Prod.mk.injEq] at h
    obtain ⟨rfl, rfl⟩ := h
    exact ⟨[], by simp, by simp, by simp, by simp, fun h => by omega⟩
  | cons a rest ih =>
    intro sel sel' tot tot' h
    simp only [selectDelegationLoop, bind_ok, Prod.exists] at h
    obtain ⟨s1, t1, hc, h⟩ := h
    have key : ∃ new, s1 = sel ++ new ∧ (new = [] ∨ ∃ i, new = [i] ∧ i.address = a) ∧
        (∀ i ∈ new, InfoGood st i ∧ Delegable st mn i.address) ∧ t1 = tot + (new.map SelInfo.stakedLs).sum := by
      unfold considerProvider at hc
      simp only [bind_ok] at hc
      obtain ⟨d, hd, el, hel, hc⟩ := hc
      have hd' : st.data.get none a = some d := by
        unfold getData at hd; cases hx : st.data.get none a <;> simp_all
      rw [ite_ok] at hc
      rcases hc with ⟨hel', hc⟩ | ⟨_, hc⟩
      · simp only [bind_ok, totalWithPending_ok, Except.ok.injEq, Prod.mk.injEq] at hc
        obtain ⟨t, ⟨ht, rfl⟩, info, hi, rfl, rfl⟩ := hc
        subst hel'
        obtain ⟨ha, hg⟩ := createSelInfo_ok hd' hi
        refine ⟨[info], rfl, .inr ⟨info, rfl, ha⟩, ?_, ?_⟩
        · intro i hi'
          simp only [List.mem_singleton] at hi'
          subst hi'
          refine ⟨hg, ?_⟩
          rw [ha]
          exact ⟨d, hd', isProviderEligible_ok hel⟩
        · obtain ⟨d2, hd2, _, _, _, _, h6, _⟩ := hg
          rw [ha, hd'] at hd2
          simp only [Option.some.injEq] at hd2
          subst hd2
          simp [h6]
      · simp only [Except.ok.injEq, Prod.mk.injEq] at hc
        obtain ⟨rfl, rfl⟩ := hc
        exact ⟨[], by simp, .inl rfl, by simp, by simp⟩
    obtain ⟨new, rfl, hnew, hgood, rfl⟩ := key
    have hsub : (new.map SelInfo.address).Sublist [a] := by
      rcases hnew with rfl | ⟨i, rfl, hi⟩
      · simp
      · simp [hi]
    have hlen : new.length ≤ 1 := by rcases hnew with rfl | ⟨i, rfl, _⟩ <;> simp
    rw [ite_ok] at h
    rcases h with ⟨hl, h⟩ | ⟨hl, h⟩
    · simp only [Except.ok.injEq, Prod.mk.injEq] at h
      obtain ⟨rfl, rfl⟩ := h
      exact ⟨new, rfl, hsub.trans (by simp), hgood, rfl, fun _ => by omega⟩
    · obtain ⟨new2, rfl, h2, h3, rfl, h5⟩ := ih h
      refine ⟨new ++ new2, by simp, ?_, ?_, by simp; omega, ?_⟩
      · rw [List.map_append]
        exact hsub.append h2
      · intro i hi
        rcases List.mem_append.1 hi with hi | hi
        · exact hgood i hi
        · exact h3 i hi
      · intro hlt
        apply h5
        simp only [List.length_append] at hl ⊢
        omega

theorem selectUndelegationLoop_ok {st : Store} {mn maxP avg : Nat} :
    ∀ {list : List Addr} {sel sel' : List SelInfo} {tot tot' rem : Nat},
    selectUndelegationLoop st mn maxP avg list sel tot rem = .ok (sel', tot') →
    ∃ new, sel' = sel ++ new ∧ (new.map SelInfo.address).Sublist list ∧ (∀ i ∈ new, InfoGood st i) ∧
      tot' = tot + (new.map SelInfo.stakedLs).sum := by
  intro list
  induction list with
  | nil =>
    intro sel sel' tot tot' rem h
    simp only [selectUndelegationLoop, Except.ok.injEq, Prod.mk.injEq] at h
    obtain ⟨rfl, rfl⟩ := h
    exact ⟨[], by simp, by simp, by simp, by simp⟩
  | cons a rest ih =>
    intro sel sel' tot tot' rem h
    simp only [selectUndelegationLoop, bind_ok] at h
    obtain ⟨hd, hhd, h⟩ := h
    rw [ite_ok] at h
    rcases h with ⟨_, h⟩ | ⟨_, h⟩
    · simp only [Except.ok.injEq, Prod.mk.injEq] at h
      obtain ⟨rfl, rfl⟩ := h
      exact ⟨[], by simp, by simp, by simp, by simp⟩
    rw [ite_ok] at h
    rcases h with ⟨_, h⟩ | ⟨_, h⟩
    · simp only [Except.ok.injEq, Prod.mk.injEq] at h
      obtain ⟨rfl, rfl⟩ := h
      exact ⟨[], by simp, by simp, by simp, by simp⟩
    simp only [bind_ok, totalWithPending_ok] at h
    obtain ⟨d, hd1, staked, ⟨hst, rfl⟩, take, htake, h⟩ := h
    have hd' : st.data.get none a = some d := by
      unfold getData at hd1; cases hx : st.data.get none a <;> simp_all
    rw [ite_ok] at h
    rcases h with ⟨_, h⟩ | ⟨_, h⟩
    · simp only [bind_ok] at h
      obtain ⟨info, hi, h⟩ := h
      obtain ⟨ha, hg⟩ := createSelInfo_ok hd' hi
      obtain ⟨new, rfl, h2, h3, h4⟩ := ih h
      refine ⟨info :: new, by simp, ?_, ?_, ?_⟩
      · simp only [List.map_cons, ha]; exact h2.cons_cons a
      · intro i hi'
        rcases List.mem_cons.1 hi' with rfl | hi'
        · exact hg
        · exact h3 i hi'
      · obtain ⟨d2, hd2, _, _, _, _, h6, _⟩ := hg
        rw [ha, hd'] at hd2
        simp only [Option.some.injEq] at hd2
        subst hd2
        simp [h6]; omega
    · obtain ⟨new, rfl, h2, h3, h4⟩ := ih h
      exact ⟨new, rfl, h2.cons a, h3, h4⟩

theorem updateScores_ok {isD : Bool} {ts : Nat} {cfg : ScoringConfig} : ∀ {sel sel' : List SelInfo} {tot : Nat},
    updateScores isD ts cfg sel = .ok (sel', tot) →
    List.Forall₂ (fun i i' => ∃ s, i' = { i with score := s }) sel sel' ∧ tot = (sel'.map SelInfo.score).sum := by
  intro sel
  induction sel with
  | nil =>
    intro sel' tot h
    simp only [updateScores, Except.ok.injEq, Prod.mk.injEq] at h
    obtain ⟨rfl, rfl⟩ := h
    exact ⟨.nil, by simp⟩
  | cons i is ih =>
    intro sel' tot h
    simp only [updateScores, bind_ok, Prod.exists, Except.ok.injEq, Prod.mk.injEq] at h
    obtain ⟨i', hi, is', t, his, rfl, rfl⟩ := h
    obtain ⟨h1, rfl⟩ := ih his
    unfold updateScore at hi
    simp only [bind_ok, Except.ok.injEq] at hi
    obtain ⟨n, _, a, _, s, _, rfl⟩ := hi
    exact ⟨.cons ⟨_, rfl⟩ h1, by simp⟩

/-- What the amount given to a provider satisfies after the first pass. -/
def Fits (isD : Bool) (mn : Nat) (i : SelInfo) (s : Selection) : Prop :=
  s.address = i.address ∧ mn ≤ s.amount ∧
  (isD = true → (i.spaceLeft = none ∧ s.spaceLeft = none) ∨
    ∃ sp, i.spaceLeft = some sp ∧ s.amount ≤ sp ∧ s.spaceLeft = some (sp - s.amount)) ∧
  (isD = false → s.amount ≤ i.stakedLs ∧ s.spaceLeft = some (i.stakedLs - s.amount) ∧
    (i.stakedLs - s.amount = 0 ∨ mn ≤ i.stakedLs - s.amount))

/-- What it satisfies at the end. -/
def FitsFinal (isD : Bool) (mn : Nat) (i : SelInfo) (s : Selection) : Prop :=
  s.address = i.address ∧ mn ≤ s.amount ∧
  (isD = true → ∀ sp, i.spaceLeft = some sp → s.amount ≤ sp) ∧
  (isD = false → s.amount ≤ i.stakedLs ∧ (i.stakedLs - s.amount = 0 ∨ mn ≤ i.stakedLs - s.amount))

theorem Fits.final {isD : Bool} {mn : Nat} {i : SelInfo} {s : Selection} (h : Fits isD mn i s) : FitsFinal isD mn i s := by
  obtain ⟨h1, h2, h3, h4⟩ := h
  refine ⟨h1, h2, ?_, fun h => ⟨(h4 h).1, (h4 h).2.2⟩⟩
  intro hd sp hsp
  rcases h3 hd with ⟨h5, _⟩ | ⟨sp', h5, h6, _⟩
  · rw [h5] at hsp; cases hsp
  · rw [h5] at hsp; cases hsp; exact h6

theorem providerAmount_undelegate {i : SelInfo} {tot rem ts mn amt : Nat}
    (h : providerAmount i tot rem ts false mn = .ok amt) :
    amt ≤ rem ∧ amt ≤ i.stakedLs ∧ (amt = 0 ∨ i.stakedLs - amt = 0 ∨ mn ≤ i.stakedLs - amt) := by
  unfold providerAmount at h
  simp only [bind_ok, Bool.false_eq_true, if_false, csub_ok] at h
  obtain ⟨p, _, left, ⟨h1, rfl⟩, h⟩ := h
  rw [ite_ok] at h
  rcases h with ⟨h2, h⟩ | ⟨h2, h⟩
  · rw [ite_ok] at h
    rcases h with ⟨h3, h⟩ | ⟨h3, h⟩
    · simp only [Except.ok.injEq] at h; omega
    · simp only [bind_ok, csub_ok] at h
      obtain ⟨x, ⟨h4, rfl⟩, h⟩ := h
      rw [ite_ok] at h
      rcases h with ⟨h5, h⟩ | ⟨h5, h⟩ <;> simp only [Except.ok.injEq] at h <;> omega
  · simp only [Except.ok.injEq] at h; omega

theorem providerAmount_delegate {i : SelInfo} {tot rem ts mn amt : Nat}
    (h : providerAmount i tot rem ts true mn = .ok amt) :
    amt ≤ rem ∧ ∀ sp, i.spaceLeft = some sp → amt ≤ sp := by
  unfold providerAmount at h
  simp only [bind_ok, if_true] at h
  obtain ⟨p, _, h⟩ := h
  cases hs : i.spaceLeft with
  | none =>
    rw [hs] at h
    simp only [Except.ok.injEq] at h
    subst h
    exact ⟨Nat.min_le_right _ _, by simp⟩
  | some sp =>
    rw [hs] at h
    simp only [Except.ok.injEq] at h
    subst h
    refine ⟨Nat.min_le_right _ _, ?_⟩
    intro sp' h'
    simp only [Option.some.injEq] at h'
    subst h'
    omega

theorem distributeLoop_ok {amount ts : Nat} {isD : Bool} {mn : Nat} (hmn : 0 < mn) :
    ∀ {infos : List SelInfo} {rem : Nat} {sels : List Selection} {left : Nat},
    distributeLoop amount ts isD mn infos rem = .ok (sels, left) →
    selSum sels + left = rem ∧ ∃ infos', infos'.Sublist infos ∧ List.Forall₂ (Fits isD mn) infos' sels := by
  intro infos
  induction infos with
  | nil =>
    intro rem sels left h
    simp only [distributeLoop, Except.ok.injEq, Prod.mk.injEq] at h
    obtain ⟨rfl, rfl⟩ := h
    exact ⟨by simp [selSum], [], by simp, .nil⟩
  | cons i is ih =>
    intro rem sels left h
    simp only [distributeLoop, bind_ok] at h
    obtain ⟨amt, ha, h⟩ := h
    rw [ite_ok] at h
    rcases h with ⟨h1, h⟩ | ⟨h1, h⟩
    · simp only [bind_ok, csub_ok, Prod.exists, Except.ok.injEq, Prod.mk.injEq] at h
      obtain ⟨rem', ⟨h2, rfl⟩, sp, hsp, ss, lf, hl, rfl, rfl⟩ := h
      obtain ⟨hsum, infos', h3, h4⟩ := ih hl
      refine ⟨by rw [selSum_cons]; simp only; omega, i :: infos', h3.cons_cons i, .cons ?_ h4⟩
      refine ⟨rfl, h1, ?_, ?_⟩
      · intro hd
        subst hd
        have := providerAmount_delegate ha
        unfold spaceAfter at hsp
        simp only [if_true] at hsp
        cases hs : i.spaceLeft with
        | none =>
          rw [hs] at hsp
          simp only [Except.ok.injEq] at hsp
          subst hsp
          exact .inl ⟨rfl, rfl⟩
        | some s0 =>
          rw [hs] at hsp
          simp only [bind_ok, csub_ok, Except.ok.injEq] at hsp
          obtain ⟨x, ⟨h5, rfl⟩, rfl⟩ := hsp
          exact .inr ⟨s0, rfl, h5, rfl⟩
      · intro hd
        subst hd
        have := providerAmount_undelegate ha
        unfold spaceAfter at hsp
        simp only [Bool.false_eq_true, if_false, bind_ok, csub_ok, Except.ok.injEq] at hsp
        obtain ⟨x, ⟨h5, rfl⟩, rfl⟩ := hsp
        exact ⟨h5, rfl, by simp only; omega⟩
    · obtain ⟨hsum, infos', h3, h4⟩ := ih h
      exact ⟨hsum, infos', h3.cons i, h4⟩

theorem fillOne_ok {isD : Bool} {i : SelInfo} {p p' : Selection} {rem rem' : Nat} (hf : Fits isD MIN_EGLD i p)
    (h : fillOne isD p rem = .ok (p', rem')) : p'.amount + rem' = p.amount + rem ∧ FitsFinal isD MIN_EGLD i p' := by
  have hff := hf.final
  obtain ⟨f1, f2, f3, f4⟩ := hf
  unfold fillOne at h
  cases isD with
  | false =>
    simp only [Bool.not_false, if_true, bind_ok, unwrap_ok] at h
    obtain ⟨sp, hsp, h⟩ := h
    rw [ite_ok] at h
    obtain ⟨g1, g2, g3⟩ := f4 rfl
    rw [g2] at hsp
    simp only [Option.some.injEq] at hsp
    subst hsp
    rcases h with ⟨h1, h⟩ | ⟨h1, h⟩
    · simp only [Except.ok.injEq, Prod.mk.injEq, addAmount] at h
      obtain ⟨rfl, rfl⟩ := h
      refine ⟨by simp only; omega, f1, by simp only; omega, by simp, fun _ => ⟨by simp only; omega, ?_⟩⟩
      simp only
      omega
    · simp only [Except.ok.injEq, Prod.mk.injEq] at h
      obtain ⟨rfl, rfl⟩ := h
      exact ⟨rfl, hff⟩
  | true =>
    simp only [Bool.not_true, Bool.false_eq_true, if_false] at h
    rcases f3 rfl with ⟨g1, g2⟩ | ⟨sp, g1, g2, g3⟩
    · rw [g2] at h
      simp only [Except.ok.injEq, Prod.mk.injEq, addAmount] at h
      obtain ⟨rfl, rfl⟩ := h
      exact ⟨by simp, f1, by simp only; omega, by simp [g1], by simp⟩
    · rw [g3] at h
      simp only at h
      rw [ite_ok] at h
      rcases h with ⟨h1, h⟩ | ⟨h1, h⟩
      · simp only [Except.ok.injEq, Prod.mk.injEq, addAmount] at h
        obtain ⟨rfl, rfl⟩ := h
        refine ⟨by simp only; omega, f1, by simp only; omega, ?_, by simp⟩
        intro _ sp' hsp'
        rw [g1] at hsp'
        simp only [Option.some.injEq] at hsp'
        subst hsp'
        simp only
        omega
      · simp only [Except.ok.injEq, Prod.mk.injEq] at h
        obtain ⟨rfl, rfl⟩ := h
        exact ⟨rfl, hff⟩

theorem handleRemainingLoop_ok {isD : Bool} : ∀ {infos : List SelInfo} {provs provs' : List Selection} {rem left : Nat},
    List.Forall₂ (Fits isD MIN_EGLD) infos provs → handleRemainingLoop isD provs rem = .ok (provs', left) →
    selSum provs' + left = selSum provs + rem ∧ List.Forall₂ (FitsFinal isD MIN_EGLD) infos provs' := by
  intro infos
  induction infos with
  | nil =>
    intro provs provs' rem left hf h
    cases hf
    simp only [handleRemainingLoop, Except.ok.injEq, Prod.mk.injEq] at h
    obtain ⟨rfl, rfl⟩ := h
    exact ⟨rfl, .nil⟩
  | cons i is ih =>
    intro provs provs' rem left hf h
    cases hf with
    | cons hp hps =>
      next p ps =>
      simp only [handleRemainingLoop, bind_ok, Prod.exists] at h
      obtain ⟨p', rem', h1, h⟩ := h
      obtain ⟨e1, e2⟩ := fillOne_ok hp h1
      rw [ite_ok] at h
      rcases h with ⟨h2, h⟩ | ⟨h2, h⟩
      · simp only [Except.ok.injEq, Prod.mk.injEq] at h
        obtain ⟨rfl, rfl⟩ := h
        refine ⟨by rw [selSum_cons, selSum_cons]; omega, .cons e2 ?_⟩
        exact hps.imp (fun _ _ => Fits.final)
      · simp only [bind_ok, Prod.exists, Except.ok.injEq, Prod.mk.injEq] at h
        obtain ⟨ps', r2, h3, rfl, rfl⟩ := h
        obtain ⟨e3, e4⟩ := ih hps h3
        exact ⟨by rw [selSum_cons, selSum_cons]; omega, .cons e2 e4⟩

/-- The figure the undistributed remainder goes back to. -/
def giveBack (isD : Bool) (c : Cache) (left : Nat) : Cache :=
  if isD then { c with r := { c.r with pending := c.r.pending + left } }
  else { c with r := { c.r with toUnstake := c.r.toUnstake + left } }

theorem MIN_EGLD_pos : 0 < MIN_EGLD := by unfold MIN_EGLD; omega

theorem distributeAmount_ok {isD : Bool} {sel : List SelInfo} {amount ts : Nat} {cfg : ScoringConfig} {c c' : Cache}
    {sels : List Selection} (h : distributeAmount sel amount MIN_EGLD isD ts cfg c = .ok (sels, c')) :
    ∃ left infos, selSum sels + left = amount ∧ c' = giveBack isD c left ∧
      (infos.map SelInfo.address).Sublist (sel.map SelInfo.address) ∧
      (∀ i ∈ infos, ∃ s, ∃ j ∈ sel, i = { j with score := s }) ∧ List.Forall₂ (FitsFinal isD MIN_EGLD) infos sels := by
  unfold distributeAmount at h
  simp only [bind_ok, Prod.exists] at h
  obtain ⟨scored, tsc, h1, res, rem, h2, h3⟩ := h
  have hs := (updateScores_ok h1).1
  obtain ⟨e1, infos, e2, e3⟩ := distributeLoop_ok MIN_EGLD_pos h2
  have haddr : scored.map SelInfo.address = sel.map SelInfo.address := by
    clear h1 h2 e2
    induction hs with
    | nil => rfl
    | cons hx _ ih =>
      obtain ⟨s, rfl⟩ := hx
      simp [ih]
  have hmem : ∀ i ∈ scored, ∃ s, ∃ j ∈ sel, i = { j with score := s } := by
    clear h1 h2 e2 haddr
    induction hs with
    | nil => simp
    | cons hx _ ih =>
      obtain ⟨s, rfl⟩ := hx
      intro i hi
      rcases List.mem_cons.1 hi with rfl | hi
      · exact ⟨s, _, by simp, rfl⟩
      · obtain ⟨s, j, hj, rfl⟩ := ih i hi
        exact ⟨s, j, by simp [hj], rfl⟩
  have hsub : (infos.map SelInfo.address).Sublist (sel.map SelInfo.address) := by
    rw [← haddr]; exact e2.map _
  have hm2 : ∀ i ∈ infos, ∃ s, ∃ j ∈ sel, i = { j with score := s } := fun i hi => hmem i (e2.subset hi)
  unfold handleRemaining at h3
  rw [ite_ok] at h3
  rcases h3 with ⟨h4, h3⟩ | ⟨h4, h3⟩
  · simp only [Except.ok.injEq, Prod.mk.injEq] at h3
    obtain ⟨rfl, rfl⟩ := h3
    refine ⟨0, infos, by omega, ?_, hsub, hm2, e3.imp (fun _ _ => Fits.final)⟩
    unfold giveBack; split <;> simp
  · simp only [bind_ok, Prod.exists] at h3
    obtain ⟨ps', left, h5, h3⟩ := h3
    obtain ⟨e4, e5⟩ := handleRemainingLoop_ok e3 h5
    refine ⟨left, infos, ?_, ?_, hsub, hm2, ?_⟩
    · rw [ite_ok] at h3
      rcases h3 with ⟨_, h3⟩ | ⟨_, h3⟩
      · rw [ite_ok] at h3
        rcases h3 with ⟨_, h3⟩ | ⟨_, h3⟩ <;> simp only [Except.ok.injEq, Prod.mk.injEq] at h3 <;>
          obtain ⟨rfl, rfl⟩ := h3 <;> omega
      · simp only [Except.ok.injEq, Prod.mk.injEq] at h3
        obtain ⟨rfl, rfl⟩ := h3
        omega
    · rw [ite_ok] at h3
      rcases h3 with ⟨_, h3⟩ | ⟨h6, h3⟩
      · rw [ite_ok] at h3
        unfold giveBack
        rcases h3 with ⟨h7, h3⟩ | ⟨h7, h3⟩ <;> simp only [Except.ok.injEq, Prod.mk.injEq] at h3 <;>
          obtain ⟨rfl, rfl⟩ := h3
        · rw [if_pos h7]
        · rw [if_neg h7]
      · simp only [Except.ok.injEq, Prod.mk.injEq] at h3
        obtain ⟨rfl, rfl⟩ := h3
        have : left = 0 := by omega
        subst this
        unfold giveBack; split <;> simp
    · rw [ite_ok] at h3
      rcases h3 with ⟨_, h3⟩ | ⟨_, h3⟩
      · rw [ite_ok] at h3
        rcases h3 with ⟨_, h3⟩ | ⟨_, h3⟩ <;> simp only [Except.ok.injEq, Prod.mk.injEq] at h3 <;>
          obtain ⟨rfl, rfl⟩ := h3 <;> exact e5
      · simp only [Except.ok.injEq, Prod.mk.injEq] at h3
        obtain ⟨rfl, rfl⟩ := h3
        exact e5

/-- What a delegation batch gives one provider. -/
def DelegTarget (st : Store) (s : Selection) : Prop :=
  ∃ d, st.data.get none s.address = some d ∧ d.eligible = true ∧ MIN_EGLD ≤ s.amount ∧
    d.pUnstake ≤ d.staked + d.pStake ∧
    (d.cap = 0 ∨ (MIN_EGLD + (d.staked + d.pStake - d.pUnstake) ≤ d.cap ∧ d.totalStaked ≤ d.cap ∧
      s.amount ≤ d.cap - d.totalStaked))

/-- What an undelegation batch takes from one provider. -/
def UndelegTarget (st : Store) (s : Selection) : Prop :=
  ∃ d, st.data.get none s.address = some d ∧ MIN_EGLD ≤ s.amount ∧ d.pUnstake ≤ d.staked + d.pStake ∧
    s.amount ≤ d.staked + d.pStake - d.pUnstake ∧
    (d.staked + d.pStake - d.pUnstake - s.amount = 0 ∨ MIN_EGLD ≤ d.staked + d.pStake - d.pUnstake - s.amount)

theorem forall2_addr {isD : Bool} {infos : List SelInfo} {sels : List Selection}
    (h : List.Forall₂ (FitsFinal isD MIN_EGLD) infos sels) : sels.map Selection.address = infos.map SelInfo.address := by
  induction h with
  | nil => rfl
  | cons hx _ ih => simp [hx.1, ih]

theorem forall2_mem {isD : Bool} {infos : List SelInfo} {sels : List Selection}
    (h : List.Forall₂ (FitsFinal isD MIN_EGLD) infos sels) : ∀ s ∈ sels, ∃ i ∈ infos, FitsFinal isD MIN_EGLD i s := by
  induction h with
  | nil => simp
  | cons hx _ ih =>
    intro s hs
    rcases List.mem_cons.1 hs with rfl | hs
    · exact ⟨_, by simp, hx⟩
    · obtain ⟨i, hi, hf⟩ := ih s hs
      exact ⟨i, by simp [hi], hf⟩

theorem InfoGood_score {st : Store} {j : SelInfo} {s : Nat} (h : InfoGood st j) : InfoGood st { j with score := s } := h

/-- A delegation batch. -/
theorem selectDelegate_ok {st : Store} {amt : Nat} {c c' : Cache} {sels : List Selection}
    (h : getDelegationContract st amt true c = .ok (sels, c')) :
    ∃ left, selSum sels + left = amt ∧ c' = { c with r := { c.r with pending := c.r.pending + left } } ∧
      (sels.map Selection.address).Sublist st.delegList ∧ ∀ s ∈ sels, DelegTarget st s := by
  unfold getDelegationContract handleDelegation selectDelegationProviders at h
  simp only [bind_ok, if_true, req_ok, exists_const, Bool.not_true, Bool.false_eq_true, if_false, Prod.exists] at h
  obtain ⟨_, sel, ts, ⟨mp, hmp, hsel⟩, hne, cfg, hcfg, h⟩ := h
  obtain ⟨new, rfl, hsub, hgood, _, _⟩ := selectDelegationLoop_ok hsel
  obtain ⟨left, infos, h1, h2, h3, h4, h5⟩ := distributeAmount_ok h
  refine ⟨left, h1, by simpa [giveBack] using h2, ?_, ?_⟩
  · rw [forall2_addr h5]; exact h3.trans hsub
  · intro s hs
    obtain ⟨i, hi, hf1, hf2, hf3, _⟩ := forall2_mem h5 s hs
    obtain ⟨sc, j, hj, rfl⟩ := h4 i hi
    obtain ⟨⟨d, g1, g2, g3, g4, g5, g6, g7⟩, ⟨d', k1, k2, k3⟩⟩ := hgood j hj
    rw [g1] at k1
    simp only [Option.some.injEq] at k1
    subst k1
    simp only at hf1
    refine ⟨d, by rw [hf1]; exact g1, k2, hf2, g5, ?_⟩
    rcases g7 with ⟨g8, _⟩ | ⟨g8, g9, g10⟩
    · exact .inl g8
    · rcases k3 with k3 | k3
      · exact .inl k3
      · exact .inr ⟨k3, g9, hf3 rfl _ g10⟩

/-- An undelegation batch. -/
theorem selectUndelegate_ok {st : Store} {amt : Nat} {c c' : Cache} {sels : List Selection}
    (h : getDelegationContract st amt false c = .ok (sels, c')) :
    ∃ left, selSum sels + left = amt ∧ c' = { c with r := { c.r with toUnstake := c.r.toUnstake + left } } ∧
      (sels.map Selection.address).Sublist st.undelegList ∧ ∀ s ∈ sels, UndelegTarget st s := by
  unfold getDelegationContract handleUndelegation selectUndelegationProviders at h
  simp only [bind_ok, if_true, req_ok, exists_const, Bool.not_false, Bool.false_eq_true, if_false, Prod.exists] at h
  obtain ⟨_, sel, ts, ⟨mp, hmp, pa, _, psl, _, avg, _, hsel⟩, hne, cfg, hcfg, h⟩ := h
  obtain ⟨new, rfl, hsub, hgood, _⟩ := selectUndelegationLoop_ok hsel
  obtain ⟨left, infos, h1, h2, h3, h4, h5⟩ := distributeAmount_ok h
  refine ⟨left, h1, by simpa [giveBack] using h2, ?_, ?_⟩
  · rw [forall2_addr h5]; exact h3.trans hsub
  · intro s hs
    obtain ⟨i, hi, hf1, hf2, _, hf4⟩ := forall2_mem h5 s hs
    obtain ⟨sc, j, hj, rfl⟩ := h4 i hi
    obtain ⟨d, g1, g2, g3, g4, g5, g6, g7⟩ := hgood j hj
    simp only at hf1 hf4
    obtain ⟨k1, k2⟩ := hf4 trivial
    rw [g6] at k1 k2
    exact ⟨d, by rw [hf1]; exact g1, hf2, g5, k1, k2⟩

end LS
