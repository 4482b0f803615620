import Verif.Proofs.NoErr
import Verif.Proofs.Registry

/-! More on batches: how many providers are addressed, the order of the lists afterwards, and when selection succeeds. -/

namespace LS

/-! ### List order -/

theorem moveToBack_eq {l : List Addr} {a : Addr} (h : l.Nodup) : moveToBack l a = l.filter (fun x => x ∉ [a]) ++ [a] := by
  unfold moveToBack setInsert
  rw [if_neg (h.not_mem_erase), h.erase_eq_filter]
  congr 1
  apply List.filter_congr
  intro x _
  by_cases hx : x = a <;> simp [hx]

theorem foldMove_eq : ∀ {as : List Addr} {l : List Addr}, l.Nodup → as.Nodup →
    as.foldl moveToBack l = l.filter (fun x => x ∉ as) ++ as
  | [], l, _, _ => by simp
  | a :: as, l, hl, has => by
    obtain ⟨h1, h2⟩ := List.nodup_cons.1 has
    rw [List.foldl_cons, foldMove_eq (nodup_moveToBack hl) h2, moveToBack_eq hl, List.filter_append, List.filter_filter]
    have : [a].filter (fun x => x ∉ as) = [a] := by simp [h1]
    rw [this, List.append_assoc]
    congr 1
    apply List.filter_congr
    intro x _
    by_cases hx : x = a <;> simp [hx]

theorem foldMove_sels (sels : List Selection) (l : List Addr) :
    sels.foldl (fun l s => moveToBack l s.address) l = (sels.map Selection.address).foldl moveToBack l := by
  rw [List.foldl_map]

/-! ### How many -/

theorem trunc_eq {a mn : Nat} : a * DECIMALS_SCALE * DECIMALS_SCALE / (mn * DECIMALS_SCALE) / DECIMALS_SCALE = a / mn := by
  have : 0 < DECIMALS_SCALE := by decide
  rw [Nat.mul_div_mul_right _ _ this, Nat.div_div_eq_div_mul, Nat.mul_div_mul_right _ _ this]

theorem maxProviders_ok {st : Store} {a mn n m : Nat} (h : maxProviders st a mn n = .ok m) :
    mn ≠ 0 ∧ min (min (a / mn) st.maxSelectedProviders) n < 2 ^ 64 ∧
      m = asUsize (min (min (a / mn) st.maxSelectedProviders) n) := by
  unfold maxProviders at h
  simp only [bind_ok, cdiv_ok, unwrap_ok, Except.ok.injEq] at h
  obtain ⟨q, ⟨h1, rfl⟩, u, hu, rfl⟩ := h
  rw [trunc_eq] at hu
  unfold toU64 at hu
  have h0 : mn ≠ 0 := by rintro rfl; simp at h1
  split at hu
  · next hlt =>
    simp only [Option.some.injEq] at hu
    exact ⟨h0, hlt, by rw [hu]⟩
  · simp at hu

theorem asUsize_le (n : Nat) : asUsize n ≤ n := Nat.mod_le _ _

theorem asUsize_small {n : Nat} (h : n < 2 ^ 32) : asUsize n = n := Nat.mod_eq_of_lt h

theorem sels_length {isD : Bool} {sel : List SelInfo} {amount ts : Nat} {cfg : ScoringConfig} {c c' : Cache}
    {sels : List Selection} (h : distributeAmount sel amount MIN_EGLD isD ts cfg c = .ok (sels, c')) :
    sels.length ≤ sel.length := by
  obtain ⟨left, infos, _, _, h3, _, h5⟩ := distributeAmount_ok h
  have := h3.length_le
  simp only [List.length_map] at this
  rw [h5.length_eq] at this
  exact this

theorem selectUndelegationLoop_len {st : Store} {mn maxP avg : Nat} :
    ∀ {list : List Addr} {sel sel' : List SelInfo} {tot tot' rem : Nat},
    selectUndelegationLoop st mn maxP avg list sel tot rem = .ok (sel', tot') →
    sel.length ≤ st.maxSelectedProviders → sel'.length ≤ st.maxSelectedProviders := by
  intro list
  induction list with
  | nil =>
    intro sel sel' tot tot' rem h hl
    simp only [selectUndelegationLoop, Except.ok.injEq, Prod.mk.injEq] at h
    obtain ⟨rfl, rfl⟩ := h
    exact hl
  | cons a rest ih =>
    intro sel sel' tot tot' rem h hl
    simp only [selectUndelegationLoop, bind_ok, unwrap_ok] at h
    obtain ⟨hd, hhd, h⟩ := h
    have hle : asUsize hd ≤ st.maxSelectedProviders := by
      unfold toU64 at hhd
      split at hhd
      · simp only [Option.some.injEq] at hhd; subst hhd; exact asUsize_le _
      · simp at hhd
    rw [ite_ok] at h
    rcases h with ⟨_, h⟩ | ⟨hlt, h⟩
    · simp only [Except.ok.injEq, Prod.mk.injEq] at h
      obtain ⟨rfl, rfl⟩ := h
      exact hl
    rw [ite_ok] at h
    rcases h with ⟨_, h⟩ | ⟨_, h⟩
    · simp only [Except.ok.injEq, Prod.mk.injEq] at h
      obtain ⟨rfl, rfl⟩ := h
      exact hl
    simp only [bind_ok] at h
    obtain ⟨d, _, staked, _, take, _, h⟩ := h
    rw [ite_ok] at h
    rcases h with ⟨_, h⟩ | ⟨_, h⟩
    · simp only [bind_ok] at h
      obtain ⟨info, _, h⟩ := h
      refine ih h ?_
      simp only [List.length_append, List.length_singleton]
      omega
    · exact ih h hl

theorem delegatePending_len {w w' : World} {c : Addr} {o : Option Nat} (h : delegatePending w c o = .ok w')
    (hm : 1 ≤ w.st.maxSelectedProviders) (hn : w.st.delegList.length < 2 ^ 32) :
    w'.flights.length ≤ w.flights.length + w.st.maxSelectedProviders := by
  unfold delegatePending at h
  simp only [bind_ok, requireUser_ok, requireActive_ok, requireManager_ok, exists_const, cacheNew_ok, Prod.exists,
    csub_ok, Except.ok.injEq] at h
  obtain ⟨h1, c, ⟨t, ht, rfl⟩, h2, h3, amt, hamt, sels, c1, hsel, p, ⟨hp, rfl⟩, w1, hloop, rfl⟩ := h
  obtain ⟨E, D, rfl, _⟩ := delegateLoop_ok hloop
  show (w.flights ++ sels.map (fun s => Flight.delegate s.address s.amount)).length ≤ _
  rw [List.length_append, List.length_map]
  unfold getDelegationContract handleDelegation selectDelegationProviders at hsel
  simp only [bind_ok, if_true, req_ok, exists_const, Bool.not_true, Bool.false_eq_true, if_false, Prod.exists] at hsel
  obtain ⟨hne, sel, ts, ⟨mp, hmp, hsel⟩, _, cfg, hcfg, h⟩ := hsel
  have hl := sels_length h
  obtain ⟨new, rfl, hsub, _, _, hlen⟩ := selectDelegationLoop_ok hsel
  obtain ⟨h0, _, rfl⟩ := maxProviders_ok hmp
  have hb := batchAmount_ok hamt
  have h1 : 1 ≤ amt / MIN_EGLD := Nat.div_pos hb.2.1 MIN_EGLD_pos
  have h2 : 1 ≤ w.st.delegList.length := List.length_pos_iff.2 hne
  rw [asUsize_small (by omega)] at hlen
  have := hlen (by simp only [List.length_nil]; omega)
  omega

theorem unDelegatePending_len {w w' : World} {c : Addr} {o : Option Nat} (h : unDelegatePending w c o = .ok w') :
    w'.flights.length ≤ w.flights.length + w.st.maxSelectedProviders := by
  unfold unDelegatePending at h
  simp only [bind_ok, requireUser_ok, requireActive_ok, requireManager_ok, exists_const, cacheNew_ok, Prod.exists,
    csub_ok, Except.ok.injEq] at h
  obtain ⟨h1, c, ⟨t, ht, rfl⟩, h2, h3, amt, hamt, sels, c1, hsel, p, ⟨hp, rfl⟩, w1, hloop, rfl⟩ := h
  obtain ⟨E, D, rfl, _⟩ := undelegateLoop_ok hloop
  show (w.flights ++ sels.map (fun s => Flight.undelegate s.address s.amount)).length ≤ _
  rw [List.length_append, List.length_map]
  unfold getDelegationContract handleUndelegation selectUndelegationProviders at hsel
  simp only [bind_ok, if_true, req_ok, exists_const, Bool.not_false, Bool.false_eq_true, if_false, Prod.exists] at hsel
  obtain ⟨_, sel, ts, ⟨mp, hmp, pa, _, psl, _, avg, _, hsel⟩, hne, cfg, hcfg, h⟩ := hsel
  have hl := sels_length h
  have := selectUndelegationLoop_len hsel (by simp)
  omega

theorem selSum_ge {mn : Nat} : ∀ {l : List Selection}, (∀ s ∈ l, mn ≤ s.amount) → l.length * mn ≤ selSum l
  | [], _ => by simp
  | s :: l, h => by
    rw [selSum_cons, List.length_cons, Nat.succ_mul]
    have h1 := h s (by simp)
    have h2 := selSum_ge (l := l) fun q hq => h q (by simp [hq])
    omega

/-! ### When selection succeeds -/

theorem ne_getData {e : Err} {st : Store} {a : Addr} {d : ProviderData} (h : st.data.get none a = some d) :
    NoErr e (getData st a) := by unfold getData; rw [h]; exact .ok _

theorem ne_normLinearClamp {e : Err} {v mn mx : Nat} {down : Bool} (h : mn ≠ mx ∨ v ≠ mn) :
    NoErr e (normLinearClamp v mn mx down) := by
  unfold normLinearClamp normClamp
  refine .bind ?_ fun r hr => .ite (fun _ => .csub (.inl ?_)) (fun _ => .ok _)
  · refine .ite (fun _ => .ok _) fun h1 => .ite (fun _ => .ok _) fun h2 => ?_
    refine .bind (.csub (.inl (by omega))) fun a ha => .bind (.csub (.inl (by omega))) fun b hb => .cdiv (.inl ?_)
    have := (csub_ok.1 hb).2
    omega
  · rw [ite_ok] at hr
    rcases hr with ⟨_, hr⟩ | ⟨h1, hr⟩
    · simp only [Except.ok.injEq] at hr; omega
    rw [ite_ok] at hr
    rcases hr with ⟨_, hr⟩ | ⟨h2, hr⟩
    · simp only [Except.ok.injEq] at hr; omega
    simp only [bind_ok, csub_ok, cdiv_ok] at hr
    obtain ⟨a, ⟨_, rfl⟩, b, ⟨_, rfl⟩, h3, rfl⟩ := hr
    apply Nat.div_le_of_le_mul
    exact Nat.mul_le_mul_right _ (by omega)

/-- The node and APY ranges have a width. -/
def UsableScoring (cfg : ScoringConfig) : Prop := cfg.minNodes ≠ cfg.maxNodes ∧ cfg.minApy ≠ cfg.maxApy

theorem u64_ne {a b : UInt64} (h : a ≠ b) : a.toNat ≠ b.toNat := fun h' => h (UInt64.toNat_inj.1 h')

theorem ne_updateScores {e : Err} {isD : Bool} {ts : Nat} {cfg : ScoringConfig} (h : UsableScoring cfg) :
    ∀ l, NoErr e (updateScores isD ts cfg l)
  | [] => .ok _
  | i :: is => by
    unfold updateScores
    refine .bind ?_ fun _ _ => .bind (ne_updateScores h is) fun _ _ => .ok _
    unfold updateScore nodeScore apyScore stakeScore
    refine .bind (.bind (ne_normLinearClamp (.inl (u64_ne h.1))) fun _ _ => .ok _) fun _ _ => ?_
    refine .bind (.bind (ne_normLinearClamp (.inl (u64_ne h.2))) fun _ _ => .ok _) fun _ _ => ?_
    refine .bind (.ite (fun h0 => .bind (ne_normLinearClamp (.inl (by omega))) fun _ _ => .ok _) fun _ => .ok _) fun _ _ => .ok _

theorem ne_proportion {e : Err} {s a r ts : Nat} : NoErr e (proportionOf s a r ts) := by
  unfold proportionOf; exact .ite (fun h => .cdiv (.inl (by omega))) fun _ => .ok _

theorem ne_distributeLoop_delegate {e : Err} {a ts mn : Nat} : ∀ l r, NoErr e (distributeLoop a ts true mn l r)
  | [], _ => .ok _
  | i :: l, r => by
    unfold distributeLoop
    refine .bind ?_ fun amt hamt => .ite (fun _ => ?_) (fun _ => ne_distributeLoop_delegate l _)
    · unfold providerAmount
      refine .bind ne_proportion fun _ _ => ?_
      simp only [if_true]
      split <;> exact .ok _
    · obtain ⟨h1, h2⟩ := providerAmount_delegate hamt
      refine .bind (.csub (.inl h1)) fun _ _ => .bind ?_ fun _ _ => .bind (ne_distributeLoop_delegate l _) fun _ _ => .ok _
      unfold spaceAfter
      simp only [if_true]
      split
      · next s hs => exact .bind (.csub (.inl (h2 s hs))) fun _ _ => .ok _
      · exact .ok _

theorem ne_distributeLoop_undelegate {e : Err} {a ts mn : Nat} : ∀ l r, (∀ i ∈ l, mn ≤ i.stakedLs) →
    NoErr e (distributeLoop a ts false mn l r)
  | [], _, _ => .ok _
  | i :: l, r, h => by
    have hi := h i (by simp)
    have hl : ∀ i ∈ l, mn ≤ i.stakedLs := fun q hq => h q (by simp [hq])
    unfold distributeLoop
    refine .bind ?_ fun amt hamt => .ite (fun _ => ?_) (fun _ => ne_distributeLoop_undelegate l _ hl)
    · unfold providerAmount
      refine .bind ne_proportion fun _ _ => ?_
      simp only [Bool.false_eq_true, if_false]
      refine .bind (.csub (.inl (by omega))) fun left hleft => .ite (fun _ => .ite (fun _ => .ok _) fun hn => ?_) (fun _ => .ok _)
      exact .bind (.csub (.inl (by omega))) fun _ _ => .ite (fun _ => .ok _) (fun _ => .ok _)
    · obtain ⟨h1, h2, _⟩ := providerAmount_undelegate hamt
      refine .bind (.csub (.inl h1)) fun _ _ => .bind ?_ fun _ _ =>
        .bind (ne_distributeLoop_undelegate l _ hl) fun _ _ => .ok _
      unfold spaceAfter
      simp only [Bool.false_eq_true, if_false]
      exact .bind (.csub (.inl h2)) fun _ _ => .ok _

theorem ne_handleRemainingLoop {e : Err} {isD : Bool} : ∀ l r, (isD = false → ∀ s ∈ l, s.spaceLeft ≠ none) →
    NoErr e (handleRemainingLoop isD l r)
  | [], _, _ => .ok _
  | p :: l, r, h => by
    unfold handleRemainingLoop fillOne
    refine .bind (.ite (fun hd => .bind (.unwrap (.inl ?_)) fun _ _ => .ite (fun _ => .ok _) (fun _ => .ok _)) (fun _ => ?_))
      fun _ _ => .ite (fun _ => .ok _) (fun _ => .bind (ne_handleRemainingLoop l _ fun hd s hs => h hd s (by simp [hs])) fun _ _ => .ok _)
    · exact h (by simpa using hd) p (by simp)
    · split
      · exact .ok _
      · exact .ite (fun _ => .ok _) (fun _ => .ok _)

theorem fits_space {mn : Nat} {infos : List SelInfo} {sels : List Selection} (h : List.Forall₂ (Fits false mn) infos sels) :
    ∀ s ∈ sels, s.spaceLeft ≠ none := by
  induction h with
  | nil => simp
  | cons hx _ ih =>
    intro s hs
    rcases List.mem_cons.1 hs with rfl | hs
    · rw [(hx.2.2.2 rfl).2.1]; simp
    · exact ih s hs

theorem ne_handleRemaining {e : Err} {isD : Bool} {l : List Selection} {r : Nat} {c : Cache}
    (h : isD = false → ∀ s ∈ l, s.spaceLeft ≠ none) : NoErr e (handleRemaining l r isD c) := by
  unfold handleRemaining
  refine .ite (fun _ => .ok _) fun _ => .bind (ne_handleRemainingLoop _ _ h) fun _ _ => ?_
  exact .ite (fun _ => .ite (fun _ => .ok _) (fun _ => .ok _)) (fun _ => .ok _)

theorem ne_distribute_delegate {e : Err} {sel : List SelInfo} {a mn ts : Nat} {cfg : ScoringConfig} {c : Cache}
    (hu : UsableScoring cfg) : NoErr e (distributeAmount sel a mn true ts cfg c) := by
  unfold distributeAmount
  exact .bind (ne_updateScores hu _) fun _ _ => .bind (ne_distributeLoop_delegate _ _) fun _ _ =>
    ne_handleRemaining (by simp)

theorem ne_distribute_undelegate {e : Err} {sel : List SelInfo} {a mn ts : Nat} {cfg : ScoringConfig} {c : Cache}
    (hu : UsableScoring cfg) (hmn : 0 < mn) (hs : ∀ i ∈ sel, mn ≤ i.stakedLs) :
    NoErr e (distributeAmount sel a mn false ts cfg c) := by
  unfold distributeAmount
  refine .bind (ne_updateScores hu _) fun r hr => ?_
  have h2 : ∀ i ∈ r.1, mn ≤ i.stakedLs := by
    obtain ⟨hf, _⟩ := updateScores_ok hr
    intro i hi
    clear hr
    generalize r.1 = l at hf hi
    induction hf with
    | nil => simp at hi
    | @cons x y xs ys hx _ ih =>
      rcases List.mem_cons.1 hi with rfl | hi
      · obtain ⟨s, rfl⟩ := hx
        exact hs x (by simp)
      · exact ih (fun q hq => hs q (by simp [hq])) hi
  refine .bind (ne_distributeLoop_undelegate _ _ h2) fun r2 hr2 => ne_handleRemaining fun _ => ?_
  obtain ⟨_, infos', _, hfit⟩ := distributeLoop_ok hmn hr2
  exact fits_space hfit

/-- The record of provider `a` does not make `delegatePending` fail. -/
def HarmlessD (st : Store) (a : Addr) : Prop :=
  ∃ d, st.data.get none a = some d ∧ (d.eligible = true → d.pUnstake ≤ d.staked + d.pStake ∧
    (d.cap = 0 ∨ (d.staked + d.pStake - d.pUnstake ≤ d.cap ∧ d.totalStaked ≤ d.cap)))

theorem ne_selectDelegationLoop {e : Err} {st : Store} {mn mp : Nat} : ∀ l sel tot, (∀ a ∈ l, HarmlessD st a) →
    NoErr e (selectDelegationLoop st mn mp l sel tot)
  | [], _, _, _ => .ok _
  | a :: l, sel, tot, h => by
    unfold selectDelegationLoop
    refine .bind ?_ fun r _ => .ite (fun _ => .ok _) fun _ => ne_selectDelegationLoop l _ _ fun q hq => h q (by simp [hq])
    obtain ⟨d, hd, hgood⟩ := h a (by simp)
    unfold considerProvider isProviderEligible
    refine .bind (ne_getData hd) fun d' hd' => ?_
    rw [getData_ok, hd] at hd'
    simp only [Option.some.injEq] at hd'
    subst hd'
    refine .bind ?_ fun el hel => .ite (fun helt => ?_) (fun _ => .ok _)
    · refine .ite (fun _ => .ok _) fun he => .ite (fun _ => .ok _) fun hc => ?_
      obtain ⟨h1, h2⟩ := hgood (by simpa using he)
      refine .bind (.csub (.inl h1)) fun t ht => ?_
      have := (totalWithPending_ok.1 ht).2
      refine .bind (.csub (.inl ?_)) fun _ _ => .ok _
      rcases h2 with h2 | h2
      · exact absurd h2 hc
      · omega
    · have he : d.eligible = true := by
        subst helt
        by_contra hc
        have : (!d.eligible) = true := by simpa using hc
        rw [ite_ok] at hel
        rcases hel with ⟨_, hel⟩ | ⟨hx, _⟩
        · simp at hel
        · exact hx this
      obtain ⟨h1, h2⟩ := hgood he
      refine .bind (.csub (.inl h1)) fun _ _ => .bind ?_ fun _ _ => .ok _
      unfold createSelInfo spaceLeftOf
      refine .bind (.ite (fun _ => .ok _) fun hc => .bind (.csub (.inl ?_)) fun _ _ => .ok _) fun _ _ =>
        .bind (.csub (.inl h1)) fun _ _ => .ok _
      rcases h2 with h2 | h2
      · exact absurd h2 hc
      · exact h2.2

/-- A provider that would be chosen. -/
def OpenD (st : Store) (mn : Nat) (a : Addr) : Prop :=
  ∃ d, st.data.get none a = some d ∧ isProviderEligible d mn = .ok true

theorem selectDelegationLoop_nonempty {st : Store} {mn mp : Nat} (hmp : 0 < mp) :
    ∀ {l : List Addr} {sel sel' : List SelInfo} {tot tot' : Nat},
    selectDelegationLoop st mn mp l sel tot = .ok (sel', tot') → (sel ≠ [] ∨ ∃ a ∈ l, OpenD st mn a) → sel' ≠ [] := by
  intro l
  induction l with
  | nil =>
    intro sel sel' tot tot' h hn
    simp only [selectDelegationLoop, Except.ok.injEq, Prod.mk.injEq] at h
    obtain ⟨rfl, rfl⟩ := h
    simpa using hn
  | cons a rest ih =>
    intro sel sel' tot tot' h hn
    simp only [selectDelegationLoop, bind_ok, Prod.exists] at h
    obtain ⟨s1, t1, hc, h⟩ := h
    have key : s1 ≠ [] ∨ ∃ a ∈ rest, OpenD st mn a := by
      unfold considerProvider at hc
      simp only [bind_ok, getData_ok] at hc
      obtain ⟨d, hd, el, hel, hc⟩ := hc
      rw [ite_ok] at hc
      rcases hc with ⟨_, hc⟩ | ⟨hf, hc⟩
      · simp only [bind_ok, Except.ok.injEq, Prod.mk.injEq] at hc
        obtain ⟨_, _, info, _, rfl, _⟩ := hc
        exact .inl (by simp)
      · simp only [Except.ok.injEq, Prod.mk.injEq] at hc
        obtain ⟨rfl, _⟩ := hc
        rcases hn with hn | ⟨b, hb, hop⟩
        · exact .inl hn
        · rcases List.mem_cons.1 hb with rfl | hb
          · obtain ⟨d', hd', hop⟩ := hop
            rw [hd] at hd'
            simp only [Option.some.injEq] at hd'
            subst hd'
            rw [hel] at hop
            simp only [Except.ok.injEq] at hop
            exact absurd hop hf
          · exact .inr ⟨b, hb, hop⟩
    rw [ite_ok] at h
    rcases h with ⟨hl, h⟩ | ⟨hl, h⟩
    · simp only [Except.ok.injEq, Prod.mk.injEq] at h
      obtain ⟨rfl, rfl⟩ := h
      rintro rfl
      simp at hl
      omega
    · exact ih h key

/-- The record of provider `a` does not make `unDelegatePending` fail. -/
def HarmlessU (st : Store) (mn : Nat) (a : Addr) : Prop :=
  ∃ d, st.data.get none a = some d ∧ d.pUnstake ≤ d.staked + d.pStake ∧ (d.cap = 0 ∨ d.totalStaked ≤ d.cap) ∧
    (d.staked + d.pStake - d.pUnstake = 0 ∨ mn ≤ d.staked + d.pStake - d.pUnstake)

theorem amountToTake_cases {s avg mn t : Nat} (h : amountToTake s avg mn = .ok t) (ha : 0 < avg) (hmn : 0 < mn) :
    0 < t ↔ 0 < s := by
  unfold amountToTake at h
  rw [ite_ok] at h
  rcases h with ⟨h1, h⟩ | ⟨h1, h⟩
  · simp only [Except.ok.injEq] at h; omega
  rw [ite_ok] at h
  rcases h with ⟨h2, h⟩ | ⟨h2, h⟩
  · have := csub_ok.1 h; omega
  · simp only [Except.ok.injEq] at h; omega

theorem ne_selectUndelegationLoop {e : Err} {st : Store} {mn mp avg : Nat} (hms : st.maxSelectedProviders < 2 ^ 64) :
    ∀ l sel tot rem, (∀ a ∈ l, HarmlessU st mn a) → NoErr e (selectUndelegationLoop st mn mp avg l sel tot rem)
  | [], _, _, _, _ => .ok _
  | a :: l, sel, tot, rem, h => by
    have hl : ∀ a ∈ l, HarmlessU st mn a := fun q hq => h q (by simp [hq])
    obtain ⟨d, hd, h1, h2, h3⟩ := h a (by simp)
    unfold selectUndelegationLoop
    refine .bind (.unwrap (.inl (by unfold toU64; rw [if_pos hms]; simp))) fun _ _ => .ite (fun _ => .ok _) fun _ => ?_
    refine .ite (fun _ => .ok _) fun _ => .bind (ne_getData hd) fun d' hd' => ?_
    rw [getData_ok, hd] at hd'
    simp only [Option.some.injEq] at hd'
    subst hd'
    refine .bind (.csub (.inl h1)) fun t ht => .bind ?_ fun _ _ => .ite (fun _ => ?_)
      (fun _ => ne_selectUndelegationLoop hms l _ _ _ hl)
    · unfold amountToTake
      exact .ite (fun _ => .ok _) fun _ => .ite (fun h => .csub (.inl (by omega))) fun _ => .ok _
    · refine .bind ?_ fun _ _ => ne_selectUndelegationLoop hms l _ _ _ hl
      unfold createSelInfo spaceLeftOf
      exact .bind (.ite (fun _ => .ok _) fun hc => .bind (.csub (.inl (h2.resolve_left hc))) fun _ _ => .ok _) fun _ _ =>
        .bind (.csub (.inl h1)) fun _ _ => .ok _

/-- The providers chosen by a selection for un-delegation hold something; with harmless records, at least `mn`. -/
theorem selectUndelegationLoop_good {st : Store} {mn mp avg : Nat} (ha : 0 < avg) (hmn : 0 < mn) :
    ∀ {l : List Addr} {sel sel' : List SelInfo} {tot tot' rem : Nat}, (∀ a ∈ l, HarmlessU st mn a) →
    selectUndelegationLoop st mn mp avg l sel tot rem = .ok (sel', tot') → (∀ i ∈ sel, mn ≤ i.stakedLs) →
    (∀ i ∈ sel', mn ≤ i.stakedLs) ∧
    (0 < mp → 0 < asUsize st.maxSelectedProviders →
      (sel ≠ [] ∨ ∃ a ∈ l, ∃ d, st.data.get none a = some d ∧ d.pUnstake < d.staked + d.pStake) → sel' ≠ []) := by
  intro l
  induction l with
  | nil =>
    intro sel sel' tot tot' rem hall h hg
    simp only [selectUndelegationLoop, Except.ok.injEq, Prod.mk.injEq] at h
    obtain ⟨rfl, rfl⟩ := h
    refine ⟨hg, fun _ _ hn => ?_⟩
    simpa using hn
  | cons a rest ih =>
    intro sel sel' tot tot' rem hall h hg
    simp only [selectUndelegationLoop, bind_ok, unwrap_ok] at h
    obtain ⟨hd, hhd, h⟩ := h
    have hhd' : hd = st.maxSelectedProviders := by
      unfold toU64 at hhd
      split at hhd <;> simp at hhd
      exact hhd.symm
    subst hhd'
    rw [ite_ok] at h
    rcases h with ⟨hlen, h⟩ | ⟨hlt, h⟩
    · simp only [Except.ok.injEq, Prod.mk.injEq] at h
      obtain ⟨rfl, rfl⟩ := h
      refine ⟨hg, fun _ hm _ => ?_⟩
      rintro rfl
      simp only [List.length_nil] at hlen
      omega
    rw [ite_ok] at h
    rcases h with ⟨hlen, h⟩ | ⟨_, h⟩
    · simp only [Except.ok.injEq, Prod.mk.injEq] at h
      obtain ⟨rfl, rfl⟩ := h
      refine ⟨hg, fun hp _ _ => ?_⟩
      rintro rfl
      simp only [List.length_nil] at hlen
      omega
    simp only [bind_ok, getData_ok, totalWithPending_ok] at h
    obtain ⟨d, hd, staked, ⟨_, rfl⟩, take, htake, h⟩ := h
    obtain ⟨d', hd', g1, g2, g3⟩ := hall a (by simp)
    rw [hd] at hd'
    simp only [Option.some.injEq] at hd'
    subst hd'
    have hiff := amountToTake_cases htake ha hmn
    have hrest : ∀ a ∈ rest, HarmlessU st mn a := fun q hq => hall q (by simp [hq])
    rw [ite_ok] at h
    rcases h with ⟨ht, h⟩ | ⟨ht, h⟩
    · simp only [bind_ok] at h
      obtain ⟨info, hi, h⟩ := h
      obtain ⟨hia, d2, hd2, _, _, _, _, h6, _⟩ := createSelInfo_ok hd hi
      rw [hia, hd] at hd2
      simp only [Option.some.injEq] at hd2
      subst hd2
      obtain ⟨r1, r2⟩ := ih hrest h (by
        intro i hi'
        rcases List.mem_append.1 hi' with hi' | hi'
        · exact hg i hi'
        · simp only [List.mem_singleton] at hi'
          subst hi'
          rw [h6]
          have := hiff.1 ht
          omega)
      exact ⟨r1, fun hp hm _ => r2 hp hm (.inl (by simp))⟩
    · obtain ⟨r1, r2⟩ := ih hrest h hg
      refine ⟨r1, fun hp hm hn => r2 hp hm ?_⟩
      rcases hn with hn | ⟨b, hb, d', hd', hlt'⟩
      · exact .inl hn
      · rcases List.mem_cons.1 hb with rfl | hb
        · rw [hd] at hd'
          simp only [Option.some.injEq] at hd'
          subst hd'
          omega
        · exact .inr ⟨b, hb, d', hd', hlt'⟩

theorem ne_maxProviders {e : Err} {st : Store} {a mn n : Nat} (hmn : 0 < mn) (hn : n < 2 ^ 64) :
    NoErr e (maxProviders st a mn n) := by
  unfold maxProviders
  have hD : 0 < DECIMALS_SCALE := by decide
  refine .bind (.cdiv (.inl (Nat.ne_of_gt (Nat.mul_pos hmn hD)))) fun q _ => .bind (.unwrap (.inl ?_)) fun _ _ => .ok _
  unfold toU64
  rw [if_pos (by omega)]
  simp

theorem ne_getScoringConfig {e : Err} {st : Store} {cfg : ScoringConfig} (h : st.scoring = some cfg) :
    NoErr e (getScoringConfig st) := by unfold getScoringConfig; rw [h]; exact .ok _

theorem getScoringConfig_eq {st : Store} {cfg cfg' : ScoringConfig} (h : st.scoring = some cfg)
    (h' : getScoringConfig st = .ok cfg') : cfg' = cfg := by
  unfold getScoringConfig at h'; rw [h] at h'; simp only [Except.ok.injEq] at h'; exact h'.symm

theorem batch_maxP {st : Store} {amt n m : Nat} (h : maxProviders st amt MIN_EGLD n = .ok m) (ha : MIN_EGLD ≤ amt)
    (hms : 1 ≤ st.maxSelectedProviders) (hn : 0 < n) (hn2 : n < 2 ^ 32) :
    m = min (min (amt / MIN_EGLD) st.maxSelectedProviders) n ∧ 0 < m := by
  obtain ⟨_, _, rfl⟩ := maxProviders_ok h
  have h1 : 1 ≤ amt / MIN_EGLD := Nat.div_pos ha MIN_EGLD_pos
  rw [asUsize_small (by omega)]
  exact ⟨rfl, by omega⟩

theorem ne_selectDelegate {e : Err} {st : Store} {cfg : ScoringConfig} {amt : Nat} {c : Cache} (hamt : MIN_EGLD ≤ amt)
    (hms : 1 ≤ st.maxSelectedProviders) (hlen : st.delegList.length < 2 ^ 32) (hcfg : st.scoring = some cfg)
    (hu : UsableScoring cfg) (hall : ∀ a ∈ st.delegList, HarmlessD st a) (hop : ∃ a ∈ st.delegList, OpenD st MIN_EGLD a) :
    NoErr e (getDelegationContract st amt true c) := by
  have hne : st.delegList ≠ [] := by obtain ⟨a, ha, _⟩ := hop; exact List.ne_nil_of_mem ha
  unfold getDelegationContract handleDelegation selectDelegationProviders
  simp only [if_true, Bool.not_true, Bool.false_eq_true, if_false]
  refine .bind (.req (.inl hne)) fun _ _ => .bind ?_ fun r hr => ?_
  · exact .bind (ne_maxProviders MIN_EGLD_pos (by omega)) fun _ _ => ne_selectDelegationLoop _ _ _ hall
  · simp only [bind_ok] at hr
    obtain ⟨mp, hmp, hr⟩ := hr
    obtain ⟨_, hpos⟩ := batch_maxP hmp hamt hms (List.length_pos_iff.2 hne) hlen
    refine .bind (.req (.inl (selectDelegationLoop_nonempty hpos hr (.inr hop)))) fun _ _ => ?_
    refine .bind (ne_getScoringConfig hcfg) fun cfg' hc' => ?_
    rw [getScoringConfig_eq hcfg hc']
    exact ne_distribute_delegate hu

theorem ne_selectUndelegate {e : Err} {st : Store} {cfg : ScoringConfig} {amt : Nat} {c : Cache} (hamt : MIN_EGLD ≤ amt)
    (hms : 1 ≤ st.maxSelectedProviders) (hms2 : st.maxSelectedProviders < 2 ^ 32) (hlen : st.undelegList.length < 2 ^ 32)
    (hcfg : st.scoring = some cfg) (hu : UsableScoring cfg) (hall : ∀ a ∈ st.undelegList, HarmlessU st MIN_EGLD a)
    (hop : ∃ a ∈ st.undelegList, ∃ d, st.data.get none a = some d ∧ d.pUnstake < d.staked + d.pStake) :
    NoErr e (getDelegationContract st amt false c) := by
  have hne : st.undelegList ≠ [] := by obtain ⟨a, ha, _⟩ := hop; exact List.ne_nil_of_mem ha
  have hlpos := List.length_pos_iff.2 hne
  have hposM := MIN_EGLD_pos
  have havg : ∀ {mp a b avg : Nat}, maxProviders st amt MIN_EGLD st.undelegList.length = .ok mp →
      cdiv amt st.maxSelectedProviders = .ok a → cdiv amt mp = .ok b → cdiv (b + a) 2 = .ok avg → 0 < mp ∧ 0 < avg := by
    intro mp a b avg h1 h2 h3 h4
    obtain ⟨he, hpos⟩ := batch_maxP h1 hamt hms hlpos hlen
    refine ⟨hpos, ?_⟩
    obtain ⟨_, rfl⟩ := cdiv_ok.1 h3
    obtain ⟨_, rfl⟩ := cdiv_ok.1 h4
    have hm : mp ≤ amt / MIN_EGLD := by omega
    have h5 : MIN_EGLD ≤ amt / mp := by
      rw [Nat.le_div_iff_mul_le hpos]
      have := Nat.mul_le_mul_left MIN_EGLD hm
      have h6 := Nat.mul_div_le amt MIN_EGLD
      omega
    have h7 : 2 ≤ MIN_EGLD := by decide
    omega
  unfold getDelegationContract handleUndelegation selectUndelegationProviders
  simp only [Bool.not_false, if_true, Bool.false_eq_true, if_false]
  refine .bind (.req (.inl hne)) fun _ _ => .bind ?_ fun r hr => ?_
  · refine .bind (ne_maxProviders MIN_EGLD_pos (by omega)) fun mp hmp => .bind (.cdiv (.inl (by omega))) fun _ _ => ?_
    obtain ⟨_, hpos⟩ := batch_maxP hmp hamt hms hlpos hlen
    refine .bind (.cdiv (.inl (by omega))) fun _ _ => .bind (.cdiv (.inl (by omega))) fun _ _ => ?_
    exact ne_selectUndelegationLoop (by omega) _ _ _ _ hall
  · simp only [bind_ok] at hr
    obtain ⟨mp, hmp, pa, hpa, psl, hpsl, avg, havg', hr⟩ := hr
    obtain ⟨hp1, hp2⟩ := havg hmp hpa hpsl havg'
    obtain ⟨g1, g2⟩ := selectUndelegationLoop_good hp2 MIN_EGLD_pos hall hr (by simp)
    refine .bind (.req (.inl (g2 hp1 (by rw [asUsize_small hms2]; omega) (.inr hop)))) fun _ _ => ?_
    refine .bind (ne_getScoringConfig hcfg) fun cfg' hc' => ?_
    rw [getScoringConfig_eq hcfg hc']
    exact ne_distribute_undelegate hu MIN_EGLD_pos g1

/-! ### When a whole batch succeeds -/

theorem ne_delegateLoop {e : Err} : ∀ (sels : List Selection) (w : World), selSum sels ≤ w.egld.get 0 w.self →
    (∀ s ∈ sels, w.st.data.get none s.address ≠ none) → NoErr e (delegateLoop sels w)
  | [], _, _, _ => .ok _
  | s :: ss, w, h, hd => by
    rw [selSum_cons] at h
    obtain ⟨d, hd0⟩ := Option.ne_none_iff_exists'.1 (hd s (by simp))
    unfold delegateLoop
    refine .bind (.bind (ne_getData hd0) fun _ _ => .ok _) fun w2 h2 => ?_
    rw [updateData_ok] at h2
    obtain ⟨d, d', _, _, rfl⟩ := h2
    refine .bind (.bind (.debit (.inl (by dsimp only; omega))) fun _ _ => .ok _) fun w3 h3 => ?_
    obtain ⟨m, hm, rfl⟩ := registerPromise_ok.1 h3
    apply ne_delegateLoop ss
    · dsimp only
      rw [get_debit hm, if_pos rfl]
      dsimp only
      omega
    · intro q hq
      dsimp only
      rw [Map.get_set]
      split
      · simp
      · exact hd q (by simp [hq])

theorem ne_undelegateLoop {e : Err} : ∀ (sels : List Selection) (w : World),
    (∀ s ∈ sels, w.st.data.get none s.address ≠ none) → NoErr e (undelegateLoop sels w)
  | [], _, _ => .ok _
  | s :: ss, w, hd => by
    obtain ⟨d, hd0⟩ := Option.ne_none_iff_exists'.1 (hd s (by simp))
    unfold undelegateLoop
    refine .bind (.bind (ne_getData hd0) fun _ _ => .ok _) fun w2 h2 => ?_
    rw [updateData_ok] at h2
    obtain ⟨d, d', _, _, rfl⟩ := h2
    refine .bind (.bind (.debit (.inl (by omega))) fun _ _ => .ok _) fun w3 h3 => ?_
    obtain ⟨m, hm, rfl⟩ := registerPromise_ok.1 h3
    apply ne_undelegateLoop ss
    intro q hq
    dsimp only
    rw [Map.get_set]
    split
    · simp
    · exact hd q (by simp [hq])

theorem ne_batchAmount {e : Err} {p : Nat} {o : Option Nat} (h1 : MIN_EGLD ≤ o.getD p) (h2 : o.getD p ≤ p)
    (h3 : MIN_EGLD ≤ p - o.getD p ∨ p - o.getD p = 0) : NoErr e (batchAmount p o) := by
  unfold batchAmount
  refine .bind (.req (.inl (by omega))) fun _ _ => ?_
  cases o with
  | none => exact .ok _
  | some a =>
    simp only [Option.getD_some] at h1 h2 h3
    refine .bind (.req (.inl h2)) fun _ _ => .bind (.req (.inl h1)) fun _ _ => .bind (.csub (.inl h2)) fun l hl => ?_
    obtain ⟨_, rfl⟩ := csub_ok.1 hl
    exact .bind (.req (.inl h3)) fun _ _ => .ok _

theorem ne_delegatePending {e : Err} {w : World} {c : Addr} {o : Option Nat} {cfg : ScoringConfig}
    (hc : c ≠ w.self) (ht : w.st.lsToken ≠ none) (ha : w.st.state = .active) (hm : isManager w c = true)
    (h1 : MIN_EGLD ≤ o.getD w.st.r.pending) (h2 : o.getD w.st.r.pending ≤ w.st.r.pending)
    (h3 : MIN_EGLD ≤ w.st.r.pending - o.getD w.st.r.pending ∨ w.st.r.pending - o.getD w.st.r.pending = 0)
    (hbal : w.st.r.pending ≤ w.egld.get 0 w.self)
    (hms : 1 ≤ w.st.maxSelectedProviders) (hlen : w.st.delegList.length < 2 ^ 32) (hcfg : w.st.scoring = some cfg)
    (hu : UsableScoring cfg) (hall : ∀ a ∈ w.st.delegList, HarmlessD w.st a)
    (hop : ∃ a ∈ w.st.delegList, OpenD w.st MIN_EGLD a) : NoErr e (delegatePending w c o) := by
  obtain ⟨t, ht⟩ := Option.ne_none_iff_exists'.1 ht
  unfold delegatePending
  refine .bind (.req (.inl hc)) fun _ _ => .bind (cacheNew_noErr ht) fun cc hcc => ?_
  obtain ⟨t', ht', rfl⟩ := cacheNew_ok.1 hcc
  refine .bind (.req (.inl ha)) fun _ _ => .bind (.req (.inl hm)) fun _ _ => .bind (ne_batchAmount h1 h2 h3) fun amt hamt => ?_
  obtain ⟨b1, b2, b3, b4, b5⟩ := batchAmount_ok hamt
  dsimp only at b1 b3
  refine .bind (ne_selectDelegate b2 hms hlen hcfg hu hall hop) fun r hr => ?_
  obtain ⟨sels, c1⟩ := r
  obtain ⟨left, g1, rfl, g3, g4⟩ := selectDelegate_ok hr
  refine .bind (.csub (.inl (by dsimp only; omega))) fun p hp => ?_
  refine .bind (ne_delegateLoop sels w (by omega) ?_) fun _ _ => .ok _
  intro s hs
  obtain ⟨d, hd, _⟩ := g4 s hs
  rw [hd]; simp

theorem ne_unDelegatePending {e : Err} {w : World} {c : Addr} {o : Option Nat} {cfg : ScoringConfig}
    (hc : c ≠ w.self) (ht : w.st.lsToken ≠ none) (ha : w.st.state = .active) (hm : isManager w c = true)
    (h1 : MIN_EGLD ≤ o.getD w.st.r.toUnstake) (h2 : o.getD w.st.r.toUnstake ≤ w.st.r.toUnstake)
    (h3 : MIN_EGLD ≤ w.st.r.toUnstake - o.getD w.st.r.toUnstake ∨ w.st.r.toUnstake - o.getD w.st.r.toUnstake = 0)
    (hms : 1 ≤ w.st.maxSelectedProviders) (hms2 : w.st.maxSelectedProviders < 2 ^ 32)
    (hlen : w.st.undelegList.length < 2 ^ 32) (hcfg : w.st.scoring = some cfg)
    (hu : UsableScoring cfg) (hall : ∀ a ∈ w.st.undelegList, HarmlessU w.st MIN_EGLD a)
    (hop : ∃ a ∈ w.st.undelegList, ∃ d, w.st.data.get none a = some d ∧ d.pUnstake < d.staked + d.pStake) :
    NoErr e (unDelegatePending w c o) := by
  obtain ⟨t, ht⟩ := Option.ne_none_iff_exists'.1 ht
  unfold unDelegatePending
  refine .bind (.req (.inl hc)) fun _ _ => .bind (cacheNew_noErr ht) fun cc hcc => ?_
  obtain ⟨t', ht', rfl⟩ := cacheNew_ok.1 hcc
  refine .bind (.req (.inl ha)) fun _ _ => .bind (.req (.inl hm)) fun _ _ => .bind (ne_batchAmount h1 h2 h3) fun amt hamt => ?_
  obtain ⟨b1, b2, b3, b4, b5⟩ := batchAmount_ok hamt
  dsimp only at b1 b3
  refine .bind (ne_selectUndelegate b2 hms hms2 hlen hcfg hu hall hop) fun r hr => ?_
  obtain ⟨sels, c1⟩ := r
  obtain ⟨left, g1, rfl, g3, g4⟩ := selectUndelegate_ok hr
  refine .bind (.csub (.inl (by dsimp only; omega))) fun p hp => ?_
  refine .bind (ne_undelegateLoop sels w ?_) fun _ _ => .ok _
  intro s hs
  obtain ⟨d, hd, _⟩ := g4 s hs
  rw [hd]; simp

/-- A provider at the head of the list whose cap is below its stake makes every `delegatePending` fail. -/
theorem delegatePending_poisoned {w : World} {a : Addr} {l : List Addr} {d : ProviderData} (hl : w.st.delegList = a :: l)
    (hd : w.st.data.get none a = some d) (he : d.eligible = true) (hc : d.cap ≠ 0)
    (hlt : d.cap < d.staked + d.pStake - d.pUnstake) (c : Addr) (o : Option Nat) : ¬ ∃ w', delegatePending w c o = .ok w' := by
  rintro ⟨w', h⟩
  unfold delegatePending at h
  simp only [bind_ok, requireUser_ok, requireActive_ok, requireManager_ok, exists_const, cacheNew_ok, Prod.exists,
    csub_ok, Except.ok.injEq] at h
  obtain ⟨h1, c, ⟨t, ht, rfl⟩, h2, h3, amt, hamt, sels, c1, hsel, _⟩ := h
  unfold getDelegationContract handleDelegation selectDelegationProviders at hsel
  simp only [bind_ok, if_true, req_ok, exists_const, Bool.not_true, Bool.false_eq_true, if_false, Prod.exists] at hsel
  obtain ⟨hne, sel, ts, ⟨mp, hmp, hsel⟩, _⟩ := hsel
  rw [hl] at hsel
  simp only [selectDelegationLoop, bind_ok, Prod.exists] at hsel
  obtain ⟨s1, t1, hcons, _⟩ := hsel
  unfold considerProvider at hcons
  simp only [bind_ok, getData_ok] at hcons
  obtain ⟨d', hd', el, hel, _⟩ := hcons
  rw [hd] at hd'
  simp only [Option.some.injEq] at hd'
  subst hd'
  unfold isProviderEligible at hel
  rw [if_neg (by simp [he]), if_neg hc] at hel
  simp only [bind_ok, totalWithPending_ok, csub_ok] at hel
  obtain ⟨t, ⟨_, rfl⟩, s, ⟨hle, _⟩, _⟩ := hel
  omega

/-- A provider at the head of the list with something, but less than one EGLD, makes every `unDelegatePending` fail. -/
theorem unDelegatePending_poisoned {w : World} {a : Addr} {l : List Addr} {d : ProviderData} (hl : w.st.undelegList = a :: l)
    (hd : w.st.data.get none a = some d) (h0 : d.pUnstake < d.staked + d.pStake)
    (hlt : d.staked + d.pStake - d.pUnstake < MIN_EGLD) (hms : 1 ≤ w.st.maxSelectedProviders)
    (hlen : w.st.undelegList.length < 2 ^ 32) (c : Addr) (o : Option Nat) :
    ¬ ∃ w', unDelegatePending w c o = .ok w' := by
  rintro ⟨w', h⟩
  unfold unDelegatePending at h
  simp only [bind_ok, requireUser_ok, requireActive_ok, requireManager_ok, exists_const, cacheNew_ok, Prod.exists,
    csub_ok, Except.ok.injEq] at h
  obtain ⟨h1, c, ⟨t, ht, rfl⟩, h2, h3, amt, hamt, sels, c1, hsel, _⟩ := h
  unfold getDelegationContract handleUndelegation selectUndelegationProviders at hsel
  simp only [bind_ok, if_true, req_ok, exists_const, Bool.not_false, Bool.false_eq_true, if_false, Prod.exists] at hsel
  obtain ⟨hne, sel, ts, ⟨mp, hmp, pa, hpa, psl, hpsl, avg, havg, hsel⟩, hsne, cfg, hcfg, hdist⟩ := hsel
  obtain ⟨hmpe, hmp0⟩ := batch_maxP hmp (batchAmount_ok hamt).2.1 hms (by rw [hl]; simp) hlen
  have hposM := MIN_EGLD_pos
  have havg0 : 0 < avg := by
    obtain ⟨_, rfl⟩ := cdiv_ok.1 hpsl
    obtain ⟨_, rfl⟩ := cdiv_ok.1 havg
    have hm : mp ≤ amt / MIN_EGLD := by omega
    have h5 : MIN_EGLD ≤ amt / mp := by
      rw [Nat.le_div_iff_mul_le hmp0]
      have := Nat.mul_le_mul_left MIN_EGLD hm
      have h6 := Nat.mul_div_le amt MIN_EGLD
      omega
    have h7 : 2 ≤ MIN_EGLD := by decide
    omega
  rw [hl] at hsel
  simp only [selectUndelegationLoop, bind_ok] at hsel
  obtain ⟨hard, hhard, hsel⟩ := hsel
  rw [ite_ok] at hsel
  rcases hsel with ⟨_, hsel⟩ | ⟨_, hsel⟩
  · simp only [Except.ok.injEq, Prod.mk.injEq] at hsel
    exact hsne hsel.1.symm
  rw [ite_ok] at hsel
  rcases hsel with ⟨hx, _⟩ | ⟨_, hsel⟩
  · simp only [List.length_nil] at hx; omega
  simp only [bind_ok, getData_ok, totalWithPending_ok] at hsel
  obtain ⟨d', hd', staked, ⟨_, rfl⟩, take, htake, hsel⟩ := hsel
  rw [hd] at hd'
  simp only [Option.some.injEq] at hd'
  subst hd'
  have hiff := amountToTake_cases htake havg0 hposM
  rw [ite_ok] at hsel
  rcases hsel with ⟨_, hsel⟩ | ⟨hx, _⟩
  swap
  · exact hx (hiff.2 (by omega))
  simp only [bind_ok] at hsel
  obtain ⟨info, hi, hsel⟩ := hsel
  obtain ⟨hia, d2, hd2, _, _, _, _, h6, _⟩ := createSelInfo_ok hd hi
  rw [hia, hd] at hd2
  simp only [Option.some.injEq] at hd2
  subst hd2
  obtain ⟨new, rfl, _⟩ := selectUndelegationLoop_ok hsel
  unfold distributeAmount at hdist
  simp only [bind_ok, Prod.exists] at hdist
  obtain ⟨scored, tsc, hsc, res, rem, hloop, _⟩ := hdist
  simp only [List.nil_append, List.cons_append, List.singleton_append] at hsc
  obtain ⟨hf, _⟩ := updateScores_ok hsc
  cases hf with
  | @cons x y xs ys hx hrest =>
    obtain ⟨s, rfl⟩ := hx
    simp only [distributeLoop, bind_ok] at hloop
    obtain ⟨amt', hamt', _⟩ := hloop
    unfold providerAmount at hamt'
    simp only [bind_ok, Bool.false_eq_true, if_false, csub_ok] at hamt'
    obtain ⟨p, _, left, ⟨hle, _⟩, _⟩ := hamt'
    rw [h6] at hle
    omega

end LS
