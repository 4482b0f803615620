import Verif.Proofs.NftLemmas
import Verif.Proofs.Invariants

/-! Which errors cannot happen. -/

namespace LS
open Spec

/-- `x` does not fail with `e`. -/
def NoErr {α : Type} (e : Err) (x : Res α) : Prop := x ≠ .error e

section
variable {α β : Type} {e : Err}

theorem NoErr.ok (a : α) : NoErr e (.ok a) := by simp [NoErr]

theorem NoErr.error {e' : Err} (h : e' ≠ e) : NoErr (α := α) e (.error e') := by
  intro hx; simp only [Except.error.injEq] at hx; exact h hx

theorem NoErr.bind {x : Res α} {f : α → Res β} (h : NoErr e x) (hf : ∀ a, x = .ok a → NoErr e (f a)) :
    NoErr e (x >>= f) := by
  cases x with
  | ok a => exact hf a rfl
  | error e' =>
    intro hx
    simp only [Bind.bind, Except.bind, Except.error.injEq] at hx
    subst hx; exact h rfl

theorem NoErr.req {c : Prop} [Decidable c] {e' : Err} (h : c ∨ e' ≠ e) : NoErr e (req c e') := by
  unfold LS.req; split
  · exact .ok _
  · next hc => exact .error (h.resolve_left hc)

theorem NoErr.ite {c : Prop} [Decidable c] {x y : Res α} (hx : c → NoErr e x) (hy : ¬ c → NoErr e y) :
    NoErr e (if c then x else y) := by
  split
  · next h => exact hx h
  · next h => exact hy h

theorem NoErr.csub {a b : Nat} (h : b ≤ a ∨ Err.negativeSub ≠ e) : NoErr e (csub a b) := by
  unfold LS.csub; exact .ite (fun _ => .ok _) (fun hn => .error (h.resolve_left hn))

theorem NoErr.cdiv {a b : Nat} (h : b ≠ 0 ∨ Err.divByZero ≠ e) : NoErr e (cdiv a b) := by
  unfold LS.cdiv; exact .ite (fun hz => .error (h.resolve_left (by simp [hz]))) (fun _ => .ok _)

theorem NoErr.unwrap {x : Option α} (h : x ≠ none ∨ Err.unwrapNone ≠ e) : NoErr e (unwrap x) := by
  cases x with
  | some a => exact .ok _
  | none => exact .error (h.resolve_left (by simp))

theorem NoErr.debit {K : Type} [DecidableEq K] {m : Map K Nat} {k : K} {v : Nat}
    (h : v ≤ m.get 0 k ∨ Err.insufficientFunds ≠ e) : NoErr e (debit m k v) := by
  unfold LS.debit; exact .ite (fun _ => .ok _) (fun hn => .error (h.resolve_left hn))

theorem NoErr.getData {st : Store} {a : Addr} (h : Err.decode ≠ e) : NoErr e (getData st a) := by
  unfold LS.getData; split
  · exact .ok _
  · exact .error h

theorem NoErr.updateData {w : World} {a : Addr} {f : ProviderData → Res ProviderData} (h : Err.decode ≠ e)
    (hf : ∀ d, NoErr e (f d)) : NoErr e (updateData w a f) :=
  .bind (.getData h) fun d _ => .bind (hf d) fun _ _ => .ok _

theorem NoErr.cacheNew {st : Store} (h : Err.invalidTokenId ≠ e) : NoErr e (cacheNew st) := by
  unfold LS.cacheNew; split
  · exact .ok _
  · exact .error h

theorem cacheNew_noErr {e : Err} {st : Store} {t : TokenId} (h : st.lsToken = some t) : NoErr e (cacheNew st) := by
  unfold LS.cacheNew; rw [h]; exact .ok _

theorem NoErr.all {α : Type} {x : Res α} (h : ∀ e, NoErr e x) : ∃ a, x = .ok a := by
  cases x with
  | ok a => exact ⟨a, rfl⟩
  | error e => exact absurd rfl (h e)

end

/-! ### The scoring and selection code never touches a balance -/

section
abbrev NF {α : Type} (x : Res α) : Prop := NoErr .insufficientFunds x

theorem nf_totalWithPending (d : ProviderData) : NF d.totalWithPending := .csub (.inr (by decide))

theorem nf_normLinearClamp (v mn mx : Nat) (down : Bool) : NF (normLinearClamp v mn mx down) := by
  unfold normLinearClamp normClamp
  refine .bind ?_ fun _ _ => .ite (fun _ => .csub (.inr (by decide))) (fun _ => .ok _)
  refine .ite (fun _ => .ok _) fun _ => .ite (fun _ => .ok _) fun _ => ?_
  exact .bind (.csub (.inr (by decide))) fun _ _ => .bind (.csub (.inr (by decide))) fun _ _ => .cdiv (.inr (by decide))

theorem nf_updateScores (isD : Bool) (ts : Nat) (cfg : ScoringConfig) : ∀ l, NF (updateScores isD ts cfg l)
  | [] => .ok _
  | i :: is => by
    unfold updateScores
    refine .bind ?_ fun _ _ => .bind (nf_updateScores isD ts cfg is) fun _ _ => .ok _
    unfold updateScore nodeScore apyScore stakeScore
    refine .bind (.bind (nf_normLinearClamp _ _ _ _) fun _ _ => .ok _) fun _ _ => ?_
    refine .bind (.bind (nf_normLinearClamp _ _ _ _) fun _ _ => .ok _) fun _ _ => ?_
    refine .bind (.ite (fun _ => .bind (nf_normLinearClamp _ _ _ _) fun _ _ => .ok _) (fun _ => .ok _)) fun _ _ => .ok _

theorem nf_createSelInfo (a : Addr) (d : ProviderData) : NF (createSelInfo a d) := by
  unfold createSelInfo spaceLeftOf
  refine .bind (.ite (fun _ => .ok _) fun _ => .bind (.csub (.inr (by decide))) fun _ _ => .ok _) fun _ _ => ?_
  exact .bind (nf_totalWithPending d) fun _ _ => .ok _

theorem nf_considerProvider (st : Store) (mn : Nat) (a : Addr) (sel : List SelInfo) (tot : Nat) :
    NF (considerProvider st mn a sel tot) := by
  unfold considerProvider isProviderEligible
  refine .bind (.getData (by decide)) fun d _ => .bind ?_ fun _ _ => .ite (fun _ => ?_) (fun _ => .ok _)
  · refine .ite (fun _ => .ok _) fun _ => .ite (fun _ => .ok _) fun _ => ?_
    exact .bind (nf_totalWithPending d) fun _ _ => .bind (.csub (.inr (by decide))) fun _ _ => .ok _
  · exact .bind (nf_totalWithPending d) fun _ _ => .bind (nf_createSelInfo _ _) fun _ _ => .ok _

theorem nf_selectDelegationLoop (st : Store) (mn mp : Nat) : ∀ l sel tot, NF (selectDelegationLoop st mn mp l sel tot)
  | [], _, _ => .ok _
  | a :: l, sel, tot => by
    unfold selectDelegationLoop
    exact .bind (nf_considerProvider _ _ _ _ _) fun r _ => .ite (fun _ => .ok _) fun _ => nf_selectDelegationLoop st mn mp l _ _

theorem nf_selectUndelegationLoop (st : Store) (mn mp avg : Nat) :
    ∀ l sel tot rem, NF (selectUndelegationLoop st mn mp avg l sel tot rem)
  | [], _, _, _ => .ok _
  | a :: l, sel, tot, rem => by
    unfold selectUndelegationLoop
    refine .bind (.unwrap (.inr (by decide))) fun _ _ => .ite (fun _ => .ok _) fun _ => .ite (fun _ => .ok _) fun _ => ?_
    refine .bind (.getData (by decide)) fun d _ => .bind (nf_totalWithPending d) fun s _ => .bind ?_ fun _ _ => ?_
    · unfold amountToTake
      exact .ite (fun _ => .ok _) fun _ => .ite (fun _ => .csub (.inr (by decide))) fun _ => .ok _
    · exact .ite (fun _ => .bind (nf_createSelInfo _ _) fun _ _ => nf_selectUndelegationLoop st mn mp avg l _ _ _)
        (fun _ => nf_selectUndelegationLoop st mn mp avg l _ _ _)

theorem nf_maxProviders (st : Store) (a mn n : Nat) : NF (maxProviders st a mn n) := by
  unfold maxProviders
  exact .bind (.cdiv (.inr (by decide))) fun _ _ => .bind (.unwrap (.inr (by decide))) fun _ _ => .ok _

theorem nf_providerAmount (i : SelInfo) (a r ts : Nat) (isD : Bool) (mn : Nat) : NF (providerAmount i a r ts isD mn) := by
  unfold providerAmount proportionOf
  refine .bind (.ite (fun _ => .cdiv (.inr (by decide))) (fun _ => .ok _)) fun _ _ => .ite (fun _ => ?_) (fun _ => ?_)
  · split <;> exact .ok _
  · refine .bind (.csub (.inr (by decide))) fun _ _ => .ite (fun _ => .ite (fun _ => .ok _) fun _ => ?_) (fun _ => .ok _)
    exact .bind (.csub (.inr (by decide))) fun _ _ => .ite (fun _ => .ok _) (fun _ => .ok _)

theorem nf_distributeLoop (a ts : Nat) (isD : Bool) (mn : Nat) : ∀ l r, NF (distributeLoop a ts isD mn l r)
  | [], _ => .ok _
  | i :: l, r => by
    unfold distributeLoop
    refine .bind (nf_providerAmount _ _ _ _ _ _) fun _ _ => .ite (fun _ => ?_) (fun _ => nf_distributeLoop a ts isD mn l _)
    refine .bind (.csub (.inr (by decide))) fun _ _ => .bind ?_ fun _ _ => .bind (nf_distributeLoop a ts isD mn l _) fun _ _ => .ok _
    unfold spaceAfter
    refine .ite (fun _ => ?_) (fun _ => .bind (.csub (.inr (by decide))) fun _ _ => .ok _)
    split
    · exact .bind (.csub (.inr (by decide))) fun _ _ => .ok _
    · exact .ok _

theorem nf_handleRemainingLoop (isD : Bool) : ∀ l r, NF (handleRemainingLoop isD l r)
  | [], _ => .ok _
  | p :: l, r => by
    unfold handleRemainingLoop fillOne
    refine .bind (.ite (fun _ => .bind (.unwrap (.inr (by decide))) fun _ _ => .ite (fun _ => .ok _) (fun _ => .ok _)) (fun _ => ?_))
      fun _ _ => .ite (fun _ => .ok _) (fun _ => .bind (nf_handleRemainingLoop isD l _) fun _ _ => .ok _)
    split
    · exact .ok _
    · exact .ite (fun _ => .ok _) (fun _ => .ok _)

theorem nf_getDelegationContract (st : Store) (a : Nat) (isD : Bool) (c : Cache) : NF (getDelegationContract st a isD c) := by
  have hdist : ∀ sel isD ts cfg, NF (distributeAmount sel a MIN_EGLD isD ts cfg c) := by
    intro sel isD ts cfg
    unfold distributeAmount handleRemaining
    refine .bind (nf_updateScores _ _ _ _) fun _ _ => .bind (nf_distributeLoop _ _ _ _ _ _) fun _ _ => ?_
    refine .ite (fun _ => .ok _) fun _ => .bind (nf_handleRemainingLoop _ _ _) fun _ _ => ?_
    exact .ite (fun _ => .ite (fun _ => .ok _) (fun _ => .ok _)) (fun _ => .ok _)
  have hcfg : NF (getScoringConfig st) := by
    unfold getScoringConfig; split
    · exact .ok _
    · exact .error (by decide)
  unfold getDelegationContract handleUndelegation handleDelegation selectUndelegationProviders selectDelegationProviders
  refine .bind (.req (.inr (by decide))) fun _ _ => .ite (fun _ => ?_) (fun _ => ?_)
  · refine .bind ?_ fun _ _ => .bind (.req (.inr (by decide))) fun _ _ => .bind hcfg fun _ _ => hdist _ _ _ _
    refine .bind (nf_maxProviders _ _ _ _) fun _ _ => .bind (.cdiv (.inr (by decide))) fun _ _ => ?_
    refine .bind (.cdiv (.inr (by decide))) fun _ _ => .bind (.cdiv (.inr (by decide))) fun _ _ => ?_
    exact nf_selectUndelegationLoop _ _ _ _ _ _ _ _
  · refine .bind ?_ fun _ _ => .bind (.req (.inr (by decide))) fun _ _ => .bind hcfg fun _ _ => hdist _ _ _ _
    exact .bind (nf_maxProviders _ _ _ _) fun _ _ => nf_selectDelegationLoop _ _ _ _ _ _

theorem nf_delegateLoop : ∀ (sels : List Selection) (w : World), selSum sels ≤ w.egld.get 0 w.self → NF (delegateLoop sels w)
  | [], _, _ => .ok _
  | s :: ss, w, h => by
    rw [selSum_cons] at h
    unfold delegateLoop
    refine .bind (.updateData (by decide) fun _ => .ok _) fun w2 h2 => ?_
    rw [updateData_ok] at h2
    obtain ⟨d, d', _, _, rfl⟩ := h2
    refine .bind (.bind (.debit (.inl (by dsimp only; omega))) fun _ _ => .ok _) fun w3 h3 => ?_
    obtain ⟨m, hm, rfl⟩ := registerPromise_ok.1 h3
    apply nf_delegateLoop ss
    dsimp only
    rw [get_debit hm, if_pos rfl]
    dsimp only
    omega

theorem nf_delegatePending {w : World} {c : Addr} {o : Option Nat} (h : w.st.r.pending ≤ w.egld.get 0 w.self) :
    NF (delegatePending w c o) := by
  unfold delegatePending
  refine .bind (.req (.inr (by decide))) fun _ _ => .bind (.cacheNew (by decide)) fun cc hc => ?_
  refine .bind (.req (.inr (by decide))) fun _ _ => .bind (.req (.inr (by decide))) fun _ _ => ?_
  refine .bind ?_ fun amt hamt => .bind (nf_getDelegationContract _ _ _ _) fun r hr => ?_
  · unfold batchAmount
    refine .bind (.req (.inr (by decide))) fun _ _ => ?_
    split
    · refine .bind (.req (.inr (by decide))) fun _ _ => .bind (.req (.inr (by decide))) fun _ _ => ?_
      exact .bind (.csub (.inr (by decide))) fun _ _ => .bind (.req (.inr (by decide))) fun _ _ => .ok _
    · exact .ok _
  · obtain ⟨t, _, rfl⟩ := cacheNew_ok.1 hc
    have hb := batchAmount_ok hamt
    obtain ⟨left, h1, _⟩ := selectDelegate_ok (c := _) (c' := r.2) (sels := r.1) hr
    refine .bind (.csub (.inr (by decide))) fun _ _ => .bind (nf_delegateLoop _ _ ?_) fun _ _ => .ok _
    dsimp only at hb
    omega

theorem nf_claimFees {w : World} {c : Addr} {a : Bool} (h : w.st.r.fees ≤ w.egld.get 0 w.self) : NF (claimFees w c a) := by
  unfold claimFees claimFeesWith
  refine .bind (.req (.inr (by decide))) fun _ _ => .bind (.cacheNew (by decide)) fun cc hc => ?_
  obtain ⟨t, _, rfl⟩ := cacheNew_ok.1 hc
  refine .bind (.req (.inr (by decide))) fun _ _ => .bind (.req (.inr (by decide))) fun _ _ => ?_
  refine .bind (.bind (.debit (.inl h)) fun _ _ => .ok _) fun _ _ => ?_
  exact .bind (.ite (fun _ => .ok _) (fun _ => .error (by decide))) fun _ _ => .ok _

theorem nf_runCallback {w : World} {i : Nat} {f : Flight} {o : Outcome} : NF (runCallback (arrive w i f o) f o) := by
  have hadd : ∀ w p a b, NF (addLiquidityCb w p a b) := by
    intro w p a b
    unfold addLiquidityCb
    refine .bind (.cacheNew (by decide)) fun _ _ => .ite (fun _ => ?_) (fun _ => ?_)
    · exact .bind (.updateData (by decide) fun _ => .bind (.csub (.inr (by decide))) fun _ _ => .ok _) fun _ _ => .ok _
    · exact .bind (.updateData (by decide) fun _ => .bind (.csub (.inr (by decide))) fun _ _ => .ok _) fun _ _ => .ok _
  have hrem : ∀ w p a b, NF (removeLiquidityCb w p a b) := by
    intro w p a b
    unfold removeLiquidityCb
    refine .bind (.cacheNew (by decide)) fun _ _ => .ite (fun _ => ?_) (fun _ => ?_)
    · exact .bind (.updateData (by decide) fun _ => .bind (.csub (.inr (by decide))) fun _ _ =>
        .bind (.csub (.inr (by decide))) fun _ _ => .ok _) fun _ _ => .ok _
    · exact .bind (.updateData (by decide) fun _ => .bind (.csub (.inr (by decide))) fun _ _ => .ok _) fun _ _ => .ok _
  have hwd : ∀ w p v, NF (withdrawTokensCb w p v) := by
    intro w p v
    unfold withdrawTokensCb
    refine .ite (fun _ => ?_) (fun _ => .ok _)
    refine .bind (.cacheNew (by decide)) fun _ _ => .bind (.csub (.inr (by decide))) fun _ _ => ?_
    exact .bind (.updateData (by decide) fun _ => .bind (.csub (.inr (by decide))) fun _ _ => .ok _) fun _ _ => .ok _
  have hcl : ∀ w r, NF (claimRewardsCb w r) := by
    intro w r
    unfold claimRewardsCb calculateShare
    split
    · refine .ite (fun _ => ?_) (fun _ => .ok _)
      refine .bind (.cacheNew (by decide)) fun _ _ => .bind (.cdiv (.inr (by decide))) fun _ _ => ?_
      exact .bind (.csub (.inr (by decide))) fun _ _ => .ok _
    · exact .ok _
  cases f with
  | delegate p a => cases o <;> exact hadd _ _ _ _
  | undelegate p a => cases o <;> exact hrem _ _ _ _
  | withdraw p => cases o <;> exact hwd _ _ _
  | claim ps =>
    cases o with
    | ok g r => exact hcl _ (some r)
    | err => exact hcl _ none
  | whitelist p a u =>
    cases o with
    | ok g r =>
      show NF (whitelistCb _ p a u true)
      unfold whitelistCb poolAdd getLsAmount
      refine .bind (.cacheNew (by decide)) fun cc _ => .ite (fun _ => ?_) (fun h => absurd rfl h)
      refine .bind (.updateData (by decide) fun _ => .ok _) fun w1 _ => .bind ?_ fun x _ => ?_
      · refine .bind (.bind (.ite (fun _ => .cdiv (.inr (by decide))) (fun _ => .ok _)) fun _ _ => ?_) fun _ _ => .ok _
        exact .bind (.req (.inr (by decide))) fun _ _ => .ok _
      · refine .bind (.bind (.debit (.inl ?_)) fun _ _ => .ok _) fun _ _ => .ok _
        simp only [emit, mintLs]
        rw [get_credit, if_pos rfl]; omega
    | err =>
      show NF (whitelistCb _ p a u false)
      unfold whitelistCb
      refine .bind (.cacheNew (by decide)) fun cc _ => .ite (fun h => absurd h (by decide)) (fun _ => ?_)
      refine .bind (.bind (.debit (.inl ?_)) fun _ _ => .ok _) fun _ _ => .ok _
      simp only [arrive, attached]
      rw [get_credit, if_pos rfl]; omega
end

/-! ### `unDelegate` and `withdraw` -/

theorem ne_getActionAmount {e : Err} (q p : Nat) : NoErr e (getActionAmount q p) := by
  rw [getActionAmount_eq]; exact .ok _

/-- Minting unstake tokens fails only when the token was never issued. -/
theorem ne_mintUnstake {e : Err} {w : World} {a : Attrs} {v : Nat} {u cur : UInt64} (h : NftInv w)
    (he : w.st.unstakeToken ≠ none ∨ Err.invalidTokenId ≠ e) : NoErr e (mintUnstakeTokens w a v u cur) := by
  have h0 : NftOk w.self w.epoch w.nft w.attrs w.lastNonce w.st.unstakeNonce := h
  unfold mintUnstakeTokens
  dsimp only
  split
  · next hz =>
    refine .bind (.req he) fun _ _ => .ite (fun h1 => ?_) (fun _ => .ok _)
    refine .bind ?_ fun _ _ => .ok _
    simp only [nftCreate, Nat.add_sub_cancel] at h1 ⊢
    have hl : w.lastNonce ≠ 0 := by omega
    have hb : w.nft.get 0 (w.lastNonce, w.self) ≠ 0 := h0.live _ (h0.lastLive hl)
    obtain ⟨_, a0, ha0, _⟩ := h0.lastLive hl
    have hat : ∀ st : Store, nftAttrs { w with
        st := st, nft := credit w.nft (w.lastNonce + 1, w.self) (v + 1),
        attrs := w.attrs.set (w.lastNonce + 1) (some a), lastNonce := w.lastNonce + 1 } w.lastNonce = .ok a0 := by
      intro st
      rw [nftAttrs_ok]
      refine ⟨?_, ?_⟩
      · dsimp only; rw [get_credit, if_neg (by simp)]; exact hb
      · dsimp only; rw [Map.get_set_other _ _ _ (by omega)]; exact ha0
    unfold cleanOldUnbondEpochs
    rw [hat]
    refine .bind (.ok _) fun a1 ha1 => .ite (fun _ => ?_) (fun _ => .ok _)
    exact .bind (.debit (.inl (Nat.le_refl _))) fun _ _ => .ok _
  · next hz =>
    refine .bind (.req he) fun _ _ => .bind ?_ fun _ _ => .ok _
    unfold nftAddQuantity
    refine .ite (fun h1 => ?_) (fun _ => .ok _)
    exfalso
    obtain ⟨a0, ha0, hu⟩ := h0.reg u hz
    have := h0.live _ ⟨hz, a0, ha0, by rw [hu]⟩
    omega

/-- Redemption fails only for one of these reasons. -/
theorem ne_unDelegate {e : Err} {w : World} {c : Addr} {t : TokenId} {l : Nat} (h : NftInv w)
    (hls : w.st.lsToken = some t) (hl : l ≤ w.ls.get 0 c ∨ Err.insufficientFunds ≠ e)
    (hp : w.st.r.pending ≤ w.egld.get 0 w.self ∨ Err.insufficientFunds ≠ e)
    (h1 : (∀ i u, getActionAmount w.st.r.pending (l * w.st.r.reserve / w.st.r.lsSupply) = .ok (i, u) → 0 < u →
      w.st.unstakeToken ≠ none) ∨ Err.invalidTokenId ≠ e) (h2 : c ≠ w.self ∨ Err.callerIsSelf ≠ e)
    (h3 : w.st.state = .active ∨ Err.notActive ≠ e) (h4 : 0 < l ∨ Err.badPaymentAmount ≠ e)
    (h5 : l ≤ w.st.r.lsSupply ∨ Err.notEnoughLp ≠ e) (h6 : w.st.r.lsSupply ≠ 0 ∨ Err.divByZero ≠ e)
    (h7 : 0 < l * w.st.r.reserve / w.st.r.lsSupply ∨ Err.insufficientLiqBurned ≠ e)
    (h8 : (∀ i u, getActionAmount w.st.r.pending (l * w.st.r.reserve / w.st.r.lsSupply) = .ok (i, u) → 0 < i →
      MIN_EGLD ≤ w.st.r.pending - i ∨ w.st.r.pending - i = 0) ∨ Err.insufficientPendingEgld ≠ e)
    (h9 : (∀ i u, getActionAmount w.st.r.pending (l * w.st.r.reserve / w.st.r.lsSupply) = .ok (i, u) → 0 < u →
      MIN_EGLD ≤ w.st.r.toUnstake + u) ∨ Err.insufficientUnstakePendingEgld ≠ e) :
    NoErr e (unDelegate w c 0 [⟨t, 0, l⟩]) := by
  unfold unDelegate payAny
  refine .bind (.req h2) fun _ hc => ?_
  rw [requireUser_ok] at hc
  obtain ⟨m0, hm0, hm0a, _⟩ := payEgld_zero w c
  rw [hm0]
  refine .bind ?_ fun w0 hw0 => ?_
  · refine .bind (.req (.inl (.inl rfl))) fun _ _ => .bind (.ok _) fun w1 hw1 => ?_
    simp only [Except.ok.injEq] at hw1
    subst hw1
    unfold payEsdts payEsdts payEsdt1
    refine .bind ?_ fun _ _ => .ok _
    simp only [hls, if_true]
    exact .bind (.debit hl) fun _ _ => .ok _
  · simp only [bind_ok, Except.ok.injEq] at hw0
    obtain ⟨_, _, w1, rfl, hw0⟩ := hw0
    unfold payEsdts payEsdts payEsdt1 at hw0
    simp only [hls, if_true, bind_ok, Except.ok.injEq] at hw0
    obtain ⟨_, ⟨m1, hm1, rfl⟩, rfl⟩ := hw0
    refine .bind (cacheNew_noErr hls) fun cc hcc => ?_
    obtain ⟨t', ht', rfl⟩ := cacheNew_ok.1 hcc
    rw [hls] at ht'; cases ht'
    dsimp only
    refine .bind (.req h3) fun _ _ => .bind (.req (.inl rfl)) fun _ _ => .bind (.req h4) fun _ _ => ?_
    refine .bind ?_ fun r hr => ?_
    · unfold poolRemove
      refine .bind ?_ fun x hx => ?_
      · unfold getEgldAmount
        refine .bind (.req h5) fun _ _ => .bind (.cdiv h6) fun x hx => ?_
        obtain ⟨_, rfl⟩ := cdiv_ok.1 hx
        exact .bind (.req h7) fun _ _ => .ok _
      · have hq := getEgldAmount_ok.1 hx
        exact .bind (.csub (.inl hq.1)) fun _ _ => .bind (.csub (.inl hq.le)) fun _ _ => .ok _
    · obtain ⟨e1, c1⟩ := r
      obtain ⟨hq, rfl⟩ := poolRemove_ok.1 hr
      have hqe : e1 = l * w.st.r.reserve / w.st.r.lsSupply := hq.2.2.2
      refine .bind (.bind (.debit (.inl ?_)) fun _ _ => .ok _) fun w2 hw2 => ?_
      · dsimp only; rw [get_credit, if_pos rfl]; omega
      · obtain ⟨m2, hm2, rfl⟩ := burnLs_ok.1 hw2
        refine .bind (ne_getActionAmount _ _) fun iu hiu => ?_
        obtain ⟨i, u⟩ := iu
        have hs := getActionAmount_sum hiu
        dsimp only at hs
        have hiu' : getActionAmount w.st.r.pending (l * w.st.r.reserve / w.st.r.lsSupply) = .ok (i, u) := by
          rw [← hqe]; exact hiu
        refine .bind ?_ fun _ _ => .ok _
        unfold processUnDelegation
        refine .bind ?_ fun r1 hr1 => ?_
        · unfold instantRedemption
          refine .ite (fun hpos => ?_) (fun _ => .ok _)
          refine .bind (.csub (.inl hs.2)) fun x hx => ?_
          obtain ⟨_, rfl⟩ := csub_ok.1 hx
          refine .bind (.req (h8.imp (fun h8 => h8 i u hiu' hpos) id)) fun _ _ => ?_
          refine .bind (.bind (.debit (hp.imp (fun hp => ?_) id)) fun _ _ => .ok _) fun _ _ => .ok _
          dsimp only; rw [hm0a]; omega
        · obtain ⟨w3, c3⟩ := r1
          obtain ⟨_, _, rfl, hw3⟩ := instantRedemption_ok hr1
          have hinv : NftInv w3 ∧ w3.self = w.self ∧ w3.st = w.st := by
            rcases hw3 with ⟨_, rfl⟩ | ⟨_, m, _, rfl⟩ <;> exact ⟨h, rfl, rfl⟩
          refine .bind ?_ fun _ _ => .ok _
          unfold undelegateAmount
          refine .ite (fun hpos => ?_) (fun _ => .ok _)
          refine .bind (.req (h9.imp (fun h9 => .inl (h9 i u hiu' hpos)) id)) fun _ _ =>
            .bind (ne_mintUnstake hinv.1 (by rw [hinv.2.2]; exact h1.imp (fun h1 => h1 i u hiu' hpos) id)) fun r2 hr2 => ?_
          obtain ⟨w4, n⟩ := r2
          obtain ⟨_, hM⟩ := mintUnstakeTokens_ok hr2
          refine .bind (.bind (.debit (.inl ?_)) fun _ _ => .ok _) fun _ _ => .ok _
          cases hM with
          | topUp n hn h0 hb => dsimp only; rw [get_credit, if_pos rfl]; omega
          | fresh h0 hcl => dsimp only; rw [get_credit, if_pos rfl]; omega
          | freshClean a' h0 hl ha hlt hb =>
            dsimp only; rw [Map.get_set, if_neg (by simp), get_credit, if_pos rfl]; omega

theorem nf_withdrawLoop {c : Addr} {uid : TokenId} : ∀ (ps : List Payment) (w : World) (cc : Cache) (t : Nat), c ≠ w.self →
    (∀ n, amtAt n ps ≤ w.nft.get 0 (n, w.self)) → NoErr .insufficientFunds (withdrawLoop c uid ps w cc t)
  | [], _, _, _, _, _ => .ok _
  | p :: ps, w, cc, t, hc, h => by
    unfold withdrawLoop
    have hp : p.amount ≤ w.nft.get 0 (p.nonce, w.self) := by
      have := h p.nonce
      simp only [amtAt, if_true] at this
      omega
    refine .bind ?_ fun r hr => ?_
    · unfold withdrawOne
      refine .bind (.req (.inr (by decide))) fun _ _ => .bind (.req (.inr (by decide))) fun _ _ => .bind ?_ fun a _ => ?_
      · unfold nftAttrs
        refine .ite (fun _ => .error (by decide)) (fun _ => ?_)
        split
        · exact .ok _
        · exact .error (by decide)
      · refine .bind (.req (.inr (by decide))) fun _ _ => .ite (fun _ => ?_) (fun h1 => .ite (fun h2 => ?_) (fun _ => .error (by decide)))
        · refine .bind (.bind (.debit (.inl hp)) fun _ _ => .ok _) fun _ _ => ?_
          exact .bind (.csub (.inr (by decide))) fun _ _ => .ok _
        · refine .bind (.bind (.debit (.inl (by omega))) fun _ _ => .ok _) fun w1 hw1 => ?_
          obtain ⟨m, hm, rfl⟩ := nftBurn_ok.1 hw1
          refine .bind (.csub (.inr (by decide))) fun x hx => ?_
          obtain ⟨_, rfl⟩ := csub_ok.1 hx
          refine .bind (.bind (.debit (.inl ?_)) fun _ _ => .ok _) fun _ _ => .ok _
          dsimp only; rw [get_debit hm, if_pos rfl]; omega
    · obtain ⟨w1, c1, t1⟩ := r
      have hsingle : withdrawLoop c uid [p] w cc t = .ok (w1, c1, t1) := by
        unfold withdrawLoop
        rw [hr]; rfl
      obtain ⟨_, _, _, _, N, rfl, n1, n2, n3, _⟩ := withdrawLoop_ok hc hsingle
      refine nf_withdrawLoop ps { w with nft := N } _ _ hc ?_
      intro n
      have h1 := h n
      have h2 := n2 n
      simp only [amtAt] at h1 h2
      dsimp only
      omega

theorem nf_payEsdts {c : Addr} {uid : TokenId} : ∀ (ps : List Payment) (w : World), c ≠ w.self →
    w.st.unstakeToken = some uid → w.st.lsToken ≠ some uid → (∀ p ∈ ps, p.token = uid) →
    (∀ n, amtAt n ps ≤ w.nft.get 0 (n, c)) → NoErr .insufficientFunds (payEsdts w c ps)
  | [], _, _, _, _, _, _ => .ok _
  | p :: ps, w, hc, hu, hl, ht, h => by
    have htp : p.token = uid := ht p (by simp)
    have hp : p.amount ≤ w.nft.get 0 (p.nonce, c) := by
      have := h p.nonce
      simp only [amtAt, if_true] at this
      omega
    unfold payEsdts payEsdt1
    rw [htp, if_neg hl, if_pos hu]
    refine .bind (.bind (.debit (.inl hp)) fun _ _ => .ok _) fun w1 hw1 => ?_
    simp only [bind_ok, Except.ok.injEq] at hw1
    obtain ⟨m, hm, rfl⟩ := hw1
    refine nf_payEsdts ps { w with nft := credit m (p.nonce, w.self) p.amount } hc hu hl (fun q hq => ht q (by simp [hq])) ?_
    intro n
    have h1 := h n
    simp only [amtAt] at h1
    dsimp only
    rw [get_credit, if_neg (by simp [Ne.symm hc]), get_debit hm]
    by_cases hn : p.nonce = n
    · subst hn; simp at h1 ⊢; omega
    · simp [hn] at h1 ⊢; exact h1

theorem nf_withdraw {w : World} {c : Addr} {v : Nat} {ps : List Payment} {uid : TokenId} (hr : RegInv w)
    (hu : w.st.unstakeToken = some uid) (ht : ∀ p ∈ ps, p.token = uid) (hv : v ≤ w.egld.get 0 c)
    (hn : ∀ n, amtAt n ps ≤ w.nft.get 0 (n, c)) (hb : w.st.r.withdrawn ≤ w.egld.get 0 w.self) :
    NoErr .insufficientFunds (withdraw w c v ps) := by
  have hr0 : RegOk w.st.lsToken w.st.unstakeToken w.st.delegList w.st.undelegList w.st.data w.flights w.dead := hr
  have hl : w.st.lsToken ≠ some uid := fun hx => hr0.tok uid hx hu
  unfold withdraw payAny
  refine .bind (.req (.inr (by decide))) fun _ hc => ?_
  rw [requireUser_ok] at hc
  refine .bind ?_ fun w0 hw0 => ?_
  · refine .bind (.req (.inr (by decide))) fun _ _ => .bind (.bind (.debit (.inl hv)) fun _ _ => .ok _) fun w1 hw1 => ?_
    obtain ⟨m, hm, rfl⟩ := payEgld_ok.1 hw1
    exact nf_payEsdts ps { w with egld := credit m w.self v } hc hu hl ht hn
  · simp only [bind_ok, req_ok, exists_const, payEgld_ok] at hw0
    obtain ⟨_, _, ⟨m, hm, rfl⟩, hw0⟩ := hw0
    obtain ⟨N, rfl, p1, p2, p3, _⟩ := payEsdts_ok (w := { w with egld := credit m w.self v }) hc hu hl ht hw0
    refine .bind (.cacheNew (by decide)) fun cc hcc => .bind (.req (.inr (by decide))) fun _ _ => ?_
    obtain ⟨t', _, rfl⟩ := cacheNew_ok.1 hcc
    simp only [hu]
    refine .bind (nf_withdrawLoop _ _ _ _ hc ?_) fun r hr' => ?_
    · intro n; have := p2 n; dsimp only at this ⊢; omega
    · obtain ⟨w1, c1, ts⟩ := r
      obtain ⟨_, _, rfl, _, N', rfl, _⟩ := withdrawLoop_ok
        (w := { w with egld := credit m w.self v, nft := N }) hc hr'
      refine .bind (.bind (.debit (.inl ?_)) fun _ _ => .ok _) fun _ _ => .ok _
      dsimp only
      rw [get_credit, if_pos rfl, get_debit hm, if_neg hc]
      omega

end LS
