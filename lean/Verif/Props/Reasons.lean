import Verif.Model.Messages
import Verif.Props.Truncation
import Verif.Spec.Economy

/-! Refusals and the reasons given for them: C104. -/

namespace LS
open Spec Demo

namespace Spec

/-- The payments of a redemption or a withdrawal. -/
def paymentsOf : Op → List Payment
  | .unDelegate _ _ ps | .withdraw _ _ ps => ps
  | _ => []

/-- What the message of a refusal says about the state and the transaction. -/
def Tells (w : World) (op : Op) (e : Err) : Prop :=
  match e with
  | .notActive => w.st.state ≠ .active
  | .lsTokenNotIssued => w.st.lsToken = none
  | .unstakePeriodNotPassed => ∃ p ∈ paymentsOf op, ∃ t, maturityOf w p.nonce = some t ∧ w.epoch < t
  | .badPaymentToken => match op with
    | .unDelegate _ _ ps => ∃ p ∈ ps, w.st.lsToken ≠ some p.token
    | .withdraw _ _ ps => ∃ p ∈ ps, w.st.unstakeToken ≠ some p.token
    | _ => False
  | .badPaymentAmount => match op with
    | .delegate _ v => v = 0
    | .unDelegate _ _ ps | .withdraw _ _ ps => ∃ p ∈ ps, p.amount = 0
    | _ => False
  | .insufficientPendingEgld => match op with
    | .delegate _ v => pendingEgld w + v < oneEgld
    | .delegatePending _ o => ¬ ValidBatch (pendingEgld w) o
    | .unDelegatePending _ o => ¬ ValidBatch (toUndelegate w) o
    | _ => False
  | .insufficientUnstakePendingEgld => match op with
    | .unDelegate _ _ ps => ∃ p ∈ ps, toUndelegate w + egldFor (supply w) (reserve w) p.amount < oneEgld
    | _ => False
  | .insufficientUnbondedAmount => match op with
    | .withdraw _ _ ps => withdrawable w < totalPaid ps
    | _ => False
  | .insufficientLiquidity => match op with
    | .delegate _ v | .migrate _ v _ | .viewEgldPosition v => lsFor (supply w) (reserve w) v = 0
    | _ => False
  | .insufficientLiqBurned => match op with
    | .unDelegate _ _ ps => ∃ p ∈ ps, egldFor (supply w) (reserve w) p.amount = 0
    | .viewLsValue l => egldFor (supply w) (reserve w) l = 0
    | _ => False
  | .notEnoughLp => match op with
    | .unDelegate _ _ ps => ∃ p ∈ ps, supply w < p.amount
    | .viewLsValue l => supply w < l
    | _ => False
  | .badDelegationAddress => match op with
    | .delegatePending _ _ => ∀ p ∈ w.st.delegList, ¬ HasRoom w p
    | .unDelegatePending _ _ => ∀ p ∈ w.st.undelegList, netStake w p = 0
    | _ => False
  | .noDelegationContracts => w.st.delegList = []
  | .alreadyWhitelisted => match op with
    | .whitelist _ _ p _ _ _ _ _ => provider w p ≠ none
    | _ => False
  | .notWhitelisted => match op with
    | .withdrawPending _ p | .changeAdmin _ p _ | .changeParams _ p _ _ _ _ _ => provider w p = none
    | _ => False
  | .delegationCap => match op with
    | .whitelist _ _ _ _ ts cap _ _ | .changeParams _ _ ts cap _ _ _ => cap ≠ 0 ∧ cap < ts
    | _ => False
  | .onlyDelegationAdmin => match op with
    | .changeParams c p _ _ _ _ _ => c ∉ w.st.managers ∧ c ≠ w.owner ∧ ∀ d, provider w p = some d → d.admin ≠ c
    | _ => False
  | .maxDelegationAddresses => w.st.maxDelegationAddresses ≤ w.st.delegList.length
  | .maxUnDelegationAddresses => w.st.maxDelegationAddresses ≤ w.st.undelegList.length
  | .maxSelectedProviders => ∃ c, op = .owner c (.maxSelected 0)
  | .maxChangedDelegationAddresses => ∃ c, op = .owner c (.maxAddresses 0)
  | .minEgldToDelegate => match op with
    | .whitelist _ v _ _ _ _ _ _ => v < oneEgld
    | _ => False
  | .migrationScNotSet => w.st.migrationSc = none ∨ w.st.migrationSc = some 0
  | .migrationNotAllowed => match op with
    | .migrate c _ _ | .migratePending c _ => ¬ Migrator w c
    | .setMigrationSc _ a => a ∉ w.contracts
    | _ => False
  | .notManager => ∃ c, senderOf op = some c ∧ c ∉ w.st.managers ∧ c ≠ w.owner
  | .scoringConfigNotSet => w.st.scoring = none
  | .weightsMustSumTo100 => match op with
    | .setScoringConfig _ g => g.stakeWeight.toNat + g.apyWeight.toNat + g.nodesWeight.toNat ≠ 100
    | _ => False
  | .insufficientFeesReserve => feesReserve w = 0
  | .onlyOwner => ∃ c, senderOf op = some c ∧ c ≠ w.owner
  | .callerIsSelf => ∃ c, c = w.self ∧ (senderOf op = some c ∨ ∃ s, (∃ v, op = .transferLs s c v ∨ op = .transferEgld s c v) ∨ (∃ n v, op = .transferNft s c n v) ∨ ∃ v, op = .fund c v)
  | .invalidTokenId => w.st.lsToken = none ∨ w.st.unstakeToken = none
  | .tokenAlreadySet => match op with
    | .registerLsToken _ _ => w.st.lsToken ≠ none ∨ w.st.lsPending = true
    | .registerUnstakeToken _ _ => w.st.unstakeToken ≠ none ∨ w.st.unstakePending = true
    | .issued _ o => o = w.st.lsToken ∨ o = w.st.unstakeToken
    | _ => False
  | .badEsdtCount => (paymentsOf op).length ≠ 1
  | .badValue => paymentsOf op ≠ []
  | .notPayable => ∃ c, senderOf op = some c ∧ c ∉ w.contracts
  | .calleeFailed => ∃ c b, op = .claimFees c b ∧ (b = false ∨ w.st.accumulator = w.self)
  | .negativeSub | .divByZero | .unwrapNone | .decode | .insufficientFunds | .nftNotOwned | .noSuchFlight | .badEpoch => True

end Spec

/-! ### Errors of a computation -/

/-- Every error of `x` is one `P` allows. -/
private def Owns {α : Type} (P : Err → Prop) (x : Res α) : Prop := ∀ e, x = .error e → P e

section
variable {α β : Type} {P : Err → Prop}

private theorem Owns.ok (a : α) : Owns P (.ok a) := by intro e h; cases h

private theorem Owns.error {e : Err} (h : P e) : Owns (α := α) P (.error e) := by intro e' h'; cases h'; exact h

private theorem Owns.bind {x : Res α} {f : α → Res β} (h : Owns P x) (hf : ∀ a, x = .ok a → Owns P (f a)) : Owns P (x >>= f) := by
  cases x with
  | ok a => exact hf a rfl
  | error e => intro e' h'; cases h'; exact h e rfl

private theorem Owns.req {c : Prop} [Decidable c] {e : Err} (h : ¬ c → P e) : Owns P (req c e) := by
  unfold LS.req; split
  · exact .ok _
  · next hc => exact .error (h hc)

private theorem Owns.ite {c : Prop} [Decidable c] {x y : Res α} (hx : c → Owns P x) (hy : ¬ c → Owns P y) : Owns P (if c then x else y) := by
  split
  · next h => exact hx h
  · next h => exact hy h

private theorem Owns.csub {a b : Nat} (h : P .negativeSub) : Owns P (csub a b) := by
  unfold LS.csub; exact .ite (fun _ => .ok _) (fun _ => .error h)

private theorem Owns.cdiv {a b : Nat} (h : P .divByZero) : Owns P (cdiv a b) := by
  unfold LS.cdiv; exact .ite (fun _ => .error h) (fun _ => .ok _)

private theorem Owns.unwrap {x : Option α} (h : P .unwrapNone) : Owns P (unwrap x) := by
  cases x with
  | some a => exact .ok _
  | none => exact .error h

private theorem Owns.debit {K : Type} [DecidableEq K] {m : Map K Nat} {k : K} {v : Nat} (h : P .insufficientFunds) : Owns P (debit m k v) := by
  unfold LS.debit; exact .ite (fun _ => .ok _) (fun _ => .error h)

private theorem Owns.getData {st : Store} {a : Addr} (h : P .decode) : Owns P (getData st a) := by
  unfold LS.getData; split
  · exact .ok _
  · exact .error h

private theorem Owns.updateData {w : World} {a : Addr} {f : ProviderData → Res ProviderData} (h : P .decode) (hf : ∀ d, Owns P (f d)) :
    Owns P (updateData w a f) := .bind (.getData h) fun d _ => .bind (hf d) fun _ _ => .ok _

private theorem Owns.cacheNew {st : Store} (h : st.lsToken = none → P .invalidTokenId) : Owns P (cacheNew st) := by
  unfold LS.cacheNew; split
  · exact .ok _
  · next hn => exact .error (h hn)

end

/-- What the errors without a message of their own are allowed to be. -/
private structure Free (P : Err → Prop) : Prop where
  sub : P .negativeSub
  div : P .divByZero
  unw : P .unwrapNone
  dec : P .decode
  fun' : P .insufficientFunds
  nft : P .nftNotOwned

section
variable {P : Err → Prop} (f : Free P)
include f

private theorem owns_norm (v mn mx : Nat) (down : Bool) : Owns P (normLinearClamp v mn mx down) := by
  unfold normLinearClamp normClamp
  refine .bind ?_ fun _ _ => .ite (fun _ => .csub f.sub) (fun _ => .ok _)
  refine .ite (fun _ => .ok _) fun _ => .ite (fun _ => .ok _) fun _ => ?_
  exact .bind (.csub f.sub) fun _ _ => .bind (.csub f.sub) fun _ _ => .cdiv f.div

private theorem owns_scores (isD : Bool) (ts : Nat) (cfg : ScoringConfig) : ∀ l, Owns P (updateScores isD ts cfg l)
  | [] => .ok _
  | i :: is => by
    unfold updateScores
    refine .bind ?_ fun _ _ => .bind (owns_scores isD ts cfg is) fun _ _ => .ok _
    unfold updateScore nodeScore apyScore stakeScore
    refine .bind (.bind (owns_norm f _ _ _ _) fun _ _ => .ok _) fun _ _ => ?_
    refine .bind (.bind (owns_norm f _ _ _ _) fun _ _ => .ok _) fun _ _ => ?_
    refine .bind (.ite (fun _ => .bind (owns_norm f _ _ _ _) fun _ _ => .ok _) (fun _ => .ok _)) fun _ _ => .ok _

private theorem owns_total (d : ProviderData) : Owns P d.totalWithPending := .csub f.sub

private theorem owns_info (a : Addr) (d : ProviderData) : Owns P (createSelInfo a d) := by
  unfold createSelInfo spaceLeftOf
  refine .bind (.ite (fun _ => .ok _) fun _ => .bind (.csub f.sub) fun _ _ => .ok _) fun _ _ => ?_
  exact .bind (owns_total f d) fun _ _ => .ok _

private theorem owns_consider (st : Store) (mn : Nat) (a : Addr) (sel : List SelInfo) (tot : Nat) :
    Owns P (considerProvider st mn a sel tot) := by
  unfold considerProvider isProviderEligible
  refine .bind (.getData f.dec) fun d _ => .bind ?_ fun _ _ => .ite (fun _ => ?_) (fun _ => .ok _)
  · refine .ite (fun _ => .ok _) fun _ => .ite (fun _ => .ok _) fun _ => ?_
    exact .bind (owns_total f d) fun _ _ => .bind (.csub f.sub) fun _ _ => .ok _
  · exact .bind (owns_total f d) fun _ _ => .bind (owns_info f a d) fun _ _ => .ok _

private theorem owns_dloop (st : Store) (mn mp : Nat) : ∀ l sel tot, Owns P (selectDelegationLoop st mn mp l sel tot)
  | [], _, _ => .ok _
  | a :: l, sel, tot => by
    unfold selectDelegationLoop
    exact .bind (owns_consider f st mn a sel tot) fun _ _ => .ite (fun _ => .ok _) fun _ => owns_dloop st mn mp l _ _

private theorem owns_uloop (st : Store) (mn mp avg : Nat) : ∀ l sel tot rem, Owns P (selectUndelegationLoop st mn mp avg l sel tot rem)
  | [], _, _, _ => .ok _
  | a :: l, sel, tot, rem => by
    unfold selectUndelegationLoop
    refine .bind (.unwrap f.unw) fun _ _ => .ite (fun _ => .ok _) fun _ => .ite (fun _ => .ok _) fun _ => ?_
    refine .bind (.getData f.dec) fun d _ => .bind (owns_total f d) fun _ _ => .bind ?_ fun _ _ => ?_
    · unfold amountToTake
      exact .ite (fun _ => .ok _) fun _ => .ite (fun _ => .csub f.sub) fun _ => .ok _
    · exact .ite (fun _ => .bind (owns_info f a d) fun _ _ => owns_uloop st mn mp avg l _ _ _)
        fun _ => owns_uloop st mn mp avg l _ _ _

private theorem owns_max (st : Store) (a mn n : Nat) : Owns P (maxProviders st a mn n) := by
  unfold maxProviders
  exact .bind (.cdiv f.div) fun _ _ => .bind (.unwrap f.unw) fun _ _ => .ok _

private theorem owns_amount (i : SelInfo) (a r ts : Nat) (isD : Bool) (mn : Nat) : Owns P (providerAmount i a r ts isD mn) := by
  unfold providerAmount proportionOf
  refine .bind (.ite (fun _ => .cdiv f.div) (fun _ => .ok _)) fun _ _ => .ite (fun _ => ?_) (fun _ => ?_)
  · split <;> exact .ok _
  · refine .bind (.csub f.sub) fun _ _ => .ite (fun _ => .ite (fun _ => .ok _) fun _ => ?_) (fun _ => .ok _)
    exact .bind (.csub f.sub) fun _ _ => .ite (fun _ => .ok _) (fun _ => .ok _)

private theorem owns_share (a ts : Nat) (isD : Bool) (mn : Nat) : ∀ l r, Owns P (distributeLoop a ts isD mn l r)
  | [], _ => .ok _
  | i :: l, r => by
    unfold distributeLoop
    refine .bind (owns_amount f _ _ _ _ _ _) fun _ _ => .ite (fun _ => ?_) (fun _ => owns_share a ts isD mn l _)
    refine .bind (.csub f.sub) fun _ _ => .bind ?_ fun _ _ => .bind (owns_share a ts isD mn l _) fun _ _ => .ok _
    unfold spaceAfter
    refine .ite (fun _ => ?_) (fun _ => .bind (.csub f.sub) fun _ _ => .ok _)
    split
    · exact .bind (.csub f.sub) fun _ _ => .ok _
    · exact .ok _

private theorem owns_rest (isD : Bool) : ∀ l r, Owns P (handleRemainingLoop isD l r)
  | [], _ => .ok _
  | p :: l, r => by
    unfold handleRemainingLoop fillOne
    refine .bind (.ite (fun _ => .bind (.unwrap f.unw) fun _ _ => .ite (fun _ => .ok _) (fun _ => .ok _)) (fun _ => ?_))
      fun _ _ => .ite (fun _ => .ok _) (fun _ => .bind (owns_rest isD l _) fun _ _ => .ok _)
    split
    · exact .ok _
    · exact .ite (fun _ => .ok _) (fun _ => .ok _)

private theorem owns_select {st : Store} {a : Nat} {isD : Bool} {c : Cache}
    (h1 : (if isD then st.delegList else st.undelegList) = [] → P .noDelegationContracts)
    (h2 : st.scoring = none → P .scoringConfigNotSet)
    (h3 : isD = true → ∀ tot, st.delegList ≠ [] → selectDelegationProviders st st.delegList a MIN_EGLD = .ok ([], tot) → P .badDelegationAddress)
    (h4 : isD = false → ∀ tot, st.undelegList ≠ [] → selectUndelegationProviders st st.undelegList a MIN_EGLD = .ok ([], tot) →
      P .badDelegationAddress) : Owns P (getDelegationContract st a isD c) := by
  have hdist : ∀ sel isD ts cfg, Owns P (distributeAmount sel a MIN_EGLD isD ts cfg c) := by
    intro sel isD ts cfg
    unfold distributeAmount handleRemaining
    refine .bind (owns_scores f _ _ _ _) fun _ _ => .bind (owns_share f _ _ _ _ _ _) fun _ _ => ?_
    refine .ite (fun _ => .ok _) fun _ => .bind (owns_rest f _ _ _) fun _ _ => ?_
    exact .ite (fun _ => .ite (fun _ => .ok _) (fun _ => .ok _)) (fun _ => .ok _)
  have hcfg : Owns P (getScoringConfig st) := by
    unfold getScoringConfig; split
    · exact .ok _
    · next hn => exact .error (h2 hn)
  have hs1 : Owns P (selectDelegationProviders st st.delegList a MIN_EGLD) := by
    unfold selectDelegationProviders
    exact .bind (owns_max f _ _ _ _) fun _ _ => owns_dloop f _ _ _ _ _ _
  have hs2 : Owns P (selectUndelegationProviders st st.undelegList a MIN_EGLD) := by
    unfold selectUndelegationProviders
    refine .bind (owns_max f _ _ _ _) fun _ _ => .bind (.cdiv f.div) fun _ _ => ?_
    exact .bind (.cdiv f.div) fun _ _ => .bind (.cdiv f.div) fun _ _ => owns_uloop f _ _ _ _ _ _ _ _
  cases isD with
  | true =>
    unfold getDelegationContract handleDelegation
    refine .bind (.req fun h => h1 (not_not.1 h)) fun _ hl => ?_
    refine .bind hs1 fun r hr => .bind (.req fun h => ?_) fun _ _ => .bind hcfg fun _ _ => hdist _ _ _ _
    obtain ⟨sel, tot⟩ := r
    obtain rfl : sel = [] := not_not.1 h
    exact h3 rfl tot (req_ok.1 hl) hr
  | false =>
    unfold getDelegationContract handleUndelegation
    refine .bind (.req fun h => h1 (not_not.1 h)) fun _ hl => ?_
    refine .bind hs2 fun r hr => .bind (.req fun h => ?_) fun _ _ => .bind hcfg fun _ _ => hdist _ _ _ _
    obtain ⟨sel, tot⟩ := r
    obtain rfl : sel = [] := not_not.1 h
    exact h4 rfl tot (req_ok.1 hl) hr

end

/-! ### Empty selections -/

private theorem empty_dloop {st : Store} {mn mp : Nat} (hmp : 0 < mp) {l : List Addr} {tot tot' : Nat}
    (h : selectDelegationLoop st mn mp l [] tot = .ok ([], tot')) :
    ∀ a ∈ l, ∃ d, st.data.get none a = some d ∧ isProviderEligible d mn = .ok false := by
  induction l generalizing tot with
  | nil => intro a ha; cases ha
  | cons b rest ih =>
    simp only [selectDelegationLoop, bind_ok, Prod.exists] at h
    obtain ⟨s1, t1, hc, h⟩ := h
    have hs1 : s1 = [] := by
      by_contra hne
      rw [ite_ok] at h
      rcases h with ⟨_, h⟩ | ⟨_, h⟩
      · simp only [Except.ok.injEq, Prod.mk.injEq] at h
        exact hne h.1
      · exact selectDelegationLoop_nonempty hmp h (.inl hne) rfl
    subst hs1
    unfold considerProvider at hc
    simp only [bind_ok, getData_ok] at hc
    obtain ⟨d, hd, el, hel, hc⟩ := hc
    have hel' : el = false := by
      cases el with
      | false => rfl
      | true =>
        simp only [if_true, bind_ok, Except.ok.injEq, Prod.mk.injEq] at hc
        obtain ⟨_, _, info, _, hx, _⟩ := hc
        simp at hx
    subst hel'
    have hr : selectDelegationLoop st mn mp rest [] t1 = .ok ([], tot') := by
      rw [ite_ok] at h
      rcases h with ⟨hl, h⟩ | ⟨_, h⟩
      · simp only [List.length_nil] at hl; omega
      · exact h
    intro a ha
    rcases List.mem_cons.1 ha with rfl | ha
    · exact ⟨d, hd, hel⟩
    · exact ih hr a ha

private theorem empty_uloop {st : Store} {mn mp avg : Nat} (hmp : 0 < mp) (hav : 0 < avg) (hmn : 0 < mn)
    (hli : 0 < asUsize st.maxSelectedProviders) {l : List Addr} {sel : List SelInfo} {tot tot' rem : Nat}
    (h : selectUndelegationLoop st mn mp avg l sel tot rem = .ok ([], tot')) :
    sel = [] ∧ ∀ a ∈ l, ∃ d, st.data.get none a = some d ∧ d.staked + d.pStake - d.pUnstake = 0 := by
  induction l generalizing sel tot rem with
  | nil =>
    simp only [selectUndelegationLoop, Except.ok.injEq, Prod.mk.injEq] at h
    exact ⟨h.1, fun a ha => by cases ha⟩
  | cons b rest ih =>
    simp only [selectUndelegationLoop, bind_ok, unwrap_ok] at h
    obtain ⟨hd, hhd, h⟩ := h
    have hhd' : hd = st.maxSelectedProviders := by
      unfold toU64 at hhd
      split at hhd <;> simp at hhd
      exact hhd.symm
    subst hhd'
    rw [ite_ok] at h
    rcases h with ⟨hlen, h⟩ | ⟨_, h⟩
    · simp only [Except.ok.injEq, Prod.mk.injEq] at h
      obtain ⟨rfl, _⟩ := h
      simp only [List.length_nil] at hlen
      omega
    rw [ite_ok] at h
    rcases h with ⟨hlen, h⟩ | ⟨_, h⟩
    · simp only [Except.ok.injEq, Prod.mk.injEq] at h
      obtain ⟨rfl, _⟩ := h
      simp only [List.length_nil] at hlen
      omega
    simp only [bind_ok, getData_ok, totalWithPending_ok] at h
    obtain ⟨d, hd, staked, ⟨_, rfl⟩, take, htake, h⟩ := h
    have hiff := amountToTake_cases htake hav hmn
    rw [ite_ok] at h
    rcases h with ⟨ht, h⟩ | ⟨ht, h⟩
    · simp only [bind_ok] at h
      obtain ⟨info, hi, h⟩ := h
      exact absurd (ih h).1 (by simp)
    · obtain ⟨h1, h2⟩ := ih h
      refine ⟨h1, fun a ha => ?_⟩
      rcases List.mem_cons.1 ha with rfl | ha
      · exact ⟨d, hd, by omega⟩
      · exact h2 a ha

private theorem full_providers {w : World} {a tot : Nat} (hl : w.st.delegList.length < 2 ^ 32) (hm : 1 ≤ w.st.maxSelectedProviders)
    (ha : MIN_EGLD ≤ a) (hne : w.st.delegList ≠ []) (h : selectDelegationProviders w.st w.st.delegList a MIN_EGLD = .ok ([], tot)) :
    ∀ p ∈ w.st.delegList, ¬ HasRoom w p := by
  unfold selectDelegationProviders at h
  simp only [bind_ok] at h
  obtain ⟨mp, hmp, h⟩ := h
  rw [maxProviders_many hl] at hmp
  cases hmp
  have hpos := many_pos (w := w) (n := w.st.delegList.length) ha hm (by cases hx : w.st.delegList with | nil => exact absurd hx hne | cons _ _ => simp)
  intro p hp
  obtain ⟨d, hd, he⟩ := empty_dloop hpos h p hp
  rintro ⟨d', hd', h1, h2⟩
  have : d = d' := by
    have hx : w.st.data.get none p = some d' := hd'
    rw [hd] at hx
    exact Option.some.inj hx
  subst this
  unfold isProviderEligible at he
  rw [h1] at he
  simp only [Bool.not_true, Bool.false_eq_true, if_false] at he
  rcases h2 with h2 | h2
  · rw [if_pos h2] at he; cases he
  · have hnet : netStake w p = d.staked + d.pStake - d.pUnstake := by unfold netStake figure; rw [hd']
    rw [ite_ok] at he
    rcases he with ⟨_, he⟩ | ⟨_, he⟩
    · cases he
    · simp only [bind_ok, totalWithPending_ok, csub_ok, Except.ok.injEq, decide_eq_false_iff_not] at he
      obtain ⟨t, ⟨_, rfl⟩, sp, ⟨_, rfl⟩, hx⟩ := he
      have : oneEgld = MIN_EGLD := rfl
      omega

private theorem spent_providers {w : World} {a tot : Nat} (hl : w.st.undelegList.length < 2 ^ 32) (hm : 1 ≤ w.st.maxSelectedProviders)
    (hf : inForce w.st.maxSelectedProviders ≠ some 0) (ha : MIN_EGLD ≤ a) (hne : w.st.undelegList ≠ [])
    (h : selectUndelegationProviders w.st w.st.undelegList a MIN_EGLD = .ok ([], tot)) :
    ∀ p ∈ w.st.undelegList, netStake w p = 0 := by
  unfold selectUndelegationProviders at h
  simp only [bind_ok, cdiv_ok] at h
  obtain ⟨mp, hmp, x, ⟨_, rfl⟩, y, ⟨_, rfl⟩, z, ⟨_, rfl⟩, h⟩ := h
  rw [maxProviders_many hl] at hmp
  cases hmp
  have hlen : 1 ≤ w.st.undelegList.length := List.length_pos_iff.2 hne
  have hpos := many_pos (w := w) (n := w.st.undelegList.length) ha hm hlen
  have hav : 0 < average w a := average_pos ha hm hlen
  have hli : 0 < asUsize w.st.maxSelectedProviders := by
    by_cases hb : w.st.maxSelectedProviders < 2 ^ 64
    · unfold inForce at hf
      rw [if_pos hb] at hf
      exact Nat.pos_of_ne_zero fun h0 => hf (congrArg some h0)
    · exfalso
      cases hx : w.st.undelegList with
      | nil => exact hne hx
      | cons p l =>
        rw [hx] at h
        simp only [selectUndelegationLoop, bind_ok, unwrap_ok] at h
        obtain ⟨hd, hhd, _⟩ := h
        unfold toU64 at hhd
        rw [if_neg hb] at hhd
        cases hhd
  intro p hp
  obtain ⟨d, hd, h0⟩ := (empty_uloop hpos hav MIN_EGLD_pos hli h).2 p hp
  have hd' : provider w p = some d := hd
  unfold netStake figure
  rw [hd']
  exact h0

/-! ### Parts of transactions -/

private theorem free (w : World) (op : Op) : Free (Tells w op) := ⟨trivial, trivial, trivial, trivial, trivial, trivial⟩

section
variable {P : Err → Prop} (f : Free P)
include f

private theorem owns_pay (w : World) (c : Addr) (v : Nat) : Owns P (payEgld w c v) := .bind (.debit f.fun') fun _ _ => .ok _

private theorem owns_sendEgld (w : World) (c : Addr) (v : Nat) : Owns P (sendEgld w c v) := .bind (.debit f.fun') fun _ _ => .ok _

private theorem owns_sendLs (w : World) (c : Addr) (v : Nat) : Owns P (sendLs w c v) := .bind (.debit f.fun') fun _ _ => .ok _

private theorem owns_sendNft (w : World) (c : Addr) (n v : Nat) : Owns P (sendNft w c n v) := .bind (.debit f.fun') fun _ _ => .ok _

private theorem owns_nftBurn (w : World) (n v : Nat) : Owns P (nftBurn w n v) := .bind (.debit f.fun') fun _ _ => .ok _

private theorem owns_promise (w : World) (x : Flight) (v : Nat) : Owns P (registerPromise w x v) := .bind (.debit f.fun') fun _ _ => .ok _

private theorem owns_attrs (w : World) (n : Nat) : Owns P (nftAttrs w n) := by
  unfold nftAttrs
  refine .ite (fun _ => .error f.dec) fun _ => ?_
  split
  · exact .ok _
  · exact .error f.dec

private theorem owns_payEsdts (c : Addr) : ∀ (ps : List Payment) (w : World), Owns P (payEsdts w c ps)
  | [], _ => .ok _
  | p :: ps, w => by
    unfold payEsdts payEsdt1
    refine .bind (.ite (fun _ => .ite (fun _ => ?_) fun _ => .error f.fun') fun _ => .ite (fun _ => ?_) fun _ => .ok _)
      fun _ _ => owns_payEsdts c ps _
    · exact .bind (.debit f.fun') fun _ _ => .ok _
    · exact .bind (.debit f.fun') fun _ _ => .ok _

private theorem owns_payAny {w : World} {c : Addr} {v : Nat} {ps : List Payment} (h : ps ≠ [] → P .badValue) : Owns P (payAny w c v ps) := by
  unfold payAny
  exact .bind (.req fun hn => h fun hp => hn (.inr hp)) fun _ _ => .bind (owns_pay f _ _ _) fun _ _ => owns_payEsdts f _ _ _

private theorem owns_ls {a : Nat} {c : Cache} (h : lsFor c.r.lsSupply c.r.reserve a = 0 → P .insufficientLiquidity) : Owns P (getLsAmount a c) := by
  unfold getLsAmount
  refine .bind (.ite (fun _ => .cdiv f.div) fun _ => .ok _) fun l hl => .bind (.req fun hn => h ?_) fun _ _ => .ok _
  unfold lsFor
  rw [ite_ok] at hl
  rcases hl with ⟨h1, hl⟩ | ⟨h1, hl⟩
  · obtain ⟨_, rfl⟩ := cdiv_ok.1 hl
    rw [if_neg (by omega)]
    exact Nat.eq_zero_of_not_pos hn
  · cases hl
    rw [if_pos (by omega)]
    omega

private theorem owns_add {a : Nat} {c : Cache} (h : lsFor c.r.lsSupply c.r.reserve a = 0 → P .insufficientLiquidity) : Owns P (poolAdd a c) :=
  .bind (owns_ls f h) fun _ _ => .ok _

private theorem owns_egld {l : Nat} {c : Cache} (h1 : c.r.lsSupply < l → P .notEnoughLp)
    (h2 : egldFor c.r.lsSupply c.r.reserve l = 0 → P .insufficientLiqBurned) : Owns P (getEgldAmount l c) := by
  unfold getEgldAmount
  refine .bind (.req fun h => h1 (by omega)) fun _ _ => .bind (.cdiv f.div) fun e he => .bind (.req fun h => h2 ?_) fun _ _ => .ok _
  obtain ⟨_, rfl⟩ := cdiv_ok.1 he
  exact Nat.eq_zero_of_not_pos h

private theorem owns_mint {w : World} {a : Attrs} {v : Nat} {u e : UInt64} (h : w.st.unstakeToken = none → P .invalidTokenId) :
    Owns P (mintUnstakeTokens w a v u e) := by
  unfold mintUnstakeTokens
  refine .ite (fun _ => .bind (.req fun hn => h (not_not.1 hn)) fun _ _ => .ite (fun _ => .bind ?_ fun _ _ => .ok _) fun _ => .ok _)
    fun _ => .bind (.req fun hn => h (not_not.1 hn)) fun _ _ => .bind ?_ fun _ _ => .ok _
  · unfold cleanOldUnbondEpochs
    exact .bind (owns_attrs f _ _) fun _ _ => .ite (fun _ => owns_nftBurn f _ _ _) fun _ => .ok _
  · unfold nftAddQuantity
    exact .ite (fun _ => .error f.nft) fun _ => .ok _

private theorem owns_wloop {caller : Addr} {uid : TokenId} : ∀ {ps : List Payment} {w : World} {c : Cache} {t : Nat},
    (∀ p ∈ ps, p.token ≠ uid → P .badPaymentToken) → (∀ p ∈ ps, p.amount = 0 → P .badPaymentAmount) →
    (∀ p ∈ ps, ∀ a, maturityOf w p.nonce = some a → w.epoch < a → P .unstakePeriodNotPassed) →
    (c.r.withdrawn < totalPaid ps → P .insufficientUnbondedAmount) → Owns P (withdrawLoop caller uid ps w c t)
  | [], _, _, _, _, _, _, _ => .ok _
  | p :: ps, w, c, t, h1, h2, h3, h4 => by
    unfold withdrawLoop
    refine .bind ?_ fun r hr => ?_
    · unfold withdrawOne
      refine .bind (.req fun h => h1 p (by simp) h) fun _ _ => .bind (.req fun h => h2 p (by simp) (by omega)) fun _ hp => ?_
      have hp := req_ok.1 hp
      refine .bind (owns_attrs f _ _) fun a ha => .bind (.req fun h => ?_) fun _ _ => .ite (fun _ => ?_) fun _ => .ite (fun _ => ?_) fun _ => .error (h4 ?_)
      · refine h3 p (by simp) a.unbondEpoch ?_ (UInt64.not_le.1 h)
        unfold maturityOf
        rw [(nftAttrs_ok.1 ha).2]; rfl
      · exact .bind (owns_nftBurn f _ _ _) fun _ _ => .bind (.csub f.sub) fun _ _ => .ok _
      · exact .bind (owns_nftBurn f _ _ _) fun _ _ => .bind (.csub f.sub) fun _ _ => .bind (owns_sendNft f _ _ _ _) fun _ _ => .ok _
      · unfold totalPaid; omega
    · obtain ⟨w', c', t'⟩ := r
      obtain ⟨_, _, _, _, _, rfl, m, _, hw⟩ := withdrawOne_ok hr
      have hm : ∀ n, maturityOf w' n = maturityOf w n := by
        rcases hw with ⟨_, rfl⟩ | ⟨_, m', _, rfl⟩ <;> exact fun _ => rfl
      have he : w'.epoch = w.epoch := by
        rcases hw with ⟨_, rfl⟩ | ⟨_, m', _, rfl⟩ <;> rfl
      refine owns_wloop (fun q hq => h1 q (by simp [hq])) (fun q hq => h2 q (by simp [hq])) (fun q hq a ha hl => ?_) (fun h => h4 ?_)
      · rw [hm] at ha; rw [he] at hl
        exact h3 q (by simp [hq]) a ha hl
      · dsimp only at h
        unfold totalPaid; omega

private theorem owns_batch {q : Nat} {o : Option Nat} (h : ¬ ValidBatch q o → P .insufficientPendingEgld) : Owns P (batchAmount q o) := by
  have hM : oneEgld = MIN_EGLD := rfl
  unfold ValidBatch batchAsked Whole at h
  rw [hM] at h
  unfold batchAmount
  refine .bind (.req fun hn => h fun hv => by omega) fun _ _ => ?_
  cases o with
  | none => exact .ok _
  | some a =>
    dsimp only [Option.getD] at h ⊢
    refine .bind (.req fun hn => h fun hv => by omega) fun _ _ => .bind (.req fun hn => h fun hv => by omega) fun _ _ => ?_
    refine .bind (.csub f.sub) fun l hl => .bind (.req fun hn => h fun hv => ?_) fun _ _ => .ok _
    obtain ⟨_, rfl⟩ := csub_ok.1 hl
    omega

private theorem owns_sends : ∀ (l : List Selection) (w : World), Owns P (delegateLoop l w)
  | [], _ => .ok _
  | _ :: l, _ => .bind (.updateData f.dec fun _ => .ok _) fun _ _ => .bind (owns_promise f _ _ _) fun _ _ => owns_sends l _

private theorem owns_asks : ∀ (l : List Selection) (w : World), Owns P (undelegateLoop l w)
  | [], _ => .ok _
  | _ :: l, _ => .bind (.updateData f.dec fun _ => .ok _) fun _ _ => .bind (owns_promise f _ _ _) fun _ _ => owns_asks l _

private theorem owns_migration {w : World} {c : Addr} (h1 : w.st.migrationSc = some 0 → P .migrationScNotSet)
    (h2 : ¬ Migrator w c → P .migrationNotAllowed) : Owns P (requireMigration w c) := by
  unfold requireMigration
  split
  · exact .error f.dec
  · next m hm =>
    refine .bind (.req fun h => h1 (by rw [hm, not_not.1 h])) fun _ _ => .bind (.req fun h => h2 fun hg => ?_) fun _ _ => .req fun h => h2 fun hg => h hg.2.2.2
    have := hg.2.1
    rw [hm] at this
    exact h (Option.some.inj this).symm

end

/-! ### Transactions -/

private theorem reason_parts {q v i u : Nat} (h : getActionAmount q v = .ok (i, u)) :
    i + u = v ∧ (0 < i → MIN_EGLD ≤ q - i ∨ q - i = 0) ∧ (0 < i → 0 < u → MIN_EGLD ≤ u) := by
  rw [getActionAmount_eq] at h
  have hM := MIN_EGLD_pos
  generalize MIN_EGLD = M at *
  simp only [Except.ok.injEq] at h
  split at h
  · simp only [Prod.mk.injEq] at h; omega
  split at h
  · simp only [Prod.mk.injEq] at h; omega
  split at h <;> simp only [Prod.mk.injEq] at h <;> omega

private theorem self_of {w : World} {op : Op} {c : Addr} (hs : senderOf op = some c) (h : ¬ c ≠ w.self) : Tells w op .callerIsSelf :=
  ⟨c, not_not.1 h, .inl hs⟩

private theorem manager_of {w : World} {op : Op} {c : Addr} (hs : senderOf op = some c) (h : ¬ isManager w c = true) : Tells w op .notManager := by
  unfold isManager at h
  simp only [Bool.or_eq_true, List.contains_iff_mem, beq_iff_eq, not_or] at h
  exact ⟨c, hs, h.1, h.2⟩

private theorem tells_delegate (w : World) (c : Addr) (v : Nat) : Owns (Tells w (.delegate c v)) (delegate w c v) := by
  have f := free w (.delegate c v)
  unfold delegate
  refine .bind (.req fun h => self_of rfl h) fun _ _ => .bind (owns_pay f _ _ _) fun w0 h0 => ?_
  obtain ⟨m, hm, rfl⟩ := payEgld_ok.1 h0
  refine .bind (.cacheNew fun h => .inl h) fun cc hc => ?_
  obtain ⟨t, ht, rfl⟩ := cacheNew_ok.1 hc
  refine .bind (.req fun h => h) fun _ _ => .bind (.req fun h => Nat.eq_zero_of_not_pos h) fun _ _ => ?_
  refine .bind (by rw [getActionAmount_eq]; exact .ok _) fun r hr => ?_
  obtain ⟨p, u⟩ := r
  obtain ⟨hv, h1, h2⟩ := reason_parts hr
  refine .bind ?_ fun _ _ => .ok _
  unfold processDelegation
  refine .bind (.ite (fun hp => ?_) fun _ => .ok _) fun c1 hc1 => ?_
  · unfold decreasePending
    refine .bind (.csub f.sub) fun x hx => .bind (.req fun hn => ?_) fun _ _ => .ok _
    obtain ⟨_, rfl⟩ := csub_ok.1 hx
    exact absurd (h1 hp) hn
  have e1 : c1.r.pending = w.st.r.pending ∧ c1.r.lsSupply = w.st.r.lsSupply ∧ c1.r.reserve = w.st.r.reserve := by
    rw [ite_ok] at hc1
    rcases hc1 with ⟨_, hc1⟩ | ⟨_, hc1⟩
    · unfold decreasePending at hc1
      simp only [bind_ok, Except.ok.injEq] at hc1
      obtain ⟨_, _, _, _, rfl⟩ := hc1
      exact ⟨rfl, rfl, rfl⟩
    · cases hc1; exact ⟨rfl, rfl, rfl⟩
  refine .bind (.ite (fun hu => ?_) fun _ => .ok _) fun c2 hc2 => ?_
  · unfold increasePending
    refine .bind (.req fun hn => ?_) fun _ _ => .ok _
    show w.st.r.pending + v < MIN_EGLD
    dsimp only at hn
    rw [e1.1] at hn
    have : p = 0 := by
      by_contra h0
      have := h2 (Nat.pos_of_ne_zero h0) hu
      omega
    omega
  have e2 : c2.r.lsSupply = w.st.r.lsSupply ∧ c2.r.reserve = w.st.r.reserve := by
    rw [ite_ok] at hc2
    rcases hc2 with ⟨_, hc2⟩ | ⟨_, hc2⟩
    · unfold increasePending at hc2
      simp only [bind_ok, Except.ok.injEq] at hc2
      obtain ⟨_, _, rfl⟩ := hc2
      exact e1.2
    · cases hc2; exact e1.2
  refine .ite (fun _ => ?_) fun _ => .ok _
  refine .bind (owns_add f fun h => ?_) fun _ _ => .bind (owns_sendLs f _ _ _) fun _ _ => .ok _
  show lsFor w.st.r.lsSupply w.st.r.reserve v = 0
  rw [e2.1, e2.2] at h
  have hsum : (if 0 < u then (if 0 < p then p else 0) + u else if 0 < p then p else 0) = v := by
    split <;> split <;> omega
  rwa [hsum] at h

private theorem tells_unDelegate (w : World) (c : Addr) (v : Nat) (ps : List Payment) :
    Owns (Tells w (.unDelegate c v ps)) (unDelegate w c v ps) := by
  have f := free w (.unDelegate c v ps)
  unfold unDelegate
  refine .bind (.req fun h => self_of rfl h) fun _ _ => .bind (owns_payAny f fun h => h) fun w0 h0 => ?_
  have hst : w0.st = w.st := by
    unfold payAny at h0
    simp only [bind_ok] at h0
    obtain ⟨_, _, w1, h1, h2⟩ := h0
    obtain ⟨m, _, rfl⟩ := payEgld_ok.1 h1
    have := payEsdts_st h2
    exact this
  rw [hst]
  refine .bind (.cacheNew fun h => .inl h) fun cc hc => ?_
  obtain ⟨t, ht, rfl⟩ := cacheNew_ok.1 hc
  match ps, f with
  | [], _ => exact .error (show (0 : Nat) ≠ 1 by decide)
  | _ :: _ :: qs, _ => exact .error (show qs.length + 1 + 1 ≠ 1 by omega)
  | [p], f =>
    dsimp only
    have hmem : p ∈ [p] := by simp
    refine .bind (.req fun h => h) fun _ _ => .bind (.req fun h => ⟨p, hmem, ?_⟩) fun _ _ => ?_
    · rw [ht]; exact fun hx => h (Option.some.inj hx).symm
    refine .bind (.req fun h => ⟨p, hmem, Nat.eq_zero_of_not_pos h⟩) fun _ _ => ?_
    refine .bind ?_ fun r hr => ?_
    · unfold poolRemove
      refine .bind (owns_egld f (fun h => ⟨p, hmem, h⟩) (fun h => ⟨p, hmem, h⟩)) fun _ _ => ?_
      exact .bind (.csub f.sub) fun _ _ => .bind (.csub f.sub) fun _ _ => .ok _
    obtain ⟨e, c1⟩ := r
    have he : e = egldFor (supply w) (reserve w) p.amount ∧ c1.r.toUnstake = w.st.r.toUnstake ∧ c1.r.pending = w.st.r.pending := by
      unfold poolRemove getEgldAmount at hr
      simp only [bind_ok, cdiv_ok, Except.ok.injEq, Prod.mk.injEq] at hr
      obtain ⟨_, ⟨_, _, _, ⟨_, rfl⟩, _, _, rfl⟩, _, _, _, _, rfl, rfl⟩ := hr
      exact ⟨rfl, rfl, rfl⟩
    refine .bind (.bind (.debit f.fun') fun _ _ => .ok _) fun w1 hw1 => ?_
    have hst1 : w1.st = w.st := by
      unfold burnLs at hw1
      simp only [bind_ok, Except.ok.injEq] at hw1
      obtain ⟨_, _, rfl⟩ := hw1
      exact hst
    refine .bind (by rw [getActionAmount_eq]; exact .ok _) fun r hr => ?_
    obtain ⟨i, u⟩ := r
    obtain ⟨hv, h1, h2⟩ := reason_parts hr
    refine .bind ?_ fun _ _ => .ok _
    unfold processUnDelegation
    refine .bind ?_ fun r hr => .bind ?_ fun _ _ => .ok _
    · unfold instantRedemption
      refine .ite (fun hi => ?_) fun _ => .ok _
      refine .bind (.csub f.sub) fun x hx => .bind (.req fun hn => ?_) fun _ _ => .bind (owns_sendEgld f _ _ _) fun _ _ => .ok _
      obtain ⟨_, rfl⟩ := csub_ok.1 hx
      exact absurd (h1 hi) hn
    · obtain ⟨w2, c2⟩ := r
      have h3 : w2.st = w.st ∧ c2.r.toUnstake = w.st.r.toUnstake := by
        unfold instantRedemption at hr
        rw [ite_ok] at hr
        rcases hr with ⟨_, hr⟩ | ⟨_, hr⟩
        · simp only [bind_ok, sendEgld_ok, Except.ok.injEq, Prod.mk.injEq] at hr
          obtain ⟨_, _, _, _, _, ⟨_, _, rfl⟩, rfl, rfl⟩ := hr
          exact ⟨hst1, he.2.1⟩
        · simp only [Except.ok.injEq, Prod.mk.injEq] at hr
          obtain ⟨rfl, rfl⟩ := hr
          exact ⟨hst1, he.2.1⟩
      unfold undelegateAmount
      refine .ite (fun hu => ?_) fun _ => .ok _
      refine .bind (.req fun hn => ⟨p, hmem, ?_⟩) fun _ _ => .bind (owns_mint f fun h => .inr ?_) fun _ _ => .bind (owns_sendNft f _ _ _ _) fun _ _ => .ok _
      · dsimp only at hn
        rw [h3.2] at hn
        show w.st.r.toUnstake + egldFor (supply w) (reserve w) p.amount < MIN_EGLD
        rw [← he.1]
        have : i = 0 := by
          by_contra h0
          have := h2 (Nat.pos_of_ne_zero h0) hu
          omega
        omega
      · rw [← h3.1]; exact h

private theorem payEsdts_keeps {caller : Addr} : ∀ {ps : List Payment} {w1 w2 : World},
    payEsdts w1 caller ps = .ok w2 → w2.st = w1.st ∧ w2.attrs = w1.attrs ∧ w2.epoch = w1.epoch
  | [], w1, w2, h => by cases h; exact ⟨rfl, rfl, rfl⟩
  | p :: ps, w1, w2, h => by
    simp only [payEsdts, bind_ok] at h
    obtain ⟨w3, h3, h4⟩ := h
    obtain ⟨e1, e2, e3⟩ := payEsdts_keeps h4
    have k : w3.st = w1.st ∧ w3.attrs = w1.attrs ∧ w3.epoch = w1.epoch := by
      unfold payEsdt1 at h3
      split at h3
      · split at h3
        · simp only [bind_ok, Except.ok.injEq] at h3; obtain ⟨_, _, rfl⟩ := h3; exact ⟨rfl, rfl, rfl⟩
        · simp at h3
      · split at h3
        · simp only [bind_ok, Except.ok.injEq] at h3; obtain ⟨_, _, rfl⟩ := h3; exact ⟨rfl, rfl, rfl⟩
        · cases h3; exact ⟨rfl, rfl, rfl⟩
    exact ⟨e1.trans k.1, e2.trans k.2.1, e3.trans k.2.2⟩

private theorem tells_withdraw (w : World) (c : Addr) (v : Nat) (ps : List Payment) :
    Owns (Tells w (.withdraw c v ps)) (withdraw w c v ps) := by
  have f := free w (.withdraw c v ps)
  unfold withdraw
  refine .bind (.req fun h => self_of rfl h) fun _ _ => .bind (owns_payAny f fun h => h) fun w0 h0 => ?_
  have hst : w0.st = w.st ∧ w0.attrs = w.attrs ∧ w0.epoch = w.epoch := by
    unfold payAny at h0
    simp only [bind_ok] at h0
    obtain ⟨_, _, w1, h1, h2⟩ := h0
    obtain ⟨m, _, rfl⟩ := payEgld_ok.1 h1
    have := payEsdts_keeps h2
    exact this
  refine .bind (.cacheNew fun h => .inl (by rw [← hst.1]; exact h)) fun cc hc => ?_
  obtain ⟨t, ht, rfl⟩ := cacheNew_ok.1 hc
  refine .bind (.req fun h => by rw [hst.1] at h; exact h) fun _ _ => ?_
  split
  · next hn => exact .error (.inr (by rw [← hst.1]; exact hn))
  · next uid hu =>
    rw [hst.1] at hu
    refine .bind (owns_wloop f (fun p hp h => ⟨p, hp, ?_⟩) (fun p hp h => ⟨p, hp, h⟩) (fun p hp a ha hl => ⟨p, hp, a, ?_, ?_⟩) fun h => ?_)
      fun _ _ => .bind (owns_sendEgld f _ _ _) fun _ _ => .ok _
    · rw [hu]; exact fun hx => h (Option.some.inj hx).symm
    · unfold maturityOf at ha ⊢; rw [← hst.2.1]; exact ha
    · rw [← hst.2.2]; exact hl
    · dsimp only at h; rw [hst.1] at h; exact h

private theorem tells_delegatePending {w : World} (hr : Reachable w) (hl : w.st.delegList.length < 2 ^ 32) (c : Addr) (o : Option Nat) :
    Owns (Tells w (.delegatePending c o)) (delegatePending w c o) := by
  have f := free w (.delegatePending c o)
  unfold delegatePending
  refine .bind (.req fun h => self_of rfl h) fun _ _ => .bind (.cacheNew fun h => .inl h) fun cc hc => ?_
  obtain ⟨t, ht, rfl⟩ := cacheNew_ok.1 hc
  refine .bind (.req fun h => h) fun _ _ => .bind (.req fun h => manager_of rfl h) fun _ _ => ?_
  refine .bind (owns_batch f fun h => h) fun amt hamt => ?_
  have ha : MIN_EGLD ≤ amt := (batchAmount_ok hamt).2.1
  refine .bind (owns_select f (fun h => h) (fun h => h) (fun _ tot h1 h2 => ?_) (fun h => by cases h)) fun _ _ => ?_
  · exact full_providers hl (reachable_limits hr).1 ha h1 h2
  · exact .bind (.csub f.sub) fun _ _ => .bind (owns_sends f _ _) fun _ _ => .ok _

private theorem tells_unDelegatePending {w : World} (hr : Reachable w) (hl : w.st.delegList.length < 2 ^ 32)
    (hf : inForce w.st.maxSelectedProviders ≠ some 0) (c : Addr) (o : Option Nat) :
    Owns (Tells w (.unDelegatePending c o)) (unDelegatePending w c o) := by
  have f := free w (.unDelegatePending c o)
  have hR : RegOk w.st.lsToken w.st.unstakeToken w.st.delegList w.st.undelegList w.st.data w.flights w.dead := reachable_regInv hr
  have hp := (List.perm_ext_iff_of_nodup hR.nd1 hR.nd2).2 hR.same
  unfold unDelegatePending
  refine .bind (.req fun h => self_of rfl h) fun _ _ => .bind (.cacheNew fun h => .inl h) fun cc hc => ?_
  obtain ⟨t, ht, rfl⟩ := cacheNew_ok.1 hc
  refine .bind (.req fun h => h) fun _ _ => .bind (.req fun h => manager_of rfl h) fun _ _ => ?_
  refine .bind (owns_batch f fun h => h) fun amt hamt => ?_
  have ha : MIN_EGLD ≤ amt := (batchAmount_ok hamt).2.1
  refine .bind (owns_select f (fun h => ?_) (fun h => h) (fun h => by cases h) (fun _ tot h1 h2 => ?_)) fun _ _ => ?_
  · have hu : w.st.undelegList = [] := h
    rw [hu] at hp
    exact hp.eq_nil
  · exact spent_providers (by rw [← hp.length_eq]; exact hl) (reachable_limits hr).1 hf ha h1 h2
  · exact .bind (.csub f.sub) fun _ _ => .bind (owns_asks f _ _) fun _ _ => .ok _

private theorem tells_whitelist (w : World) (c : Addr) (v : Nat) (p ad : Addr) (ts cap : Nat) (n apy : UInt64) :
    Owns (Tells w (.whitelist c v p ad ts cap n apy)) (whitelist w c v p ad ts cap n apy) := by
  have f := free w (.whitelist c v p ad ts cap n apy)
  unfold whitelist
  refine .bind (.req fun h => self_of rfl h) fun _ _ => .bind (owns_pay f _ _ _) fun w0 h0 => ?_
  obtain ⟨m, hm, rfl⟩ := payEgld_ok.1 h0
  refine .bind (.req fun h => Nat.le_of_lt (Nat.lt_of_not_le h)) fun _ _ => .bind (.req fun h => Nat.le_of_lt (Nat.lt_of_not_le h)) fun _ _ => ?_
  refine .bind (.req fun h => manager_of rfl h) fun _ _ => .bind (.req fun h => h) fun _ _ => ?_
  refine .bind (.req fun h => ?_) fun _ _ => .bind (.req fun h => Nat.lt_of_not_le h) fun _ _ => owns_promise f _ _ _
  show cap ≠ 0 ∧ cap < ts
  omega

private theorem tells_changeParams (w : World) (c p : Addr) (ts cap : Nat) (n apy : UInt64) (e : Bool) :
    Owns (Tells w (.changeParams c p ts cap n apy e)) (changeParams w c p ts cap n apy e) := by
  have f := free w (.changeParams c p ts cap n apy e)
  unfold changeParams
  refine .bind (.req fun h => self_of rfl h) fun _ _ => .bind (.getData f.dec) fun d hd => ?_
  refine .bind (.req fun h => not_not.1 h) fun _ _ => .bind (.req fun h => ?_) fun _ _ => .bind (.req fun h => ?_) fun _ _ => ?_
  · rw [not_or] at h
    have h2 := h.2
    unfold isManager at h2
    simp only [Bool.or_eq_true, List.contains_iff_mem, beq_iff_eq, not_or] at h2
    refine ⟨h2.1, h2.2, fun d' hd' => ?_⟩
    rw [getData_ok] at hd
    have hx : w.st.data.get none p = some d' := hd'
    rw [hd] at hx
    rw [← Option.some.inj hx]
    exact h.1
  · show cap ≠ 0 ∧ cap < ts
    omega
  · exact .updateData f.dec fun _ => .ok _

private theorem tells_migrate (w : World) (c : Addr) (v : Nat) (o : Addr) : Owns (Tells w (.migrate c v o)) (migrate w c v o) := by
  have f := free w (.migrate c v o)
  unfold migrate
  refine .bind (.req fun h => self_of rfl h) fun _ _ => .bind (.cacheNew fun h => .inl h) fun cc hc => ?_
  obtain ⟨t, ht, rfl⟩ := cacheNew_ok.1 hc
  refine .bind (owns_migration f (fun h => .inr h) fun h => h) fun _ _ => .bind (owns_add f fun h => h) fun _ _ => ?_
  exact .bind (owns_sendLs f _ _ _) fun _ _ => .ok _

private theorem tells_migratePending (w : World) (c : Addr) (v : Nat) : Owns (Tells w (.migratePending c v)) (migratePending w c v) := by
  have f := free w (.migratePending c v)
  unfold migratePending
  refine .bind (.req fun h => self_of rfl h) fun _ _ => .bind (owns_pay f _ _ _) fun w0 h0 => ?_
  obtain ⟨m, hm, rfl⟩ := payEgld_ok.1 h0
  refine .bind (.cacheNew fun h => .inl h) fun cc hc => ?_
  exact .bind (owns_migration f (fun h => .inr h) fun h => h) fun _ _ => .ok _

private theorem tells_owner (w : World) (c : Addr) (cmd : OwnerCmd) (h1 : cmd ≠ .maxSelected 0) (h2 : cmd ≠ .maxAddresses 0) :
    Owns (Tells w (.owner c cmd)) (ownerCmd w c cmd) := by
  unfold ownerCmd
  refine .bind (.req fun h => self_of rfl h) fun _ _ => .bind (.req fun h => ⟨c, rfl, h⟩) fun _ _ => .bind ?_ fun _ _ => .ok _
  cases cmd with
  | maxAddresses v => exact .bind (.req fun h => absurd (congrArg OwnerCmd.maxAddresses (by omega : v = 0)) h2) fun _ _ => .ok _
  | maxSelected v => exact .bind (.req fun h => absurd (congrArg OwnerCmd.maxSelected (by omega : v = 0)) h1) fun _ _ => .ok _
  | _ => exact .ok _

private theorem tells_scoring (w : World) (c : Addr) (g : ScoringConfig) : Owns (Tells w (.setScoringConfig c g)) (setScoringConfig w c g) := by
  unfold setScoringConfig
  refine .bind (.req fun h => self_of rfl h) fun _ _ => .bind (.req fun h => manager_of rfl h) fun _ _ => .bind (.req fun h hs => h ?_) fun _ _ => .ok _
  apply UInt64.toNat.inj
  rw [UInt64.toNat_add, UInt64.toNat_add]
  show ((g.stakeWeight.toNat + g.apyWeight.toNat) % 2 ^ 64 + g.nodesWeight.toNat) % 2 ^ 64 = 100
  omega

private theorem tells_issued (w : World) (i : Nat) (o : Option TokenId) : Owns (Tells w (.issued i o)) (issued w i o) := by
  have f := free w (.issued i o)
  unfold issued
  split
  · exact .error trivial
  · next x hx =>
    refine .bind (.req fun h => ?_) fun _ _ => ?_
    · rw [not_or] at h
      have h2 := (not_not.1 h.2).symm
      show o = w.st.lsToken ∨ o = w.st.unstakeToken
      cases hk : x.kind with
      | ls => rw [hk] at h2; exact .inr h2
      | unstake => rw [hk] at h2; exact .inl h2
    · cases o with
      | some id => exact .ok _
      | none => exact .bind (owns_sendEgld f _ _ _) fun _ _ => .ok _

private theorem tells {w : World} (hr : Reachable w) (hl : w.st.delegList.length < 2 ^ 32) (hf : inForce w.st.maxSelectedProviders ≠ some 0)
    (op : Op) (h0 : ∀ c, op ≠ .owner c (.maxSelected 0) ∧ op ≠ .owner c (.maxAddresses 0)) : Owns (Tells w op) (step w op) := by
  have f := free w op
  cases op with
  | delegate c v => exact tells_delegate w c v
  | unDelegate c v ps => exact tells_unDelegate w c v ps
  | withdraw c v ps => exact tells_withdraw w c v ps
  | upgrade => exact .ok _
  | delegatePending c o => exact tells_delegatePending hr hl c o
  | unDelegatePending c o => exact tells_unDelegatePending hr hl hf c o
  | withdrawPending c p =>
    refine .bind (.req fun h => self_of rfl h) fun _ _ => .bind (.cacheNew fun h => .inl h) fun cc hc => ?_
    obtain ⟨t, ht, rfl⟩ := cacheNew_ok.1 hc
    refine .bind (.req fun h => manager_of rfl h) fun _ _ => .bind (.req fun h => h) fun _ _ => ?_
    exact .bind (.req fun h => not_not.1 h) fun _ _ => .bind (owns_promise f _ _ _) fun _ _ => .ok _
  | claimRewards c =>
    refine .bind (.req fun h => self_of rfl h) fun _ _ => .bind (.cacheNew fun h => .inl h) fun cc hc => ?_
    obtain ⟨t, ht, rfl⟩ := cacheNew_ok.1 hc
    refine .bind (.req fun h => manager_of rfl h) fun _ _ => .bind (.req fun h => h) fun _ _ => ?_
    exact .bind (.req fun h => not_not.1 h) fun _ _ => .bind (owns_promise f _ _ _) fun _ _ => .ok _
  | claimFees c b =>
    refine .bind (.req fun h => self_of rfl h) fun _ _ => .bind (.cacheNew fun h => .inl h) fun cc hc => ?_
    obtain ⟨t, ht, rfl⟩ := cacheNew_ok.1 hc
    refine .bind (.req fun h => Nat.eq_zero_of_not_pos h) fun _ _ => .bind (.req fun h => ⟨c, b, rfl, .inr (not_not.1 h)⟩) fun _ _ => ?_
    refine .bind (owns_sendEgld f _ _ _) fun _ _ => .bind (.ite (fun _ => .ok _) fun h => .error ⟨c, b, rfl, .inl ?_⟩) fun _ _ => .ok _
    exact Bool.not_eq_true _ ▸ h
  | whitelist c v p ad ts cap n apy => exact tells_whitelist w c v p ad ts cap n apy
  | changeAdmin c p a =>
    refine .bind (.req fun h => self_of rfl h) fun _ _ => .bind (.req fun h => not_not.1 h) fun _ _ => ?_
    exact .bind (.req fun h => manager_of rfl h) fun _ _ => .updateData f.dec fun _ => .ok _
  | changeParams c p ts cap n apy e => exact tells_changeParams w c p ts cap n apy e
  | migrate c v o => exact tells_migrate w c v o
  | migratePending c v => exact tells_migratePending w c v
  | addRewards c v =>
    refine .bind (.req fun h => self_of rfl h) fun _ _ => .bind (owns_pay f _ _ _) fun w0 h1 => ?_
    obtain ⟨m, hm, rfl⟩ := payEgld_ok.1 h1
    exact .bind (.cacheNew fun h => .inl h) fun _ _ => .ok _
  | setMigrationSc c a =>
    refine .bind (.req fun h => self_of rfl h) fun _ _ => .bind (.req fun h => ⟨c, rfl, h⟩) fun _ _ => ?_
    exact .bind (.req fun h => h) fun _ _ => .ok _
  | registerLsToken c v =>
    refine .bind (.req fun h => self_of rfl h) fun _ _ => .bind (.debit f.fun') fun _ _ => .bind (.req fun h => ⟨c, rfl, h⟩) fun _ _ => ?_
    refine .bind (.req fun h => ?_) fun _ _ => .ok _
    rw [not_and_or] at h
    exact h.imp id fun h => by simpa using h
  | registerUnstakeToken c v =>
    refine .bind (.req fun h => self_of rfl h) fun _ _ => .bind (.debit f.fun') fun _ _ => .bind (.req fun h => ⟨c, rfl, h⟩) fun _ _ => ?_
    refine .bind (.req fun h => ?_) fun _ _ => .ok _
    rw [not_and_or] at h
    exact h.imp id fun h => by simpa using h
  | owner c cmd => exact tells_owner w c cmd (fun h => (h0 c).1 (by rw [h])) (fun h => (h0 c).2 (by rw [h]))
  | setScoringConfig c g => exact tells_scoring w c g
  | viewLsValue l =>
    refine .bind (.bind (.cacheNew fun h => .inl h) fun cc hc => ?_) fun _ _ => .ok _
    obtain ⟨t, ht, rfl⟩ := cacheNew_ok.1 hc
    exact .bind (owns_egld f (fun h => h) fun h => h) fun _ _ => .ok _
  | viewEgldPosition v =>
    refine .bind (.bind (.cacheNew fun h => .inl h) fun cc hc => ?_) fun _ _ => .ok _
    obtain ⟨t, ht, rfl⟩ := cacheNew_ok.1 hc
    exact .bind (owns_ls f fun h => h) fun _ _ => .ok _
  | deliver i o =>
    show Owns _ (deliver w i o)
    unfold deliver
    split
    · exact .error trivial
    · split <;> exact .ok _
  | issued i o => exact tells_issued w i o
  | transferLs s d v =>
    refine .bind (.req fun h => self_of rfl h) fun _ _ => .bind (.req fun h => ⟨d, not_not.1 h, .inr ⟨s, .inl ⟨v, .inl rfl⟩⟩⟩) fun _ _ => ?_
    exact .bind (.debit f.fun') fun _ _ => .ok _
  | transferNft s d n v =>
    refine .bind (.req fun h => self_of rfl h) fun _ _ => .bind (.req fun h => ⟨d, not_not.1 h, .inr ⟨s, .inr (.inl ⟨n, v, rfl⟩)⟩⟩) fun _ _ => ?_
    exact .bind (.debit f.fun') fun _ _ => .ok _
  | fund a v => exact .bind (.req fun h => ⟨a, not_not.1 h, .inr ⟨a, .inr (.inr ⟨v, rfl⟩)⟩⟩) fun _ _ => .ok _
  | advance e => exact .bind (.req fun _ => trivial) fun _ _ => .ok _
  | changeOwner c d => exact .bind (.req fun h => self_of rfl h) fun _ _ => .bind (.req fun h => ⟨c, rfl, h⟩) fun _ _ => .ok _
  | burnLs a v => exact .bind (.req fun h => self_of rfl h) fun _ _ => .bind (.debit f.fun') fun _ _ => .ok _
  | burnUnstake a n v => exact .bind (.req fun h => self_of rfl h) fun _ _ => .bind (.debit f.fun') fun _ _ => .ok _
  | starve i o =>
    show Owns _ (starve w i o)
    unfold starve
    split
    · exact .error trivial
    · exact .ok _
  | transferEgld s d v =>
    refine .bind (.req fun h => self_of rfl h) fun _ _ => .bind (.req fun h => ⟨d, not_not.1 h, .inr ⟨s, .inl ⟨v, .inr rfl⟩⟩⟩) fun _ _ => ?_
    exact .bind (.debit f.fun') fun _ _ => .ok _
  | giveEgld s v =>
    exact .bind (.req fun h => self_of rfl h) fun _ _ => .bind (.req fun h => ⟨s, rfl, h⟩) fun _ _ => .bind (.debit f.fun') fun _ _ => .ok _
  | giveLs s v =>
    exact .bind (.req fun h => self_of rfl h) fun _ _ => .bind (.req fun h => ⟨s, rfl, h⟩) fun _ _ => .bind (.debit f.fun') fun _ _ => .ok _
  | giveUnstake s n v =>
    exact .bind (.req fun h => self_of rfl h) fun _ _ => .bind (.req fun h => ⟨s, rfl, h⟩) fun _ _ => .bind (.debit f.fun') fun _ _ => .ok _

/-! ### The property -/

/-- **C104, what does hold.**  The full claim ("the message of a refusal tells why": `Tells w op e` for every refusal) is refuted by
`C104_false`.  True is: it does unless the owner sets one of the two limits to zero, where the messages are exchanged, or the limit on the
providers of a batch is one of which the machine keeps 0.  That there are fewer than 2^32 providers is needed for the same reason: their
number is cut to 32 bits as well. -/
theorem C104_partial {w : World} {op : Op} {e : Err} (hr : Reachable w) (hl : w.st.delegList.length < 2 ^ 32)
    (hf : inForce w.st.maxSelectedProviders ≠ some 0)
    (h0 : ∀ c, op ≠ .owner c (.maxSelected 0) ∧ op ≠ .owner c (.maxAddresses 0)) (h : step w op = .error e) : Tells w op e :=
  tells hr hl hf op h0 e h

/-- Refusals of several kinds: a stranger who manages, a deposit that leaves dust, a withdrawal before its time. -/
example : step settled (.delegatePending 11 none) = .error .notManager ∧ step settled (.delegate 11 1) = .error .insufficientPendingEgld ∧
    step redeemed (.withdraw 11 0 [⟨501, 1, 1⟩]) = .error .unstakePeriodNotPassed ∧ settled.st.delegList.length < 2 ^ 32 ∧
    inForce settled.st.maxSelectedProviders ≠ some 0 :=
  ⟨by decide +kernel, by decide +kernel, by decide +kernel, by decide +kernel, by decide +kernel⟩

/-- What C104 says of them: the deposit and the EGLD pending make less than one EGLD; the token matures later. -/
example : pendingEgld settled + 1 < oneEgld ∧ ∃ p ∈ [(⟨501, 1, 1⟩ : Payment)], ∃ t, maturityOf redeemed p.nonce = some t ∧ redeemed.epoch < t :=
  ⟨C104_partial (op := .delegate 11 1) (e := .insufficientPendingEgld) settled_reachable (by decide +kernel) (by decide +kernel) (fun _ => ⟨by simp, by simp⟩) (by decide +kernel),
    C104_partial (op := .withdraw 11 0 [⟨501, 1, 1⟩]) (e := .unstakePeriodNotPassed) redeemed_reachable (by decide +kernel) (by decide +kernel) (fun _ => ⟨by simp, by simp⟩)
      (by decide +kernel)⟩

/-- **C104 is false of the code**, in three ways.  The owner who sets the limit on the providers of a batch to zero is told that the limit on
whitelisted providers must be positive, and the other way round.  A manager is told that no provider is available although one has stake. -/
theorem C104_false :
    (∃ w c, Reachable w ∧ step w (.owner c (.maxSelected 0)) = .error .maxChangedDelegationAddresses ∧
      ¬ Tells w (.owner c (.maxSelected 0)) .maxChangedDelegationAddresses) ∧
    (∃ w c, Reachable w ∧ step w (.owner c (.maxAddresses 0)) = .error .maxSelectedProviders ∧
      ¬ Tells w (.owner c (.maxAddresses 0)) .maxSelectedProviders) ∧
    ∃ w c o, Reachable w ∧ step w (.unDelegatePending c o) = .error .badDelegationAddress ∧
      ¬ Tells w (.unDelegatePending c o) .badDelegationAddress := by
  refine ⟨⟨settled, 1, settled_reachable, by decide +kernel, ?_⟩, ⟨settled, 1, settled_reachable, by decide +kernel, ?_⟩,
    run redeemed [.owner 1 (.maxSelected 4294967296)], 1, none, reachable_run redeemed_reachable _, by decide +kernel, fun h => ?_⟩
  · rintro ⟨c, hc⟩; simp at hc
  · rintro ⟨c, hc⟩; simp at hc
  · have h1 : (21 : Addr) ∈ (run redeemed [.owner 1 (.maxSelected 4294967296)]).st.undelegList := by decide +kernel
    have h2 : ¬ netStake (run redeemed [.owner 1 (.maxSelected 4294967296)]) 21 = 0 := by decide +kernel
    exact h2 (h 21 h1)

/-- A provider that is not whitelisted: the endpoint that changes its administrator says so, the one that changes its parameters fails
without a message of the contract, whoever calls it. -/
theorem C104_silent {w : World} {c p a : Addr} {ts cap : Nat} {n apy : UInt64} {el : Bool} (hc : c ≠ w.self) (h : provider w p = none) :
    step w (.changeAdmin c p a) = .error .notWhitelisted ∧ step w (.changeParams c p ts cap n apy el) = .error .decode ∧ text .decode = none := by
  have hp : w.st.data.get none p = none := h
  refine ⟨?_, ?_, rfl⟩
  · show changeAdmin w c p a = _
    unfold changeAdmin requireUser
    simp [req, hc, hp, bind, Except.bind]
  · show changeParams w c p ts cap n apy el = _
    unfold changeParams requireUser getData
    simp [req, hc, hp, bind, Except.bind]

example : provider settled 99 = none ∧ (11 : Addr) ≠ settled.self := ⟨by decide +kernel, by decide +kernel⟩

private def allTexts : List Err := [.notActive, .lsTokenNotIssued, .unstakePeriodNotPassed, .badPaymentToken, .badPaymentAmount,
  .insufficientPendingEgld, .insufficientUnstakePendingEgld, .insufficientUnbondedAmount, .insufficientLiquidity, .insufficientLiqBurned,
  .notEnoughLp, .badDelegationAddress, .noDelegationContracts, .alreadyWhitelisted, .notWhitelisted, .delegationCap, .onlyDelegationAdmin,
  .maxDelegationAddresses, .maxUnDelegationAddresses, .maxSelectedProviders, .maxChangedDelegationAddresses, .minEgldToDelegate,
  .migrationScNotSet, .migrationNotAllowed, .notManager, .scoringConfigNotSet, .weightsMustSumTo100, .insufficientFeesReserve]

private theorem text_found {e : Err} {t : String} (h : text e = some t) : allTexts.find? (fun e => text e == some t) = some e := by
  cases e <;> first | (cases h; done) | (cases h; decide +kernel)

/-- **C104.** No two reasons have the same message. -/
theorem C104_texts {e e' : Err} {t : String} (h : text e = some t) (h' : text e' = some t) : e = e' := by
  have h1 := text_found h
  rw [text_found h'] at h1
  exact (Option.some.inj h1).symm

example : text .notEnoughLp = some "Not enough LP token supply" := rfl

end LS
