import Verif.Proofs.RenameStep

/-! Every transaction with other names. -/

namespace LS
open Spec

section
variable {f : Addr → Addr} (hf : ∀ a b, f a = f b → a = b)
include hf

theorem ren_contract (w : World) (a : Addr) (e : Err) : req (a ∈ w.contracts) e = req (f a ∈ (renWorld f w).contracts) e :=
  ren_req hf (ren_mem hf _ _).symm _

theorem ren_delegate (w : World) (a : Addr) (x : Nat) : Alike (Ren f) (delegate w a x) (delegate (renWorld f w) (f a) x) := by
  refine Alike.read (ren_user hf w a) fun _ => (ren_payEgld hf w a x).bind fun p q hq => ?_
  subst hq
  refine Alike.read rfl fun c => Alike.read rfl fun _ => Alike.read rfl fun _ => Alike.read rfl fun y => ?_
  refine (ren_processDelegation hf _ _ _ _ _).bind fun p q hq => ?_
  subst hq
  exact rfl

theorem ren_unDelegate (w : World) (a : Addr) (x : Nat) (ps : List Payment) :
    Alike (Ren f) (unDelegate w a x ps) (unDelegate (renWorld f w) (f a) x ps) := by
  refine Alike.read (ren_user hf w a) fun _ => (ren_payAny hf w a x ps).bind fun p q hq => ?_
  subst hq
  refine Alike.read rfl fun c => ?_
  match ps with
  | [] => exact rfl
  | [y] =>
    refine Alike.read rfl fun _ => Alike.read rfl fun _ => Alike.read rfl fun _ => Alike.read rfl fun z => ?_
    refine (ren_burnLs hf _ _).bind fun p q hq => ?_
    subst hq
    refine Alike.read rfl fun u => ?_
    refine (ren_processUnDelegation hf _ _ _ _ _).bind fun p q hq => ?_
    subst hq
    exact rfl
  | _ :: _ :: _ => exact rfl

theorem ren_withdraw (w : World) (a : Addr) (x : Nat) (ps : List Payment) :
    Alike (Ren f) (withdraw w a x ps) (withdraw (renWorld f w) (f a) x ps) := by
  refine Alike.read (ren_user hf w a) fun _ => (ren_payAny hf w a x ps).bind fun p q hq => ?_
  subst hq
  refine Alike.read rfl fun c => Alike.read rfl fun _ => ?_
  show Alike _ _ (match p.st.unstakeToken with | none => _ | some uid => _)
  cases p.st.unstakeToken with
  | none => exact rfl
  | some u =>
    refine (ren_withdrawLoop hf _ _ _ _ _ _).bind fun p q hq => ?_
    subst hq
    refine (ren_sendEgld hf _ _ _).bind fun p q hq => ?_
    subst hq
    exact congrArg (commit · _) (ren_emit hf _ _ .general a)

theorem ren_delegatePending (w : World) (a : Addr) (x : Option Nat) :
    Alike (Ren f) (delegatePending w a x) (delegatePending (renWorld f w) (f a) x) := by
  refine Alike.read (ren_user hf w a) fun _ => Alike.read rfl fun c => Alike.read rfl fun _ => Alike.read (ren_manager hf w a) fun _ =>
    Alike.read rfl fun y => ?_
  refine (ren_select hf w.st _ _ _).bind fun p q hq => ?_
  subst hq
  refine Alike.read rfl fun z => ?_
  refine (ren_delegateLoop hf _ _).bind fun p q hq => ?_
  subst hq
  exact congrArg (commit · _) (ren_emit hf _ _ .general a)

theorem ren_unDelegatePending (w : World) (a : Addr) (x : Option Nat) :
    Alike (Ren f) (unDelegatePending w a x) (unDelegatePending (renWorld f w) (f a) x) := by
  refine Alike.read (ren_user hf w a) fun _ => Alike.read rfl fun c => Alike.read rfl fun _ => Alike.read (ren_manager hf w a) fun _ =>
    Alike.read rfl fun y => ?_
  refine (ren_select hf w.st _ _ _).bind fun p q hq => ?_
  subst hq
  refine Alike.read rfl fun z => ?_
  refine (ren_undelegateLoop hf _ _).bind fun p q hq => ?_
  subst hq
  exact congrArg (commit · _) (ren_emit hf _ _ .general a)

theorem ren_withdrawPending (w : World) (a p : Addr) :
    Alike (Ren f) (withdrawPending w a p) (withdrawPending (renWorld f w) (f a) (f p)) := by
  refine Alike.read (ren_user hf w a) fun _ => Alike.read rfl fun c => Alike.read (ren_manager hf w a) fun _ => Alike.read rfl fun _ =>
    Alike.read (ren_req hf (not_congr (ren_known hf w.st p).symm) _) fun _ => ?_
  refine (ren_promise hf w (.withdraw p) 0).bind fun p q hq => ?_
  subst hq
  exact rfl

theorem ren_claimRewards (w : World) (a : Addr) : Alike (Ren f) (claimRewards w a) (claimRewards (renWorld f w) (f a)) := by
  refine Alike.read (ren_user hf w a) fun _ => Alike.read rfl fun c => Alike.read (ren_manager hf w a) fun _ => Alike.read rfl fun _ =>
    Alike.read (ren_req hf (not_congr List.map_eq_nil_iff.symm) _) fun _ => ?_
  refine (ren_promise hf w (.claim w.st.delegList) 0).bind fun p q hq => ?_
  subst hq
  exact rfl

theorem ren_claimFees (w : World) (a : Addr) (b : Bool) : Alike (Ren f) (claimFees w a b) (claimFees (renWorld f w) (f a) b) := by
  refine Alike.read (ren_user hf w a) fun _ => Alike.read rfl fun c => Alike.read rfl fun _ =>
    Alike.read (ren_req hf (not_congr (ren_iff hf w.st.accumulator w.self).symm) _) fun _ => ?_
  refine (ren_sendEgld hf w w.st.accumulator _).bind fun p q hq => ?_
  subst hq
  cases b <;> exact rfl

theorem ren_whitelist (w : World) (a : Addr) (x : Nat) (p b : Addr) (t c : Nat) (n y : UInt64) :
    Alike (Ren f) (whitelist w a x p b t c n y) (whitelist (renWorld f w) (f a) x (f p) (f b) t c n y) := by
  refine Alike.read (ren_user hf w a) fun _ => (ren_payEgld hf w a x).bind fun v q hq => ?_
  subst hq
  refine Alike.read (ren_req hf (Iff.of_eq (by simp only [renWorld, renStore, List.length_map])) _) fun _ =>
    Alike.read (ren_req hf (Iff.of_eq (by simp only [renWorld, renStore, List.length_map])) _) fun _ => Alike.read (ren_manager hf v a) fun _ =>
    Alike.read (ren_req hf (ren_known hf v.st p).symm _) fun _ => Alike.read rfl fun _ => Alike.read rfl fun _ => ?_
  have h := ren_promise hf { v with st := { v.st with data := v.st.data.set p (some {
    admin := b, totalStaked := t, cap := c, nrNodes := n, apy := y,
    staked := 0, unstaked := 0, eligible := true, pStake := 0, pUnstake := 0 }) } } (.whitelist p x a) x
  have e : renWorld f { v with st := { v.st with data := v.st.data.set p (some {
        admin := b, totalStaked := t, cap := c, nrNodes := n, apy := y,
        staked := 0, unstaked := 0, eligible := true, pStake := 0, pUnstake := 0 }) } } =
      { renWorld f v with st := { (renWorld f v).st with data := (renWorld f v).st.data.set (f p) (some {
        admin := f b, totalStaked := t, cap := c, nrNodes := n, apy := y,
        staked := 0, unstaked := 0, eligible := true, pStake := 0, pUnstake := 0 }) } } := by
    have := ren_data_set hf v.st p (some {
        admin := b, totalStaked := t, cap := c, nrNodes := n, apy := y,
        staked := 0, unstaked := 0, eligible := true, pStake := 0, pUnstake := 0 })
    simp only [renWorld, renStore, Option.map_some, renData] at this ⊢
    rw [this]
  rw [e] at h
  exact h

theorem ren_changeAdmin (w : World) (a p b : Addr) : Alike (Ren f) (changeAdmin w a p b) (changeAdmin (renWorld f w) (f a) (f p) (f b)) := by
  refine Alike.read (ren_user hf w a) fun _ => Alike.read (ren_req hf (not_congr (ren_known hf w.st p).symm) _) fun _ =>
    Alike.read (ren_manager hf w a) fun _ => ren_update hf w p _ _ ?_
  exact fun d => rfl

theorem ren_changeParams (w : World) (a p : Addr) (t c : Nat) (n y : UInt64) (b : Bool) :
    Alike (Ren f) (changeParams w a p t c n y b) (changeParams (renWorld f w) (f a) (f p) t c n y b) := by
  refine Alike.read (ren_user hf w a) fun _ => (ren_getData hf w.st p).bind fun d e he => ?_
  subst he
  refine Alike.read (ren_req hf (not_congr (ren_known hf w.st p).symm) _) fun _ => Alike.read (ren_req hf ?_ _) fun _ =>
    Alike.read rfl fun _ => ren_update hf w p _ _ ?_
  · rw [ren_isManager hf]
    exact or_congr (ren_iff hf d.admin a).symm Iff.rfl
  · exact fun d => rfl

theorem ren_migrate (h0 : f 0 = 0) (w : World) (a : Addr) (x : Nat) (b : Addr) :
    Alike (Ren f) (migrate w a x b) (migrate (renWorld f w) (f a) x (f b)) := by
  refine Alike.read (ren_user hf w a) fun _ => Alike.read rfl fun c => Alike.read (ren_migration hf h0 w a) fun _ => Alike.read rfl fun y => ?_
  have h := ren_sendLs hf (emit (mintLs w y.1) y.2 (.addLiquidity x) b) a y.1
  rw [← ren_emit hf, ← ren_mintLs hf] at h
  refine Alike.bind h fun p q hq => ?_
  subst hq
  exact rfl

theorem ren_migratePending (h0 : f 0 = 0) (w : World) (a : Addr) (x : Nat) :
    Alike (Ren f) (migratePending w a x) (migratePending (renWorld f w) (f a) x) := by
  refine Alike.read (ren_user hf w a) fun _ => (ren_payEgld hf w a x).bind fun v q hq => ?_
  subst hq
  refine Alike.read rfl fun c => Alike.read (ren_migration hf h0 v a) fun _ => ?_
  have h := ren_emit hf v { c with r := { c.r with pending := c.r.pending + x } } .general a
  show _ = _
  simp only [renKind] at h
  simp only [h]
  rfl

theorem ren_addRewards (w : World) (a : Addr) (x : Nat) : Alike (Ren f) (addRewards w a x) (addRewards (renWorld f w) (f a) x) := by
  refine Alike.read (ren_user hf w a) fun _ => (ren_payEgld hf w a x).bind fun v q hq => ?_
  subst hq
  exact Alike.read rfl fun c => congrArg (commit · _) (ren_emit hf _ _ .general a)

end

/-- Every transaction, with other names, does what it does with the old ones, with other names. -/
theorem ren_step {f : Addr → Addr} (h : Renaming f) (w : World) (op : Op) : Alike (Ren f) (step w op) (step (renWorld f w) (renOp f op)) := by
  have hf := h.inj
  cases op with
  | delegate a x => exact ren_delegate hf w a x
  | unDelegate a x ps => exact ren_unDelegate hf w a x ps
  | withdraw a x ps => exact ren_withdraw hf w a x ps
  | upgrade => exact rfl
  | delegatePending a x => exact ren_delegatePending hf w a x
  | unDelegatePending a x => exact ren_unDelegatePending hf w a x
  | withdrawPending a p => exact ren_withdrawPending hf w a p
  | claimRewards a => exact ren_claimRewards hf w a
  | claimFees a b => exact ren_claimFees hf w a b
  | whitelist a x p b t c n y => exact ren_whitelist hf w a x p b t c n y
  | changeAdmin a p b => exact ren_changeAdmin hf w a p b
  | changeParams a p t c n y e => exact ren_changeParams hf w a p t c n y e
  | migrate a x b => exact ren_migrate hf h.zero w a x b
  | migratePending a x => exact ren_migratePending hf h.zero w a x
  | addRewards a x => exact ren_addRewards hf w a x
  | setMigrationSc a b =>
    exact Alike.read (ren_user hf w a) fun _ => Alike.read (ren_owns hf w a) fun _ => Alike.read (ren_contract hf w b _) fun _ => rfl
  | registerLsToken a x =>
    refine Alike.read (ren_user hf w a) fun _ => (renMap_debit hf w.egld a x).bind fun p q hq => ?_
    subst hq
    refine Alike.read (ren_owns hf w a) fun _ => Alike.read rfl fun _ => ?_
    show _ = _
    simp only [renWorld, renStore, List.map_append, List.map_cons, List.map_nil, renIssue]
  | registerUnstakeToken a x =>
    refine Alike.read (ren_user hf w a) fun _ => (renMap_debit hf w.egld a x).bind fun p q hq => ?_
    subst hq
    refine Alike.read (ren_owns hf w a) fun _ => Alike.read rfl fun _ => ?_
    show _ = _
    simp only [renWorld, renStore, List.map_append, List.map_cons, List.map_nil, renIssue]
  | owner a cmd =>
    refine Alike.read (ren_user hf w a) fun _ => Alike.read (ren_owns hf w a) fun _ => (ren_cmd hf w.st cmd).bind fun p q hq => ?_
    subst hq
    exact rfl
  | setScoringConfig a g =>
    exact Alike.read (ren_user hf w a) fun _ => Alike.read (ren_manager hf w a) fun _ => Alike.read rfl fun _ => rfl
  | viewLsValue x =>
    show Alike (Ren f) (viewLsValue w x >>= _) (viewLsValue (renWorld f w) x >>= _)
    refine Alike.bind (S := fun p q : Nat × World => q = (p.1, renWorld f p.2)) ?_ fun p q hq => ?_
    · exact Alike.read rfl fun c => Alike.read rfl fun e => rfl
    · subst hq; exact rfl
  | viewEgldPosition x =>
    show Alike (Ren f) (viewEgldPosition w x >>= _) (viewEgldPosition (renWorld f w) x >>= _)
    refine Alike.bind (S := fun p q : Nat × World => q = (p.1, renWorld f p.2)) ?_ fun p q hq => ?_
    · exact Alike.read rfl fun c => Alike.read rfl fun e => rfl
    · subst hq; exact rfl
  | deliver i o => exact ren_deliver hf h.manager w i o
  | issued i o => exact ren_issued hf w i o
  | starve i o => exact ren_starve hf w i o
  | transferLs a b x =>
    refine Alike.read (ren_user hf w a) fun _ => Alike.read (ren_user hf w b) fun _ => (renMap_debit hf w.ls a x).bind fun p q hq => ?_
    subst hq
    show _ = _
    simp only [renWorld, renMap_credit hf]
  | transferNft a b n x =>
    refine Alike.read (ren_user hf w a) fun _ => Alike.read (ren_user hf w b) fun _ => (ren_nft_debit hf w.nft n a x).bind fun p q hq => ?_
    subst hq
    show _ = _
    simp only [renWorld, ren_nft_credit hf]
  | fund a x =>
    refine Alike.read (ren_user hf w a) fun _ => ?_
    show _ = _
    simp only [renWorld, renMap_credit hf]
  | advance e => exact Alike.read rfl fun _ => rfl
  | changeOwner a b => exact Alike.read (ren_user hf w a) fun _ => Alike.read (ren_owns hf w a) fun _ => rfl
  | burnLs a x =>
    refine Alike.read (ren_user hf w a) fun _ => (renMap_debit hf w.ls a x).bind fun p q hq => ?_
    subst hq
    exact rfl
  | burnUnstake a n x =>
    refine Alike.read (ren_user hf w a) fun _ => (ren_nft_debit hf w.nft n a x).bind fun p q hq => ?_
    subst hq
    exact rfl
  | transferEgld a b x =>
    refine Alike.read (ren_user hf w a) fun _ => Alike.read (ren_user hf w b) fun _ => (renMap_debit hf w.egld a x).bind fun p q hq => ?_
    subst hq
    show _ = _
    simp only [renWorld, renMap_credit hf]
  | giveEgld a x =>
    refine Alike.read (ren_user hf w a) fun _ => Alike.read (ren_contract hf w a _) fun _ => (renMap_debit hf w.egld a x).bind fun p q hq => ?_
    subst hq
    show _ = _
    simp only [renWorld, renMap_credit hf]
  | giveLs a x =>
    refine Alike.read (ren_user hf w a) fun _ => Alike.read (ren_contract hf w a _) fun _ => (renMap_debit hf w.ls a x).bind fun p q hq => ?_
    subst hq
    show _ = _
    simp only [renWorld, renMap_credit hf]
  | giveUnstake a n x =>
    refine Alike.read (ren_user hf w a) fun _ => Alike.read (ren_contract hf w a _) fun _ => (ren_nft_debit hf w.nft n a x).bind fun p q hq => ?_
    subst hq
    show _ = _
    simp only [renWorld, ren_nft_credit hf]

/-- A deployment with other names. -/
theorem ren_init {f : Addr → Addr} (h : Renaming f) {w : World} (hw : IsInit w) : IsInit (renWorld f w) := by
  obtain ⟨self, owner, contracts, epoch, funds, acc, fees, rpe, mr, ms, ma, ub, e⟩ := hw
  refine ⟨f self, f owner, contracts.map f, epoch, renMap f id funds, f acc, fees, rpe, mr, ms, ma, ub, ?_⟩
  unfold initWorld at e ⊢
  by_cases h1 : 1 ≤ ms
  · by_cases h2 : 1 ≤ ma
    · simp only [req, h1, h2, if_true] at e ⊢
      cases e
      have hl : (renMap f id funds).filter (fun e => e.1 ≠ f self) = renMap f id (funds.filter fun e => e.1 ≠ self) := by
        unfold renMap
        rw [List.filter_map]
        refine congrArg _ (List.filter_congr fun e _ => ?_)
        show decide (f e.1 ≠ f self) = decide (e.1 ≠ self)
        rw [decide_eq_decide]
        exact not_congr (ren_iff h.inj _ _)
      simp only [ne_eq] at hl
      simp only [renWorld, renStore, ne_eq, hl]
      rfl
    · simp only [req, h1, h2, if_true, if_false] at e
      cases e
  · simp only [req, h1, if_false] at e
    cases e

theorem ren_reachable {f : Addr → Addr} (h : Renaming f) {w : World} (hw : Reachable w) : Reachable (renWorld f w) := by
  induction hw with
  | init hi => exact .init (ren_init h hi)
  | step op _ hs ih =>
    obtain ⟨b, hb, rfl⟩ := (alike_outcome (ren_step h _ op)).1 _ hs
    exact .step _ ih hb

end LS
