import Verif.Proofs.Names

/-! Other token identifiers, continued: providers, batches, callbacks, and every transaction. -/

namespace LS
open Spec

section
variable {f : TokenId → TokenId}

theorem tok_delegationLoop (w : World) (m j : Nat) (as : List Addr) : ∀ (l : List SelInfo) (t : Nat),
    selectDelegationLoop w.st m j as l t = selectDelegationLoop (tokWorld f w).st m j as l t := by
  induction as with
  | nil => intro l t; rfl
  | cons a as ih =>
    intro l t
    have hc : considerProvider w.st m a l t = considerProvider (tokWorld f w).st m a l t := rfl
    simp only [selectDelegationLoop, hc, ih]

theorem tok_undelegationLoop (w : World) (m j g : Nat) (as : List Addr) : ∀ (l : List SelInfo) (t r : Nat),
    selectUndelegationLoop w.st m j g as l t r = selectUndelegationLoop (tokWorld f w).st m j g as l t r := by
  induction as with
  | nil => intro l t r; rfl
  | cons a as ih =>
    intro l t r
    have hd : getData w.st a = getData (tokWorld f w).st a := rfl
    have hm : w.st.maxSelectedProviders = (tokWorld f w).st.maxSelectedProviders := rfl
    simp only [selectUndelegationLoop, hd, hm, ih]

theorem tok_remaining (l : List Selection) (x : Nat) (b : Bool) (c : Cache) :
    Alike (Cached f) (handleRemaining l x b c) (handleRemaining l x b (tokCache f c)) := by
  unfold handleRemaining
  refine Alike.ite (fun _ => rfl) fun _ => Alike.read rfl fun p => Alike.ite (fun _ => ?_) fun _ => rfl
  cases b <;> exact rfl

theorem tok_distribute (l : List SelInfo) (x m : Nat) (b : Bool) (t : Nat) (g : ScoringConfig) (c : Cache) :
    Alike (Cached f) (distributeAmount l x m b t g c) (distributeAmount l x m b t g (tokCache f c)) :=
  Alike.read rfl fun _ => Alike.read rfl fun _ => tok_remaining _ _ _ _

theorem tok_select (w : World) (x : Nat) (b : Bool) (c : Cache) :
    Alike (Cached f) (getDelegationContract w.st x b c) (getDelegationContract (tokWorld f w).st x b (tokCache f c)) := by
  have h1 : (tokWorld f w).st.delegList = w.st.delegList := rfl
  have h2 : (tokWorld f w).st.undelegList = w.st.undelegList := rfl
  have h3 : ∀ x y n, maxProviders (tokWorld f w).st x y n = maxProviders w.st x y n := fun _ _ _ => rfl
  have h4 : getScoringConfig (tokWorld f w).st = getScoringConfig w.st := rfl
  have h5 : (tokWorld f w).st.maxSelectedProviders = w.st.maxSelectedProviders := rfl
  unfold getDelegationContract handleDelegation handleUndelegation selectDelegationProviders selectUndelegationProviders
  simp only [h1, h2, h3, h4, h5, ← tok_delegationLoop, ← tok_undelegationLoop]
  refine Alike.read rfl fun _ => Alike.ite (fun _ => ?_) fun _ => ?_
  · exact Alike.read rfl fun _ => Alike.read rfl fun _ => Alike.read rfl fun _ => tok_distribute _ _ _ _ _ _ _
  · exact Alike.read rfl fun _ => Alike.read rfl fun _ => Alike.read rfl fun _ => tok_distribute _ _ _ _ _ _ _

theorem tok_update (w : World) (a : Addr) (g : ProviderData → Res ProviderData) :
    Alike (Tok f) (updateData w a g) (updateData (tokWorld f w) a g) :=
  Alike.read rfl fun _ => Alike.read rfl fun _ => rfl

theorem tok_promise (w : World) (x : Flight) (v : Nat) : Alike (Tok f) (registerPromise w x v) (registerPromise (tokWorld f w) x v) :=
  Alike.read rfl fun _ => rfl

theorem tok_delegateLoop (l : List Selection) : ∀ w : World,
    Alike (Tok f) (delegateLoop l w) (delegateLoop l (tokWorld f w)) := by
  induction l with
  | nil => intro w; exact rfl
  | cons s l ih =>
    intro w
    have h := tok_update (f := f) { w with st := { w.st with delegList := moveToBack w.st.delegList s.address } } s.address
      (fun d => .ok { d with pStake := d.pStake + s.amount })
    refine Alike.bind h fun a b hab => ?_
    subst hab
    refine (tok_promise a (.delegate s.address s.amount) _).bind fun a b hab => ?_
    subst hab
    exact ih a

theorem tok_undelegateLoop (l : List Selection) : ∀ w : World,
    Alike (Tok f) (undelegateLoop l w) (undelegateLoop l (tokWorld f w)) := by
  induction l with
  | nil => intro w; exact rfl
  | cons s l ih =>
    intro w
    have h := tok_update (f := f) { w with st := { w.st with undelegList := moveToBack w.st.undelegList s.address } } s.address
      (fun d => .ok { d with pUnstake := d.pUnstake + s.amount })
    refine Alike.bind h fun a b hab => ?_
    subst hab
    refine (tok_promise a (.undelegate s.address s.amount) _).bind fun a b hab => ?_
    subst hab
    exact ih a

theorem tok_removeCb (w : World) (p : Addr) (x : Nat) (b : Bool) :
    Alike (Tok f) (removeLiquidityCb w p x b) (removeLiquidityCb (tokWorld f w) p x b) := by
  unfold removeLiquidityCb
  refine (tok_cacheNew w).bind fun c d hc => ?_
  subst hc
  cases b
  · refine Alike.bind (tok_update w p _) fun a b hab => ?_
    subst hab
    exact tok_final a { c with r := { c.r with toUnstake := c.r.toUnstake + x } } .general p
  · refine Alike.bind (tok_update w p _) fun a b hab => ?_
    subst hab
    exact tok_final a { c with r := { c.r with toUnbond := c.r.toUnbond + x } } .general p

theorem tok_addCb (w : World) (p : Addr) (x : Nat) (b : Bool) :
    Alike (Tok f) (addLiquidityCb w p x b) (addLiquidityCb (tokWorld f w) p x b) := by
  unfold addLiquidityCb
  refine (tok_cacheNew w).bind fun c d hc => ?_
  subst hc
  cases b
  · refine Alike.bind (tok_update w p _) fun a b hab => ?_
    subst hab
    exact tok_final a { c with r := { c.r with pending := c.r.pending + x } } .general p
  · refine Alike.bind (tok_update w p _) fun a b hab => ?_
    subst hab
    exact rfl

theorem tok_withdrawCb (w : World) (p : Addr) (x : Nat) :
    Alike (Tok f) (withdrawTokensCb w p x) (withdrawTokensCb (tokWorld f w) p x) := by
  unfold withdrawTokensCb
  refine Alike.ite (fun _ => (tok_cacheNew w).bind fun c d hc => ?_) fun _ => rfl
  subst hc
  refine Alike.read rfl fun u => ?_
  refine Alike.bind (tok_update w p _) fun a b hab => ?_
  subst hab
  exact tok_final a { c with r := { c.r with withdrawn := c.r.withdrawn + x, toUnbond := u } } (.withdrawPending x p) p

theorem tok_claimCb (w : World) (x : Option Nat) : Alike (Tok f) (claimRewardsCb w x) (claimRewardsCb (tokWorld f w) x) := by
  unfold claimRewardsCb
  cases x with
  | none => exact rfl
  | some y =>
    refine Alike.ite (fun _ => (tok_cacheNew w).bind fun c d hc => ?_) fun _ => rfl
    subst hc
    refine Alike.read rfl fun t => Alike.read rfl fun q => ?_
    have h := tok_final (f := f) { w with events := w.events ++ [.protocolRevenue t w.epoch] } { c with r := { c.r with
        fees := c.r.fees + t, pending := c.r.pending + q, reserve := c.r.reserve + q } } (.claimRewards y) DELEGATION_MANAGER
    have e : tokWorld f { w with events := w.events ++ [.protocolRevenue t w.epoch] } =
        { tokWorld f w with events := (tokWorld f w).events ++ [.protocolRevenue t (tokWorld f w).epoch] } := by
      simp only [tokWorld, List.map_append, List.map_cons, List.map_nil, tokEvent]
    rw [e] at h
    exact h

theorem tok_whitelistCb (w : World) (p : Addr) (x : Nat) (u : Addr) (b : Bool) :
    Alike (Tok f) (whitelistCb w p x u b) (whitelistCb (tokWorld f w) p x u b) := by
  unfold whitelistCb
  refine (tok_cacheNew w).bind fun c d hc => ?_
  subst hc
  cases b with
  | true =>
    refine Alike.bind (tok_update w p _) fun a b hab => ?_
    subst hab
    refine (tok_poolAdd x c).bind fun q r hr => ?_
    subst hr
    have h := tok_sendLs (f := f) (emit (mintLs { a with st := { a.st with
      delegList := setInsert a.st.delegList p, undelegList := setInsert a.st.undelegList p } } q.1) q.2 (.addLiquidity x) u) u q.1
    rw [← tok_emit] at h
    refine Alike.bind h fun a b hab => ?_
    subst hab
    exact rfl
  | false =>
    refine Alike.bind (tok_sendEgld (f := f) { w with st := { w.st with data := w.st.data.set p none } } u x) fun a b hab => ?_
    subst hab
    exact rfl

theorem tok_callback (w : World) (x : Flight) (o : Outcome) :
    Alike (Tok f) (runCallback w x o) (runCallback (tokWorld f w) x o) := by
  cases x with
  | delegate p x => cases o with
    | ok g r => exact tok_addCb w p x true
    | err => exact tok_addCb w p x false
  | undelegate p x => cases o with
    | ok g r => exact tok_removeCb w p x true
    | err => exact tok_removeCb w p x false
  | withdraw p => cases o with
    | ok g r => exact tok_withdrawCb w p g
    | err => exact tok_withdrawCb w p 0
  | claim l => cases o with
    | ok g r => exact tok_claimCb w (some r)
    | err => exact rfl
  | whitelist p x u => cases o with
    | ok g r => exact tok_whitelistCb w p x u true
    | err => exact tok_whitelistCb w p x u false

theorem tok_arrive (w : World) (i : Nat) (x : Flight) (o : Outcome) : arrive (tokWorld f w) i x o = tokWorld f (arrive w i x o) := rfl

theorem tok_deliver (w : World) (i : Nat) (o : Outcome) : Alike (Tok f) (deliver w i o) (deliver (tokWorld f w) i o) := by
  unfold deliver
  show Alike _ _ (match w.flights[i]? with | none => _ | some f => _)
  cases w.flights[i]? with
  | none => exact rfl
  | some x =>
    simp only [tok_arrive]
    have h := tok_callback (f := f) (arrive w i x o) x o
    cases hw : runCallback (arrive w i x o) x o with
    | ok a => cases hv : runCallback (tokWorld f (arrive w i x o)) x o with
      | ok b => rw [hw, hv] at h; exact h
      | error e => rw [hw, hv] at h; exact h.elim
    | error e => cases hv : runCallback (tokWorld f (arrive w i x o)) x o with
      | ok b => rw [hw, hv] at h; exact h.elim
      | error e => exact rfl

theorem tok_starve (w : World) (i : Nat) (o : Outcome) : Alike (Tok f) (starve w i o) (starve (tokWorld f w) i o) := by
  unfold starve
  show Alike _ _ (match w.flights[i]? with | none => _ | some f => _)
  cases w.flights[i]? with
  | none => exact rfl
  | some x => exact rfl

theorem tok_setToken (w : World) (x : TokenKind) (t : Option TokenId) :
    { tokWorld f w with st := setToken (tokWorld f w).st x (t.map f) } = tokWorld f { w with st := setToken w.st x t } := by
  cases x <;> rfl

theorem tok_issueCb (w : World) (x : Issue) (o : Option TokenId) :
    Alike (Tok f) (issueCb w x o) (issueCb (tokWorld f w) x (o.map f)) := by
  cases o with
  | none =>
    refine (tok_sendEgld w x.caller x.cost).bind fun a b hab => ?_
    subst hab
    exact tok_setToken a x.kind none
  | some t => exact tok_setToken w x.kind (some t)

theorem tok_issued (hf : Function.Injective f) (w : World) (i : Nat) (o : Option TokenId) :
    Alike (Tok f) (issued w i o) (issued (tokWorld f w) i (o.map f)) := by
  unfold issued
  show Alike _ _ (match w.issues[i]? with | none => _ | some x => _)
  cases w.issues[i]? with
  | none => exact rfl
  | some x =>
    refine Alike.read (tok_req ?_ _) fun _ => ?_
    · have ht : tokenOf (tokWorld f w).st x.kind.other = (tokenOf w.st x.kind.other).map f := by cases x.kind.other <;> rfl
      rw [ht]
      cases o with
      | none => simp
      | some t => simp [tok_some hf]
    · have h := tok_issueCb (f := f) { w with
        issues := w.issues.eraseIdx i, egld := (if o = none then credit w.egld w.self x.cost else w.egld) } x o
      cases o <;> exact h

theorem tok_cmd (w : World) (cmd : OwnerCmd) :
    Alike (fun x y => y = (tokWorld f { w with st := x }).st) (applyOwnerCmd w.st cmd) (applyOwnerCmd (tokWorld f w).st cmd) := by
  cases cmd with
  | maxAddresses v => exact Alike.read rfl fun _ => rfl
  | maxSelected v => exact Alike.read rfl fun _ => rfl
  | _ => exact rfl

theorem tok_delegate (w : World) (a : Addr) (x : Nat) : Alike (Tok f) (delegate w a x) (delegate (tokWorld f w) a x) := by
  refine Alike.read rfl fun _ => (tok_payEgld w a x).bind fun p q hq => ?_
  subst hq
  refine (tok_cacheNew p).bind fun c d hc => ?_
  subst hc
  refine Alike.read rfl fun _ => Alike.read rfl fun _ => Alike.read rfl fun y => ?_
  refine (tok_processDelegation _ _ _ _ _).bind fun p q hq => ?_
  subst hq
  exact rfl

theorem tok_unDelegate (hf : Function.Injective f) (w : World) (a : Addr) (x : Nat) (ps : List Payment) :
    Alike (Tok f) (unDelegate w a x ps) (unDelegate (tokWorld f w) a x (ps.map (tokPay f))) := by
  refine Alike.read rfl fun _ => (tok_payAny hf w a x ps).bind fun p q hq => ?_
  subst hq
  refine (tok_cacheNew p).bind fun c d hc => ?_
  subst hc
  match ps with
  | [] => exact rfl
  | [y] =>
    refine Alike.read rfl fun _ => Alike.read (tok_req hf.eq_iff _) fun _ => Alike.read rfl fun _ =>
      (tok_poolRemove _ _).bind fun z u hu => ?_
    subst hu
    refine (tok_burnLs p _).bind fun p q hq => ?_
    subst hq
    refine Alike.read rfl fun u => ?_
    refine (tok_processUnDelegation _ _ _ _ _).bind fun p q hq => ?_
    subst hq
    exact rfl
  | _ :: _ :: _ => exact rfl

theorem tok_withdraw (hf : Function.Injective f) (w : World) (a : Addr) (x : Nat) (ps : List Payment) :
    Alike (Tok f) (withdraw w a x ps) (withdraw (tokWorld f w) a x (ps.map (tokPay f))) := by
  refine Alike.read rfl fun _ => (tok_payAny hf w a x ps).bind fun p q hq => ?_
  subst hq
  refine (tok_cacheNew p).bind fun c d hc => ?_
  subst hc
  refine Alike.read rfl fun _ => ?_
  show Alike _ _ (match p.st.unstakeToken.map f with | none => _ | some uid => _)
  cases p.st.unstakeToken with
  | none => exact rfl
  | some u =>
    refine (tok_withdrawLoop hf _ _ _ _ _ _).bind fun p q hq => ?_
    subst hq
    refine (tok_sendEgld _ _ _).bind fun v q hq => ?_
    subst hq
    exact tok_final _ _ .general a

theorem tok_delegatePending (w : World) (a : Addr) (x : Option Nat) :
    Alike (Tok f) (delegatePending w a x) (delegatePending (tokWorld f w) a x) := by
  refine Alike.read rfl fun _ => (tok_cacheNew w).bind fun c d hc => ?_
  subst hc
  refine Alike.read rfl fun _ => Alike.read rfl fun _ => Alike.read rfl fun y => ?_
  refine (tok_select w _ _ _).bind fun p q hq => ?_
  subst hq
  refine Alike.read rfl fun z => ?_
  refine (tok_delegateLoop _ _).bind fun v q hq => ?_
  subst hq
  exact tok_final v { p.2 with r := { p.2.r with pending := z } } .general a

theorem tok_unDelegatePending (w : World) (a : Addr) (x : Option Nat) :
    Alike (Tok f) (unDelegatePending w a x) (unDelegatePending (tokWorld f w) a x) := by
  refine Alike.read rfl fun _ => (tok_cacheNew w).bind fun c d hc => ?_
  subst hc
  refine Alike.read rfl fun _ => Alike.read rfl fun _ => Alike.read rfl fun y => ?_
  refine (tok_select w _ _ _).bind fun p q hq => ?_
  subst hq
  refine Alike.read rfl fun z => ?_
  refine (tok_undelegateLoop _ _).bind fun v q hq => ?_
  subst hq
  exact tok_final v { p.2 with r := { p.2.r with toUnstake := z } } .general a

theorem tok_claimFees (w : World) (a : Addr) (b : Bool) : Alike (Tok f) (claimFees w a b) (claimFees (tokWorld f w) a b) := by
  refine Alike.read rfl fun _ => (tok_cacheNew w).bind fun c d hc => ?_
  subst hc
  refine Alike.read rfl fun _ => Alike.read rfl fun _ => ?_
  refine (tok_sendEgld w w.st.accumulator _).bind fun p q hq => ?_
  subst hq
  cases b <;> exact rfl

theorem tok_migration (w : World) (a : Addr) : requireMigration w a = requireMigration (tokWorld f w) a := rfl

theorem tok_migrate (w : World) (a : Addr) (x : Nat) (b : Addr) :
    Alike (Tok f) (migrate w a x b) (migrate (tokWorld f w) a x b) := by
  refine Alike.read rfl fun _ => (tok_cacheNew w).bind fun c d hc => ?_
  subst hc
  refine Alike.read (tok_migration w a) fun _ => (tok_poolAdd _ _).bind fun y u hu => ?_
  subst hu
  have h := tok_sendLs (f := f) (emit (mintLs w y.1) y.2 (.addLiquidity x) b) a y.1
  rw [← tok_emit] at h
  refine Alike.bind h fun p q hq => ?_
  subst hq
  exact rfl

theorem tok_migratePending (w : World) (a : Addr) (x : Nat) :
    Alike (Tok f) (migratePending w a x) (migratePending (tokWorld f w) a x) := by
  refine Alike.read rfl fun _ => (tok_payEgld w a x).bind fun v q hq => ?_
  subst hq
  refine (tok_cacheNew v).bind fun c d hc => ?_
  subst hc
  refine Alike.read (tok_migration v a) fun _ => ?_
  have h := tok_emit (f := f) v { c with r := { c.r with pending := c.r.pending + x } } .general a
  show _ = _
  unfold tokCache at h ⊢
  simp only [h]
  rfl

theorem tok_addRewards (w : World) (a : Addr) (x : Nat) : Alike (Tok f) (addRewards w a x) (addRewards (tokWorld f w) a x) := by
  refine Alike.read rfl fun _ => (tok_payEgld w a x).bind fun v q hq => ?_
  subst hq
  refine (tok_cacheNew v).bind fun c d hc => ?_
  subst hc
  exact tok_final v { c with r := { c.r with reserve := c.r.reserve + x, pending := c.r.pending + x } } .general a

theorem tok_whitelist (w : World) (a : Addr) (x : Nat) (p b : Addr) (t c : Nat) (n y : UInt64) :
    Alike (Tok f) (whitelist w a x p b t c n y) (whitelist (tokWorld f w) a x p b t c n y) := by
  refine Alike.read rfl fun _ => (tok_payEgld w a x).bind fun v q hq => ?_
  subst hq
  refine Alike.read rfl fun _ => Alike.read rfl fun _ => Alike.read rfl fun _ => Alike.read rfl fun _ => Alike.read rfl fun _ =>
    Alike.read rfl fun _ => ?_
  exact tok_promise { v with st := { v.st with data := v.st.data.set p (some {
    admin := b, totalStaked := t, cap := c, nrNodes := n, apy := y,
    staked := 0, unstaked := 0, eligible := true, pStake := 0, pUnstake := 0 }) } } (.whitelist p x a) x

theorem tok_free (o : Option TokenId) (b : Bool) : (o.map f = none ∧ b = false) ↔ (o = none ∧ b = false) := by cases o <;> simp

/-- Every transaction, with other identifiers, does what it does, with other identifiers. -/
theorem tok_step (hf : Function.Injective f) (w : World) (op : Op) : Alike (Tok f) (step w op) (step (tokWorld f w) (tokOp f op)) := by
  cases op with
  | delegate a x => exact tok_delegate w a x
  | unDelegate a x ps => exact tok_unDelegate hf w a x ps
  | withdraw a x ps => exact tok_withdraw hf w a x ps
  | upgrade => exact rfl
  | delegatePending a x => exact tok_delegatePending w a x
  | unDelegatePending a x => exact tok_unDelegatePending w a x
  | withdrawPending a p =>
    refine Alike.read rfl fun _ => (tok_cacheNew w).bind fun c d hc => ?_
    subst hc
    refine Alike.read rfl fun _ => Alike.read rfl fun _ => Alike.read rfl fun _ =>
      (tok_promise w (.withdraw p) 0).bind fun p q hq => ?_
    subst hq
    exact rfl
  | claimRewards a =>
    refine Alike.read rfl fun _ => (tok_cacheNew w).bind fun c d hc => ?_
    subst hc
    refine Alike.read rfl fun _ => Alike.read rfl fun _ => Alike.read rfl fun _ =>
      (tok_promise w (.claim w.st.delegList) 0).bind fun p q hq => ?_
    subst hq
    exact rfl
  | claimFees a b => exact tok_claimFees w a b
  | whitelist a x p b t c n y => exact tok_whitelist w a x p b t c n y
  | changeAdmin a p b => exact Alike.read rfl fun _ => Alike.read rfl fun _ => Alike.read rfl fun _ => tok_update w p _
  | changeParams a p t c n y e =>
    exact Alike.read rfl fun _ => Alike.read rfl fun _ => Alike.read rfl fun _ => Alike.read rfl fun _ => Alike.read rfl fun _ =>
      tok_update w p _
  | migrate a x b => exact tok_migrate w a x b
  | migratePending a x => exact tok_migratePending w a x
  | addRewards a x => exact tok_addRewards w a x
  | setMigrationSc a b => exact Alike.read rfl fun _ => Alike.read rfl fun _ => Alike.read rfl fun _ => rfl
  | registerLsToken a x =>
    exact Alike.read rfl fun _ => Alike.read rfl fun _ => Alike.read rfl fun _ => Alike.read (tok_req (tok_free _ _) _) fun _ => rfl
  | registerUnstakeToken a x =>
    exact Alike.read rfl fun _ => Alike.read rfl fun _ => Alike.read rfl fun _ => Alike.read (tok_req (tok_free _ _) _) fun _ => rfl
  | owner a cmd =>
    refine Alike.read rfl fun _ => Alike.read rfl fun _ => (tok_cmd w cmd).bind fun p q hq => ?_
    subst hq
    exact rfl
  | setScoringConfig a g => exact Alike.read rfl fun _ => Alike.read rfl fun _ => Alike.read rfl fun _ => rfl
  | viewLsValue x =>
    show Alike (Tok f) (viewLsValue w x >>= _) (viewLsValue (tokWorld f w) x >>= _)
    refine Alike.bind (S := fun p q : Nat × World => q = (p.1, tokWorld f p.2)) ?_ fun p q hq => ?_
    · refine (tok_cacheNew w).bind fun c d hc => ?_
      subst hc
      exact Alike.read rfl fun e => rfl
    · subst hq; exact rfl
  | viewEgldPosition x =>
    show Alike (Tok f) (viewEgldPosition w x >>= _) (viewEgldPosition (tokWorld f w) x >>= _)
    refine Alike.bind (S := fun p q : Nat × World => q = (p.1, tokWorld f p.2)) ?_ fun p q hq => ?_
    · refine (tok_cacheNew w).bind fun c d hc => ?_
      subst hc
      exact Alike.read rfl fun e => rfl
    · subst hq; exact rfl
  | deliver i o => exact tok_deliver w i o
  | issued i o => exact tok_issued hf w i o
  | starve i o => exact tok_starve w i o
  | transferLs a b x => exact Alike.read rfl fun _ => Alike.read rfl fun _ => Alike.read rfl fun _ => rfl
  | transferNft a b n x => exact Alike.read rfl fun _ => Alike.read rfl fun _ => Alike.read rfl fun _ => rfl
  | fund a x => exact Alike.read rfl fun _ => rfl
  | advance e => exact Alike.read rfl fun _ => rfl
  | changeOwner a b => exact Alike.read rfl fun _ => Alike.read rfl fun _ => rfl
  | burnLs a x => exact Alike.read rfl fun _ => Alike.read rfl fun _ => rfl
  | burnUnstake a n x => exact Alike.read rfl fun _ => Alike.read rfl fun _ => rfl
  | transferEgld a b x => exact Alike.read rfl fun _ => Alike.read rfl fun _ => Alike.read rfl fun _ => rfl
  | giveEgld a x => exact Alike.read rfl fun _ => Alike.read rfl fun _ => Alike.read rfl fun _ => rfl
  | giveLs a x => exact Alike.read rfl fun _ => Alike.read rfl fun _ => Alike.read rfl fun _ => rfl
  | giveUnstake a n x => exact Alike.read rfl fun _ => Alike.read rfl fun _ => Alike.read rfl fun _ => rfl

end

end LS
