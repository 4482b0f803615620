import Verif.Proofs.Late

/-! Some epochs later, continued: providers, batches, callbacks, and every transaction. -/

namespace LS
open Spec

section
variable {k : UInt64}

theorem late_delegationLoop (w : World) (m j : Nat) (as : List Addr) : ∀ (l : List SelInfo) (t : Nat),
    selectDelegationLoop w.st m j as l t = selectDelegationLoop (lateWorld k w).st m j as l t := by
  induction as with
  | nil => intro l t; rfl
  | cons a as ih =>
    intro l t
    have hc : considerProvider w.st m a l t = considerProvider (lateWorld k w).st m a l t := rfl
    simp only [selectDelegationLoop, hc, ih]

theorem late_undelegationLoop (w : World) (m j g : Nat) (as : List Addr) : ∀ (l : List SelInfo) (t r : Nat),
    selectUndelegationLoop w.st m j g as l t r = selectUndelegationLoop (lateWorld k w).st m j g as l t r := by
  induction as with
  | nil => intro l t r; rfl
  | cons a as ih =>
    intro l t r
    have hd : getData w.st a = getData (lateWorld k w).st a := rfl
    have hm : w.st.maxSelectedProviders = (lateWorld k w).st.maxSelectedProviders := rfl
    simp only [selectUndelegationLoop, hd, hm, ih]

theorem late_select (w : World) (x : Nat) (b : Bool) (c : Cache) :
    getDelegationContract w.st x b c = getDelegationContract (lateWorld k w).st x b c := by
  have h1 : (lateWorld k w).st.delegList = w.st.delegList := rfl
  have h2 : (lateWorld k w).st.undelegList = w.st.undelegList := rfl
  have h3 : ∀ x y n, maxProviders (lateWorld k w).st x y n = maxProviders w.st x y n := fun _ _ _ => rfl
  have h4 : getScoringConfig (lateWorld k w).st = getScoringConfig w.st := rfl
  have h5 : (lateWorld k w).st.maxSelectedProviders = w.st.maxSelectedProviders := rfl
  unfold getDelegationContract handleDelegation handleUndelegation selectDelegationProviders selectUndelegationProviders
  simp only [h1, h2, h3, h4, h5, ← late_delegationLoop, ← late_undelegationLoop]

theorem late_update (w : World) (a : Addr) (g : ProviderData → Res ProviderData) :
    Alike (Late k) (updateData w a g) (updateData (lateWorld k w) a g) :=
  Alike.read rfl fun _ => Alike.read rfl fun _ => rfl

theorem late_promise (w : World) (x : Flight) (v : Nat) : Alike (Late k) (registerPromise w x v) (registerPromise (lateWorld k w) x v) :=
  Alike.read rfl fun _ => rfl

theorem late_delegateLoop (l : List Selection) : ∀ w : World,
    Alike (Late k) (delegateLoop l w) (delegateLoop l (lateWorld k w)) := by
  induction l with
  | nil => intro w; exact rfl
  | cons s l ih =>
    intro w
    have h := late_update (k := k) { w with st := { w.st with delegList := moveToBack w.st.delegList s.address } } s.address
      (fun d => .ok { d with pStake := d.pStake + s.amount })
    refine Alike.bind h fun a b hab => ?_
    subst hab
    refine (late_promise a (.delegate s.address s.amount) _).bind fun a b hab => ?_
    subst hab
    exact ih a

theorem late_undelegateLoop (l : List Selection) : ∀ w : World,
    Alike (Late k) (undelegateLoop l w) (undelegateLoop l (lateWorld k w)) := by
  induction l with
  | nil => intro w; exact rfl
  | cons s l ih =>
    intro w
    have h := late_update (k := k) { w with st := { w.st with undelegList := moveToBack w.st.undelegList s.address } } s.address
      (fun d => .ok { d with pUnstake := d.pUnstake + s.amount })
    refine Alike.bind h fun a b hab => ?_
    subst hab
    refine (late_promise a (.undelegate s.address s.amount) _).bind fun a b hab => ?_
    subst hab
    exact ih a

theorem late_removeCb (w : World) (p : Addr) (x : Nat) (b : Bool) :
    Alike (Late k) (removeLiquidityCb w p x b) (removeLiquidityCb (lateWorld k w) p x b) := by
  unfold removeLiquidityCb
  refine Alike.read rfl fun c => ?_
  cases b <;>
  · refine Alike.bind (late_update w p _) fun a b hab => ?_
    subst hab
    exact congrArg (commit · _) (late_emit a _ .general p)

theorem late_addCb (w : World) (p : Addr) (x : Nat) (b : Bool) :
    Alike (Late k) (addLiquidityCb w p x b) (addLiquidityCb (lateWorld k w) p x b) := by
  unfold addLiquidityCb
  refine Alike.read rfl fun c => ?_
  cases b
  · refine Alike.bind (late_update w p _) fun a b hab => ?_
    subst hab
    exact congrArg (commit · _) (late_emit a _ .general p)
  · refine Alike.bind (late_update w p _) fun a b hab => ?_
    subst hab
    exact rfl

theorem late_withdrawCb (w : World) (p : Addr) (x : Nat) :
    Alike (Late k) (withdrawTokensCb w p x) (withdrawTokensCb (lateWorld k w) p x) := by
  unfold withdrawTokensCb
  refine Alike.ite (fun _ => Alike.read rfl fun c => Alike.read rfl fun _ => ?_) fun _ => rfl
  refine Alike.bind (late_update w p _) fun a b hab => ?_
  subst hab
  exact congrArg (commit · _) (late_emit a _ (.withdrawPending x p) p)

theorem late_claimCb (w : World) (x : Option Nat) : Alike (Late k) (claimRewardsCb w x) (claimRewardsCb (lateWorld k w) x) := by
  unfold claimRewardsCb
  cases x with
  | none => exact rfl
  | some y =>
    refine Alike.ite (fun _ => Alike.read rfl fun c => Alike.read rfl fun t => Alike.read rfl fun q => ?_) fun _ => rfl
    have h := late_emit (k := k) { w with events := w.events ++ [.protocolRevenue t w.epoch] } { c with r := { c.r with
        fees := c.r.fees + t, pending := c.r.pending + q, reserve := c.r.reserve + q } } (.claimRewards y) DELEGATION_MANAGER
    have e : lateWorld k { w with events := w.events ++ [.protocolRevenue t w.epoch] } =
        { lateWorld k w with events := (lateWorld k w).events ++ [.protocolRevenue t (lateWorld k w).epoch] } := by
      simp only [lateWorld, List.map_append, List.map_cons, List.map_nil, lateEvent]
    rw [e] at h
    exact congrArg (commit · _) h

theorem late_whitelistCb (w : World) (p : Addr) (x : Nat) (u : Addr) (b : Bool) :
    Alike (Late k) (whitelistCb w p x u b) (whitelistCb (lateWorld k w) p x u b) := by
  unfold whitelistCb
  refine Alike.read rfl fun c => ?_
  cases b with
  | true =>
    refine Alike.bind (late_update w p _) fun a b hab => ?_
    subst hab
    refine Alike.read rfl fun q => ?_
    have h := late_sendLs (k := k) (emit (mintLs { a with st := { a.st with
      delegList := setInsert a.st.delegList p, undelegList := setInsert a.st.undelegList p } } q.1) q.2 (.addLiquidity x) u) u q.1
    rw [← late_emit] at h
    refine Alike.bind h fun a b hab => ?_
    subst hab
    exact rfl
  | false =>
    refine Alike.bind (late_sendEgld (k := k) { w with st := { w.st with data := w.st.data.set p none } } u x) fun a b hab => ?_
    subst hab
    exact rfl

theorem late_callback (w : World) (x : Flight) (o : Outcome) :
    Alike (Late k) (runCallback w x o) (runCallback (lateWorld k w) x o) := by
  cases x with
  | delegate p x => cases o with
    | ok g r => exact late_addCb w p x true
    | err => exact late_addCb w p x false
  | undelegate p x => cases o with
    | ok g r => exact late_removeCb w p x true
    | err => exact late_removeCb w p x false
  | withdraw p => cases o with
    | ok g r => exact late_withdrawCb w p g
    | err => exact late_withdrawCb w p 0
  | claim l => cases o with
    | ok g r => exact late_claimCb w (some r)
    | err => exact rfl
  | whitelist p x u => cases o with
    | ok g r => exact late_whitelistCb w p x u true
    | err => exact late_whitelistCb w p x u false

theorem late_arrive (w : World) (i : Nat) (x : Flight) (o : Outcome) : arrive (lateWorld k w) i x o = lateWorld k (arrive w i x o) := rfl

theorem late_deliver (w : World) (i : Nat) (o : Outcome) : Alike (Late k) (deliver w i o) (deliver (lateWorld k w) i o) := by
  unfold deliver
  show Alike _ _ (match w.flights[i]? with | none => _ | some f => _)
  cases w.flights[i]? with
  | none => exact rfl
  | some x =>
    simp only [late_arrive]
    have h := late_callback (k := k) (arrive w i x o) x o
    cases hw : runCallback (arrive w i x o) x o with
    | ok a => cases hv : runCallback (lateWorld k (arrive w i x o)) x o with
      | ok b => rw [hw, hv] at h; exact h
      | error e => rw [hw, hv] at h; exact h.elim
    | error e => cases hv : runCallback (lateWorld k (arrive w i x o)) x o with
      | ok b => rw [hw, hv] at h; exact h.elim
      | error e => exact rfl

theorem late_starve (w : World) (i : Nat) (o : Outcome) : Alike (Late k) (starve w i o) (starve (lateWorld k w) i o) := by
  unfold starve
  show Alike _ _ (match w.flights[i]? with | none => _ | some f => _)
  cases w.flights[i]? with
  | none => exact rfl
  | some x => exact rfl

theorem late_issueCb (w : World) (x : Issue) (o : Option TokenId) : Alike (Late k) (issueCb w x o) (issueCb (lateWorld k w) x o) := by
  have ht : ∀ (v : World) (t : Option TokenId), setToken (lateWorld k v).st x.kind t =
      (lateWorld k { v with st := setToken v.st x.kind t }).st := by
    intro v t
    cases x.kind <;> rfl
  cases o with
  | none =>
    refine (late_sendEgld w x.caller x.cost).bind fun a b hab => ?_
    subst hab
    show _ = _
    simp only [ht]
    rfl
  | some t =>
    show _ = _
    simp only [ht]
    rfl

theorem late_issued (w : World) (i : Nat) (o : Option TokenId) : Alike (Late k) (issued w i o) (issued (lateWorld k w) i o) := by
  unfold issued
  show Alike _ _ (match w.issues[i]? with | none => _ | some x => _)
  cases w.issues[i]? with
  | none => exact rfl
  | some x =>
    refine Alike.read ?_ fun _ => ?_
    · have ht : tokenOf (lateWorld k w).st x.kind.other = tokenOf w.st x.kind.other := by cases x.kind.other <;> rfl
      rw [ht]
    · exact late_issueCb { w with
        issues := w.issues.eraseIdx i, egld := (if o = none then credit w.egld w.self x.cost else w.egld) } x o

theorem late_cmd (w : World) (cmd : OwnerCmd) :
    Alike (fun x y => y = (lateWorld k { w with st := x }).st) (applyOwnerCmd w.st cmd) (applyOwnerCmd (lateWorld k w).st cmd) := by
  cases cmd with
  | maxAddresses v => exact Alike.read rfl fun _ => rfl
  | maxSelected v => exact Alike.read rfl fun _ => rfl
  | _ => exact rfl

theorem late_delegate (w : World) (a : Addr) (x : Nat) : Alike (Late k) (delegate w a x) (delegate (lateWorld k w) a x) := by
  refine Alike.read rfl fun _ => (late_pay w a x).bind fun p q hq => ?_
  subst hq
  refine Alike.read rfl fun c => Alike.read rfl fun _ => Alike.read rfl fun _ => Alike.read rfl fun y => ?_
  refine (late_processDelegation _ _ _ _ _).bind fun p q hq => ?_
  subst hq
  exact rfl

theorem late_unDelegate {w : World} (h : Roomy k w) (a : Addr) (x : Nat) (ps : List Payment) :
    Alike (Late k) (unDelegate w a x ps) (unDelegate (lateWorld k w) a x ps) := by
  refine Alike.read rfl fun _ => (late_payAny h a x ps).bind fun p q hq => ?_
  obtain ⟨rfl, h1⟩ := hq
  refine Alike.read rfl fun c => ?_
  match ps with
  | [] => exact rfl
  | [y] =>
    refine Alike.read rfl fun _ => Alike.read rfl fun _ => Alike.read rfl fun _ => Alike.read rfl fun z => ?_
    refine (late_burnLs h1 _).bind fun p q hq => ?_
    obtain ⟨rfl, h2⟩ := hq
    refine Alike.read rfl fun u => ?_
    refine (late_processUnDelegation h2 _ _ _ _).bind fun p q hq => ?_
    subst hq
    exact rfl
  | _ :: _ :: _ => exact rfl

theorem late_withdraw {w : World} (h : Roomy k w) (a : Addr) (x : Nat) (ps : List Payment) :
    Alike (Late k) (withdraw w a x ps) (withdraw (lateWorld k w) a x ps) := by
  refine Alike.read rfl fun _ => (late_payAny h a x ps).bind fun p q hq => ?_
  obtain ⟨rfl, h1⟩ := hq
  refine Alike.read rfl fun c => Alike.read rfl fun _ => ?_
  show Alike _ _ (match p.st.unstakeToken with | none => _ | some uid => _)
  cases p.st.unstakeToken with
  | none => exact rfl
  | some u =>
    refine (late_withdrawLoop _ _ _ _ _ h1).bind fun p q hq => ?_
    obtain ⟨rfl, h2⟩ := hq
    refine (late_sendEgld _ _ _).bind fun p q hq => ?_
    subst hq
    exact congrArg (commit · _) (late_emit _ _ .general a)

theorem late_delegatePending (w : World) (a : Addr) (x : Option Nat) :
    Alike (Late k) (delegatePending w a x) (delegatePending (lateWorld k w) a x) := by
  refine Alike.read rfl fun _ => Alike.read rfl fun c => Alike.read rfl fun _ => Alike.read rfl fun _ =>
    Alike.read rfl fun y => ?_
  refine Alike.read (late_select w _ _ _) fun p => ?_
  refine Alike.read rfl fun z => ?_
  refine (late_delegateLoop _ _).bind fun p q hq => ?_
  subst hq
  exact congrArg (commit · _) (late_emit _ _ .general a)

theorem late_unDelegatePending (w : World) (a : Addr) (x : Option Nat) :
    Alike (Late k) (unDelegatePending w a x) (unDelegatePending (lateWorld k w) a x) := by
  refine Alike.read rfl fun _ => Alike.read rfl fun c => Alike.read rfl fun _ => Alike.read rfl fun _ =>
    Alike.read rfl fun y => ?_
  refine Alike.read (late_select w _ _ _) fun p => ?_
  refine Alike.read rfl fun z => ?_
  refine (late_undelegateLoop _ _).bind fun p q hq => ?_
  subst hq
  exact congrArg (commit · _) (late_emit _ _ .general a)

theorem late_claimFees (w : World) (a : Addr) (b : Bool) : Alike (Late k) (claimFees w a b) (claimFees (lateWorld k w) a b) := by
  refine Alike.read rfl fun _ => Alike.read rfl fun c => Alike.read rfl fun _ => Alike.read rfl fun _ => ?_
  refine (late_sendEgld w w.st.accumulator _).bind fun p q hq => ?_
  subst hq
  cases b <;> exact rfl

theorem late_migration (w : World) (a : Addr) : requireMigration w a = requireMigration (lateWorld k w) a := rfl

theorem late_migrate (w : World) (a : Addr) (x : Nat) (b : Addr) :
    Alike (Late k) (migrate w a x b) (migrate (lateWorld k w) a x b) := by
  refine Alike.read rfl fun _ => Alike.read rfl fun c => Alike.read (late_migration w a) fun _ => Alike.read rfl fun y => ?_
  have h := late_sendLs (k := k) (emit (mintLs w y.1) y.2 (.addLiquidity x) b) a y.1
  rw [← late_emit] at h
  refine Alike.bind h fun p q hq => ?_
  subst hq
  exact rfl

theorem late_migratePending (w : World) (a : Addr) (x : Nat) :
    Alike (Late k) (migratePending w a x) (migratePending (lateWorld k w) a x) := by
  refine Alike.read rfl fun _ => (late_pay w a x).bind fun v q hq => ?_
  subst hq
  refine Alike.read rfl fun c => Alike.read (late_migration v a) fun _ => ?_
  have h := late_emit (k := k) v { c with r := { c.r with pending := c.r.pending + x } } .general a
  show _ = _
  simp only [h]
  rfl

theorem late_addRewards (w : World) (a : Addr) (x : Nat) : Alike (Late k) (addRewards w a x) (addRewards (lateWorld k w) a x) := by
  refine Alike.read rfl fun _ => (late_pay w a x).bind fun v q hq => ?_
  subst hq
  exact Alike.read rfl fun c => congrArg (commit · _) (late_emit _ _ .general a)

theorem late_whitelist (w : World) (a : Addr) (x : Nat) (p b : Addr) (t c : Nat) (n y : UInt64) :
    Alike (Late k) (whitelist w a x p b t c n y) (whitelist (lateWorld k w) a x p b t c n y) := by
  refine Alike.read rfl fun _ => (late_pay w a x).bind fun v q hq => ?_
  subst hq
  refine Alike.read rfl fun _ => Alike.read rfl fun _ => Alike.read rfl fun _ => Alike.read rfl fun _ => Alike.read rfl fun _ =>
    Alike.read rfl fun _ => ?_
  exact late_promise { v with st := { v.st with data := v.st.data.set p (some {
    admin := b, totalStaked := t, cap := c, nrNodes := n, apy := y,
    staked := 0, unstaked := 0, eligible := true, pStake := 0, pUnstake := 0 }) } } (.whitelist p x a) x

/-- Time passes: to an epoch before the current one it fails as well. -/
theorem late_advance {w : World} (h : Roomy k w) {e : UInt64} (he : w.epoch ≤ e → fits k e) :
    Alike (Late k) (advance w e) (advance (lateWorld k w) (e + k)) := by
  refine Alike.read ?_ fun _ => rfl
  have : fits k e := by
    by_cases hle : w.epoch ≤ e
    · exact he hle
    · have := h.now
      unfold fits at this ⊢
      rw [UInt64.le_iff_toNat_le] at hle
      omega
  have hc : ((lateWorld k w).epoch ≤ e + k) ↔ (w.epoch ≤ e) := late_le h.now this
  unfold req; simp only [hc]

/-- Every transaction, some epochs later, does what it does now, some epochs later. -/
theorem late_step {w : World} (h : Roomy k w) (op : Op) (he : ∀ e, op = .advance e → w.epoch ≤ e → fits k e) :
    Alike (Late k) (step w op) (step (lateWorld k w) (lateOp k op)) := by
  cases op with
  | delegate a x => exact late_delegate w a x
  | unDelegate a x ps => exact late_unDelegate h a x ps
  | withdraw a x ps => exact late_withdraw h a x ps
  | upgrade => exact rfl
  | delegatePending a x => exact late_delegatePending w a x
  | unDelegatePending a x => exact late_unDelegatePending w a x
  | withdrawPending a p =>
    refine Alike.read rfl fun _ => Alike.read rfl fun c => Alike.read rfl fun _ => Alike.read rfl fun _ => Alike.read rfl fun _ =>
      (late_promise w (.withdraw p) 0).bind fun p q hq => ?_
    subst hq
    exact rfl
  | claimRewards a =>
    refine Alike.read rfl fun _ => Alike.read rfl fun c => Alike.read rfl fun _ => Alike.read rfl fun _ => Alike.read rfl fun _ =>
      (late_promise w (.claim w.st.delegList) 0).bind fun p q hq => ?_
    subst hq
    exact rfl
  | claimFees a b => exact late_claimFees w a b
  | whitelist a x p b t c n y => exact late_whitelist w a x p b t c n y
  | changeAdmin a p b => exact Alike.read rfl fun _ => Alike.read rfl fun _ => Alike.read rfl fun _ => late_update w p _
  | changeParams a p t c n y e =>
    exact Alike.read rfl fun _ => Alike.read rfl fun _ => Alike.read rfl fun _ => Alike.read rfl fun _ => Alike.read rfl fun _ =>
      late_update w p _
  | migrate a x b => exact late_migrate w a x b
  | migratePending a x => exact late_migratePending w a x
  | addRewards a x => exact late_addRewards w a x
  | setMigrationSc a b => exact Alike.read rfl fun _ => Alike.read rfl fun _ => Alike.read rfl fun _ => rfl
  | registerLsToken a x => exact Alike.read rfl fun _ => Alike.read rfl fun _ => Alike.read rfl fun _ => Alike.read rfl fun _ => rfl
  | registerUnstakeToken a x => exact Alike.read rfl fun _ => Alike.read rfl fun _ => Alike.read rfl fun _ => Alike.read rfl fun _ => rfl
  | owner a cmd =>
    refine Alike.read rfl fun _ => Alike.read rfl fun _ => (late_cmd w cmd).bind fun p q hq => ?_
    subst hq
    exact rfl
  | setScoringConfig a g => exact Alike.read rfl fun _ => Alike.read rfl fun _ => Alike.read rfl fun _ => rfl
  | viewLsValue x =>
    show Alike (Late k) (viewLsValue w x >>= _) (viewLsValue (lateWorld k w) x >>= _)
    refine Alike.bind (S := fun p q : Nat × World => q = (p.1, lateWorld k p.2)) ?_ fun p q hq => ?_
    · exact Alike.read rfl fun c => Alike.read rfl fun e => rfl
    · subst hq; exact rfl
  | viewEgldPosition x =>
    show Alike (Late k) (viewEgldPosition w x >>= _) (viewEgldPosition (lateWorld k w) x >>= _)
    refine Alike.bind (S := fun p q : Nat × World => q = (p.1, lateWorld k p.2)) ?_ fun p q hq => ?_
    · exact Alike.read rfl fun c => Alike.read rfl fun e => rfl
    · subst hq; exact rfl
  | deliver i o => exact late_deliver w i o
  | issued i o => exact late_issued w i o
  | starve i o => exact late_starve w i o
  | transferLs a b x => exact Alike.read rfl fun _ => Alike.read rfl fun _ => Alike.read rfl fun _ => rfl
  | transferNft a b n x => exact Alike.read rfl fun _ => Alike.read rfl fun _ => Alike.read rfl fun _ => rfl
  | fund a x => exact Alike.read rfl fun _ => rfl
  | advance e => exact late_advance h (he e rfl)
  | changeOwner a b => exact Alike.read rfl fun _ => Alike.read rfl fun _ => rfl
  | burnLs a x => exact Alike.read rfl fun _ => Alike.read rfl fun _ => rfl
  | burnUnstake a n x => exact Alike.read rfl fun _ => Alike.read rfl fun _ => rfl
  | transferEgld a b x => exact Alike.read rfl fun _ => Alike.read rfl fun _ => Alike.read rfl fun _ => rfl
  | giveEgld a x => exact Alike.read rfl fun _ => Alike.read rfl fun _ => Alike.read rfl fun _ => rfl
  | giveLs a x => exact Alike.read rfl fun _ => Alike.read rfl fun _ => Alike.read rfl fun _ => rfl
  | giveUnstake a n x => exact Alike.read rfl fun _ => Alike.read rfl fun _ => Alike.read rfl fun _ => rfl

end

end LS
