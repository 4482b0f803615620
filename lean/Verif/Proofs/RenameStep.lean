import Verif.Proofs.Rename

/-! A transaction with other names, continued: providers, batches, callbacks, and every transaction. -/

namespace LS
open Spec

section
variable (f : Addr → Addr)

def renInfo (i : SelInfo) : SelInfo := { i with address := f i.address }

def renSel (s : Selection) : Selection := { s with address := f s.address }

end

section
variable {f : Addr → Addr}

abbrev RenInfos (f : Addr → Addr) : List SelInfo × Nat → List SelInfo × Nat → Prop := fun x y => y = (x.1.map (renInfo f), x.2)

abbrev RenSels (f : Addr → Addr) {α : Type} : List Selection × α → List Selection × α → Prop := fun x y => y = (x.1.map (renSel f), x.2)

theorem ren_updateScore (i : SelInfo) (b : Bool) (t : Nat) (g : ScoringConfig) :
    Alike (fun x y => y = renInfo f x) (updateScore i b t g) (updateScore (renInfo f i) b t g) := by
  unfold updateScore
  exact Alike.read rfl fun _ => Alike.read rfl fun _ => Alike.read rfl fun _ => rfl

theorem ren_updateScores (b : Bool) (t : Nat) (g : ScoringConfig) (l : List SelInfo) :
    Alike (RenInfos f) (updateScores b t g l) (updateScores b t g (l.map (renInfo f))) := by
  induction l with
  | nil => exact rfl
  | cons i l ih =>
    refine (ren_updateScore i b t g).bind fun x y hxy => ?_
    subst hxy
    refine ih.bind fun p q hq => ?_
    subst hq
    exact rfl

theorem ren_distributeLoop (a t : Nat) (b : Bool) (m : Nat) (l : List SelInfo) : ∀ r : Nat,
    Alike (RenSels f) (distributeLoop a t b m l r) (distributeLoop a t b m (l.map (renInfo f)) r) := by
  induction l with
  | nil => intro r; exact rfl
  | cons i l ih =>
    intro r
    refine Alike.read rfl fun x => Alike.ite (fun _ => Alike.read rfl fun r' => Alike.read rfl fun s => ?_) fun _ => ih r
    refine (ih r').bind fun p q hq => ?_
    subst hq
    exact rfl

theorem ren_fillOne (b : Bool) (p : Selection) (r : Nat) :
    Alike (fun x y => y = (renSel f x.1, x.2)) (fillOne b p r) (fillOne b (renSel f p) r) := by
  unfold fillOne
  refine Alike.ite (fun _ => Alike.read rfl fun s => Alike.ite (fun _ => rfl) fun _ => rfl) fun _ => ?_
  show Alike _ _ (match p.spaceLeft with | none => _ | some space => _)
  cases p.spaceLeft with
  | none => exact rfl
  | some s => exact Alike.ite (fun _ => rfl) fun _ => rfl

theorem ren_remainingLoop (b : Bool) (l : List Selection) : ∀ r : Nat,
    Alike (RenSels f) (handleRemainingLoop b l r) (handleRemainingLoop b (l.map (renSel f)) r) := by
  induction l with
  | nil => intro r; exact rfl
  | cons p l ih =>
    intro r
    refine (ren_fillOne b p r).bind fun x y hxy => ?_
    subst hxy
    refine Alike.ite (fun _ => rfl) fun _ => ?_
    refine (ih x.2).bind fun p q hq => ?_
    subst hq
    exact rfl

theorem ren_handleRemaining (l : List Selection) (r : Nat) (b : Bool) (c : Cache) :
    Alike (RenSels f) (handleRemaining l r b c) (handleRemaining (l.map (renSel f)) r b c) := by
  unfold handleRemaining
  refine Alike.ite (fun _ => rfl) fun _ => (ren_remainingLoop b l r).bind fun p q hq => ?_
  subst hq
  exact Alike.ite (fun _ => Alike.ite (fun _ => rfl) fun _ => rfl) fun _ => rfl

theorem ren_distribute (l : List SelInfo) (a m : Nat) (b : Bool) (t : Nat) (g : ScoringConfig) (c : Cache) :
    Alike (RenSels f) (distributeAmount l a m b t g c) (distributeAmount (l.map (renInfo f)) a m b t g c) := by
  unfold distributeAmount
  refine (ren_updateScores b t g l).bind fun p q hq => ?_
  subst hq
  refine (ren_distributeLoop _ _ _ _ _ _).bind fun p q hq => ?_
  subst hq
  exact ren_handleRemaining _ _ _ _

variable (hf : ∀ a b, f a = f b → a = b)
include hf

theorem ren_data (s : Store) (a : Addr) : (renStore f s).data.get none (f a) = (s.data.get none a).map (renData f) :=
  renMap_get (f := f) (g := Option.map (renData f)) hf rfl s.data a

theorem ren_data_set (s : Store) (a : Addr) (d : Option ProviderData) :
    (renStore f s).data.set (f a) (d.map (renData f)) = renMap f (Option.map (renData f)) (s.data.set a d) :=
  renMap_set (f := f) (g := Option.map (renData f)) hf s.data a d

theorem ren_getData (s : Store) (a : Addr) : Alike (fun x y => y = renData f x) (getData s a) (getData (renStore f s) (f a)) := by
  unfold getData
  rw [ren_data hf]
  cases s.data.get none a with
  | none => exact rfl
  | some d => exact rfl

theorem ren_known (s : Store) (a : Addr) : ((renStore f s).data.get none (f a) = none) ↔ (s.data.get none a = none) := by
  rw [ren_data hf]
  exact Option.map_eq_none_iff

theorem ren_consider (s : Store) (m : Nat) (a : Addr) (l : List SelInfo) (t : Nat) :
    Alike (RenInfos f) (considerProvider s m a l t) (considerProvider (renStore f s) m (f a) (l.map (renInfo f)) t) := by
  unfold considerProvider
  refine (ren_getData hf s a).bind fun d e he => ?_
  subst he
  refine Alike.read rfl fun x => Alike.ite (fun _ => Alike.read rfl fun y => ?_) fun _ => rfl
  refine Alike.bind (S := fun x y => y = renInfo f x) ?_ fun i j hj => ?_
  · exact Alike.read rfl fun _ => Alike.read rfl fun _ => rfl
  · subst hj
    show _ = _
    simp only [List.map_append, List.map_cons, List.map_nil]

theorem ren_delegationLoop (s : Store) (m k : Nat) (as : List Addr) : ∀ (l : List SelInfo) (t : Nat),
    Alike (RenInfos f) (selectDelegationLoop s m k as l t) (selectDelegationLoop (renStore f s) m k (as.map f) (l.map (renInfo f)) t) := by
  induction as with
  | nil => intro l t; exact rfl
  | cons a as ih =>
    intro l t
    refine (ren_consider hf s m a l t).bind fun p q hq => ?_
    subst hq
    show Alike _ _ (if (p.1.map (renInfo f)).length = k then _ else _)
    rw [List.length_map]
    exact Alike.ite (fun _ => rfl) fun _ => ih _ _

theorem ren_undelegationLoop (s : Store) (m k g : Nat) (as : List Addr) : ∀ (l : List SelInfo) (t r : Nat),
    Alike (RenInfos f) (selectUndelegationLoop s m k g as l t r)
      (selectUndelegationLoop (renStore f s) m k g (as.map f) (l.map (renInfo f)) t r) := by
  induction as with
  | nil => intro l t r; exact rfl
  | cons a as ih =>
    intro l t r
    refine Alike.read rfl fun h => ?_
    show Alike _ _ (if asUsize h ≤ (l.map (renInfo f)).length then _ else if k ≤ (l.map (renInfo f)).length ∧ r = 0 then _ else _)
    rw [List.length_map]
    refine Alike.ite (fun _ => rfl) fun _ => Alike.ite (fun _ => rfl) fun _ => ?_
    refine (ren_getData hf s a).bind fun d e he => ?_
    subst he
    refine Alike.read rfl fun x => Alike.read rfl fun y => Alike.ite (fun _ => ?_) fun _ => ih _ _ _
    refine Alike.bind (S := fun x y => y = renInfo f x) ?_ fun i j hj => ?_
    · exact Alike.read rfl fun _ => Alike.read rfl fun _ => rfl
    · subst hj
      have h := ih (l ++ [i]) (t + x) (if y < r then r - y else 0)
      rw [List.map_append] at h
      exact h

theorem ren_select (s : Store) (x : Nat) (b : Bool) (c : Cache) :
    Alike (RenSels f) (getDelegationContract s x b c) (getDelegationContract (renStore f s) x b c) := by
  have hd : (s.delegList ≠ []) ↔ (s.delegList.map f ≠ []) := not_congr List.map_eq_nil_iff.symm
  have hu : (s.undelegList ≠ []) ↔ (s.undelegList.map f ≠ []) := not_congr List.map_eq_nil_iff.symm
  cases b with
  | true =>
    refine Alike.read (ren_req hf hd _) fun _ => ?_
    show Alike _ (handleDelegation s s.delegList x MIN_EGLD c) (handleDelegation (renStore f s) (s.delegList.map f) x MIN_EGLD c)
    unfold handleDelegation selectDelegationProviders
    rw [List.length_map]
    refine Alike.bind (S := RenInfos f) ?_ fun p q hq => ?_
    · exact Alike.read rfl fun k => ren_delegationLoop hf s _ k _ [] 0
    · subst hq
      exact Alike.read (ren_req hf (not_congr List.map_eq_nil_iff.symm) _) fun _ => Alike.read rfl fun _ => ren_distribute _ _ _ _ _ _ _
  | false =>
    refine Alike.read (ren_req hf hu _) fun _ => ?_
    show Alike _ (handleUndelegation s s.undelegList x MIN_EGLD c) (handleUndelegation (renStore f s) (s.undelegList.map f) x MIN_EGLD c)
    unfold handleUndelegation selectUndelegationProviders
    rw [List.length_map]
    refine Alike.bind (S := RenInfos f) ?_ fun p q hq => ?_
    · exact Alike.read rfl fun k => Alike.read rfl fun _ => Alike.read rfl fun _ => Alike.read rfl fun _ =>
        ren_undelegationLoop hf s _ k _ _ [] 0 _
    · subst hq
      exact Alike.read (ren_req hf (not_congr List.map_eq_nil_iff.symm) _) fun _ => Alike.read rfl fun _ => ren_distribute _ _ _ _ _ _ _

theorem ren_insert (l : List Addr) (a : Addr) : setInsert (l.map f) (f a) = (setInsert l a).map f := by
  unfold setInsert
  by_cases h : a ∈ l
  · rw [if_pos h, if_pos ((ren_mem hf l a).2 h)]
  · rw [if_neg h, if_neg fun h' => h ((ren_mem hf l a).1 h')]
    simp only [List.map_append, List.map_cons, List.map_nil]

theorem ren_erase (l : List Addr) (a : Addr) : (l.map f).erase (f a) = (l.erase a).map f := by
  induction l with
  | nil => rfl
  | cons b l ih =>
    rw [List.map_cons, List.erase_cons, List.erase_cons]
    by_cases h : b = a
    · subst h; simp only [beq_self_eq_true, if_true]
    · have h' : ¬f b = f a := fun e => h (hf _ _ e)
      simp only [beq_iff_eq, h, h', if_false, ih, List.map_cons]

theorem ren_moveToBack (l : List Addr) (a : Addr) : moveToBack (l.map f) (f a) = (moveToBack l a).map f := by
  unfold moveToBack
  rw [ren_erase hf, ren_insert hf]

theorem ren_swapRemove (l : List Addr) (a : Addr) : swapRemove (l.map f) (f a) = (swapRemove l a).map f := by
  unfold swapRemove
  by_cases h : a ∈ l
  · rw [if_pos h, if_pos ((ren_mem hf l a).2 h), List.getLast?_map]
    cases l.getLast? with
    | none => rfl
    | some z =>
      simp only [Option.map_some, ren_iff hf]
      by_cases hz : z = a
      · rw [if_pos hz, if_pos hz, List.map_dropLast]
      · rw [if_neg hz, if_neg hz, ← List.map_dropLast, List.map_map, List.map_map]
        refine List.map_congr_left fun x _ => ?_
        simp only [Function.comp, ren_iff hf]
        split <;> rfl
  · rw [if_neg h, if_neg fun h' => h ((ren_mem hf l a).1 h')]

theorem ren_inserts (as : List Addr) : ∀ l : List Addr, (as.map f).foldl setInsert (l.map f) = (as.foldl setInsert l).map f := by
  induction as with
  | nil => intro l; rfl
  | cons a as ih =>
    intro l
    rw [List.map_cons, List.foldl_cons, List.foldl_cons, ren_insert hf, ih]

theorem ren_update (w : World) (a : Addr) (g h : ProviderData → Res ProviderData)
    (hg : ∀ d, Alike (fun x y => y = renData f x) (g d) (h (renData f d))) :
    Alike (Ren f) (updateData w a g) (updateData (renWorld f w) (f a) h) := by
  unfold updateData
  refine (ren_getData hf w.st a).bind fun d e he => ?_
  subst he
  refine (hg d).bind fun x y hxy => ?_
  subst hxy
  have := ren_data_set hf w.st a (some x)
  show _ = _
  simp only [renWorld, renStore] at this ⊢
  rw [← this]
  rfl

theorem ren_promise (w : World) (x : Flight) (v : Nat) : Alike (Ren f) (registerPromise w x v) (registerPromise (renWorld f w) (renFlight f x) v) := by
  unfold registerPromise
  refine (renMap_debit hf w.egld w.self v).bind fun a b hm => ?_
  subst hm
  show _ = _
  simp only [renWorld, List.map_append, List.map_cons, List.map_nil]

theorem ren_delegateLoop (l : List Selection) : ∀ w : World,
    Alike (Ren f) (delegateLoop l w) (delegateLoop (l.map (renSel f)) (renWorld f w)) := by
  induction l with
  | nil => intro w; exact rfl
  | cons s l ih =>
    intro w
    have h := ren_update hf { w with st := { w.st with delegList := moveToBack w.st.delegList s.address } } s.address
      (fun d => .ok { d with pStake := d.pStake + s.amount }) (fun d => .ok { d with pStake := d.pStake + s.amount }) fun _ => rfl
    have e : renWorld f { w with st := { w.st with delegList := moveToBack w.st.delegList s.address } } =
        { renWorld f w with st := { (renWorld f w).st with delegList := moveToBack (renWorld f w).st.delegList (f s.address) } } := by
      simp only [renWorld, renStore, ren_moveToBack hf]
    rw [e] at h
    refine Alike.bind h fun a b hab => ?_
    subst hab
    refine (ren_promise hf a (.delegate s.address s.amount) _).bind fun a b hab => ?_
    subst hab
    exact ih a

theorem ren_undelegateLoop (l : List Selection) : ∀ w : World,
    Alike (Ren f) (undelegateLoop l w) (undelegateLoop (l.map (renSel f)) (renWorld f w)) := by
  induction l with
  | nil => intro w; exact rfl
  | cons s l ih =>
    intro w
    have h := ren_update hf { w with st := { w.st with undelegList := moveToBack w.st.undelegList s.address } } s.address
      (fun d => .ok { d with pUnstake := d.pUnstake + s.amount }) (fun d => .ok { d with pUnstake := d.pUnstake + s.amount }) fun _ => rfl
    have e : renWorld f { w with st := { w.st with undelegList := moveToBack w.st.undelegList s.address } } =
        { renWorld f w with st := { (renWorld f w).st with undelegList := moveToBack (renWorld f w).st.undelegList (f s.address) } } := by
      simp only [renWorld, renStore, ren_moveToBack hf]
    rw [e] at h
    refine Alike.bind h fun a b hab => ?_
    subst hab
    refine (ren_promise hf a (.undelegate s.address s.amount) _).bind fun a b hab => ?_
    subst hab
    exact ih a

theorem ren_removeCb (w : World) (p : Addr) (x : Nat) (b : Bool) :
    Alike (Ren f) (removeLiquidityCb w p x b) (removeLiquidityCb (renWorld f w) (f p) x b) := by
  unfold removeLiquidityCb
  refine Alike.read rfl fun c => ?_
  cases b
  · refine Alike.bind (ren_update hf w p _ _ ?_) fun a b hab => ?_
    · exact fun d => Alike.read rfl fun _ => rfl
    subst hab
    exact (congrArg (commit · _) (ren_emit hf a _ .general p))
  · refine Alike.bind (ren_update hf w p _ _ ?_) fun a b hab => ?_
    · exact fun d => Alike.read rfl fun _ => Alike.read rfl fun _ => rfl
    subst hab
    exact (congrArg (commit · _) (ren_emit hf a _ .general p))

theorem ren_addCb (w : World) (p : Addr) (x : Nat) (b : Bool) :
    Alike (Ren f) (addLiquidityCb w p x b) (addLiquidityCb (renWorld f w) (f p) x b) := by
  unfold addLiquidityCb
  refine Alike.read rfl fun c => ?_
  cases b
  · refine Alike.bind (ren_update hf w p _ _ ?_) fun a b hab => ?_
    · exact fun d => Alike.read rfl fun _ => rfl
    subst hab
    exact (congrArg (commit · _) (ren_emit hf a _ .general p))
  · refine Alike.bind (ren_update hf w p _ _ ?_) fun a b hab => ?_
    · exact fun d => Alike.read rfl fun _ => rfl
    subst hab
    exact rfl

theorem ren_withdrawCb (w : World) (p : Addr) (x : Nat) :
    Alike (Ren f) (withdrawTokensCb w p x) (withdrawTokensCb (renWorld f w) (f p) x) := by
  unfold withdrawTokensCb
  refine Alike.ite (fun _ => Alike.read rfl fun c => Alike.read rfl fun _ => ?_) fun _ => rfl
  refine Alike.bind (ren_update hf w p _ _ ?_) fun a b hab => ?_
  · exact fun d => Alike.read rfl fun _ => rfl
  subst hab
  exact (congrArg (commit · _) (ren_emit hf a _ (.withdrawPending x p) p))

theorem ren_claimCb (hm : f DELEGATION_MANAGER = DELEGATION_MANAGER) (w : World) (x : Option Nat) :
    Alike (Ren f) (claimRewardsCb w x) (claimRewardsCb (renWorld f w) x) := by
  unfold claimRewardsCb
  cases x with
  | none => exact rfl
  | some y =>
    refine Alike.ite (fun _ => Alike.read rfl fun c => Alike.read rfl fun t => Alike.read rfl fun q => ?_) fun _ => rfl
    have h := ren_emit hf { w with events := w.events ++ [.protocolRevenue t w.epoch] } { c with r := { c.r with
        fees := c.r.fees + t, pending := c.r.pending + q, reserve := c.r.reserve + q } } (.claimRewards y) DELEGATION_MANAGER
    rw [hm] at h
    have e : renWorld f { w with events := w.events ++ [.protocolRevenue t w.epoch] } =
        { renWorld f w with events := (renWorld f w).events ++ [.protocolRevenue t (renWorld f w).epoch] } := by
      simp only [renWorld, List.map_append, List.map_cons, List.map_nil, renEvent]
    rw [e] at h
    exact congrArg (commit · _) h

theorem ren_whitelistCb (w : World) (p : Addr) (x : Nat) (u : Addr) (b : Bool) :
    Alike (Ren f) (whitelistCb w p x u b) (whitelistCb (renWorld f w) (f p) x (f u) b) := by
  unfold whitelistCb
  refine Alike.read rfl fun c => ?_
  cases b with
  | true =>
    refine Alike.bind (ren_update hf w p _ _ ?_) fun a b hab => ?_
    · exact fun d => rfl
    subst hab
    refine Alike.read rfl fun q => ?_
    have h := ren_sendLs hf (emit (mintLs { a with st := { a.st with
      delegList := setInsert a.st.delegList p, undelegList := setInsert a.st.undelegList p } } q.1) q.2 (.addLiquidity x) u) u q.1
    have e : renWorld f (emit (mintLs { a with st := { a.st with
          delegList := setInsert a.st.delegList p, undelegList := setInsert a.st.undelegList p } } q.1) q.2 (.addLiquidity x) u) =
        emit (mintLs { renWorld f a with st := { (renWorld f a).st with
          delegList := setInsert (renWorld f a).st.delegList (f p)
          undelegList := setInsert (renWorld f a).st.undelegList (f p) } } q.1) q.2 (.addLiquidity x) (f u) := by
      rw [← ren_emit hf, ← ren_mintLs hf]
      simp only [renWorld, renStore, ren_insert hf, renKind]
    rw [e] at h
    refine Alike.bind h fun a b hab => ?_
    subst hab
    exact rfl
  | false =>
    have h := ren_sendEgld hf { w with st := { w.st with data := w.st.data.set p none } } u x
    have e : renWorld f { w with st := { w.st with data := w.st.data.set p none } } =
        { renWorld f w with st := { (renWorld f w).st with data := (renWorld f w).st.data.set (f p) none } } := by
      have := ren_data_set hf w.st p none
      simp only [renWorld, renStore, Option.map_none] at this ⊢
      rw [this]
    rw [e] at h
    refine Alike.bind h fun a b hab => ?_
    subst hab
    exact rfl

theorem ren_callback (hm : f DELEGATION_MANAGER = DELEGATION_MANAGER) (w : World) (x : Flight) (o : Outcome) :
    Alike (Ren f) (runCallback w x o) (runCallback (renWorld f w) (renFlight f x) o) := by
  cases x with
  | delegate p x => cases o with
    | ok g r => exact ren_addCb hf w p x true
    | err => exact ren_addCb hf w p x false
  | undelegate p x => cases o with
    | ok g r => exact ren_removeCb hf w p x true
    | err => exact ren_removeCb hf w p x false
  | withdraw p => cases o with
    | ok g r => exact ren_withdrawCb hf w p g
    | err => exact ren_withdrawCb hf w p 0
  | claim l => cases o with
    | ok g r => exact ren_claimCb hf hm w (some r)
    | err => exact rfl
  | whitelist p x u => cases o with
    | ok g r => exact ren_whitelistCb hf w p x u true
    | err => exact ren_whitelistCb hf w p x u false

theorem ren_attached (x : Flight) (o : Outcome) : attached (renFlight f x) o = attached x o := by
  cases x <;> cases o <;> rfl

theorem ren_eraseIdx {α : Type} (g : α → α) (l : List α) : ∀ i : Nat, (l.map g).eraseIdx i = (l.eraseIdx i).map g := by
  induction l with
  | nil => intro i; rfl
  | cons a l ih =>
    intro i
    cases i with
    | zero => rfl
    | succ i => simp only [List.map_cons, List.eraseIdx_cons_succ, ih]

theorem ren_arrive (w : World) (i : Nat) (x : Flight) (o : Outcome) :
    arrive (renWorld f w) i (renFlight f x) o = renWorld f (arrive w i x o) := by
  unfold arrive
  simp only [renWorld, ren_attached hf, renMap_credit hf, ren_eraseIdx hf]

theorem ren_kill (w : World) (x : Flight) :
    { renWorld f w with dead := (renWorld f w).dead ++ [renFlight f x] } = renWorld f { w with dead := w.dead ++ [x] } := by
  simp only [renWorld, List.map_append, List.map_cons, List.map_nil]

theorem ren_deliver (hm : f DELEGATION_MANAGER = DELEGATION_MANAGER) (w : World) (i : Nat) (o : Outcome) :
    Alike (Ren f) (deliver w i o) (deliver (renWorld f w) i o) := by
  unfold deliver
  have e : (renWorld f w).flights[i]? = w.flights[i]?.map (renFlight f) := List.getElem?_map
  rw [e]
  cases w.flights[i]? with
  | none => exact rfl
  | some x =>
    simp only [Option.map_some, ren_arrive hf]
    have h := ren_callback hf hm (arrive w i x o) x o
    cases hw : runCallback (arrive w i x o) x o with
    | ok a => cases hv : runCallback (renWorld f (arrive w i x o)) (renFlight f x) o with
      | ok b => rw [hw, hv] at h; exact h
      | error e => rw [hw, hv] at h; exact h.elim
    | error e => cases hv : runCallback (renWorld f (arrive w i x o)) (renFlight f x) o with
      | ok b => rw [hw, hv] at h; exact h.elim
      | error e => exact ren_kill hf _ _

theorem ren_starve (w : World) (i : Nat) (o : Outcome) : Alike (Ren f) (starve w i o) (starve (renWorld f w) i o) := by
  unfold starve
  have e : (renWorld f w).flights[i]? = w.flights[i]?.map (renFlight f) := List.getElem?_map
  rw [e]
  cases w.flights[i]? with
  | none => exact rfl
  | some x =>
    simp only [Option.map_some, ren_arrive hf]
    exact ren_kill hf _ _

theorem ren_setToken (s : Store) (k : TokenKind) (t : Option TokenId) : setToken (renStore f s) k t = renStore f (setToken s k t) := by
  cases k <;> rfl

theorem ren_tokenOf (s : Store) (k : TokenKind) : tokenOf s k = tokenOf (renStore f s) k := by
  cases k <;> rfl

theorem ren_issueCb (w : World) (x : Issue) (o : Option TokenId) : Alike (Ren f) (issueCb w x o) (issueCb (renWorld f w) (renIssue f x) o) := by
  cases o with
  | none =>
    refine (ren_sendEgld hf w x.caller x.cost).bind fun a b hab => ?_
    subst hab
    show _ = _
    have := ren_setToken hf a.st x.kind none
    simp only [renWorld, renIssue, this]
  | some t =>
    show _ = _
    have := ren_setToken hf w.st x.kind (some t)
    simp only [renWorld, renIssue, this]

theorem ren_issued (w : World) (i : Nat) (o : Option TokenId) : Alike (Ren f) (issued w i o) (issued (renWorld f w) i o) := by
  unfold issued
  have e : (renWorld f w).issues[i]? = w.issues[i]?.map (renIssue f) := List.getElem?_map
  rw [e]
  cases w.issues[i]? with
  | none => exact rfl
  | some x =>
    refine Alike.read ?_ fun _ => ?_
    · refine ren_req hf ?_ _
      show (o = none ∨ tokenOf w.st x.kind.other ≠ o) ↔ (o = none ∨ tokenOf (renStore f w.st) x.kind.other ≠ o)
      rw [← ren_tokenOf hf]
    · have h := ren_issueCb hf { w with
        issues := w.issues.eraseIdx i, egld := (if o = none then credit w.egld w.self x.cost else w.egld) } x o
      have e : renWorld f { w with issues := w.issues.eraseIdx i, egld := (if o = none then credit w.egld w.self x.cost else w.egld) } =
          { renWorld f w with issues := (renWorld f w).issues.eraseIdx i
                              egld := (if o = none then credit (renWorld f w).egld (renWorld f w).self (renIssue f x).cost
                                else (renWorld f w).egld) } := by
        cases o with
        | none => simp only [renWorld, renIssue, ren_eraseIdx hf, if_true, renMap_credit hf]
        | some t => simp only [renWorld, renIssue, ren_eraseIdx hf, reduceCtorEq, if_false]
      rw [e] at h
      exact h

theorem ren_cmd (s : Store) (cmd : OwnerCmd) : Alike (fun x y => y = renStore f x) (applyOwnerCmd s cmd) (applyOwnerCmd (renStore f s) (renCmd f cmd)) := by
  cases cmd with
  | maxAddresses v => exact Alike.read rfl fun _ => rfl
  | maxSelected v => exact Alike.read rfl fun _ => rfl
  | addManagers l =>
    show _ = _
    simp only [renStore, ren_inserts hf]
  | removeManager a =>
    show _ = _
    simp only [renStore, ren_swapRemove hf]
  | _ => exact rfl

end

end LS
