import Verif.Spec.Names
import Verif.Proofs.Front

/-! A transaction with other token identifiers does what it does, with other token identifiers. -/

namespace LS
open Spec

def tokCache (f : TokenId → TokenId) (c : Cache) : Cache := { c with lsTokenId := f c.lsTokenId }

/-- The second world is the first one with other identifiers. -/
abbrev Tok (f : TokenId → TokenId) : World → World → Prop := fun w v => v = tokWorld f w

abbrev TokN (f : TokenId → TokenId) : World × Nat → World × Nat → Prop := fun x y => y = (tokWorld f x.1, x.2)

abbrev TokC (f : TokenId → TokenId) : World × Cache → World × Cache → Prop := fun x y => y = (tokWorld f x.1, tokCache f x.2)

abbrev TokCN (f : TokenId → TokenId) : World × Cache × Nat → World × Cache × Nat → Prop :=
  fun x y => y = (tokWorld f x.1, tokCache f x.2.1, x.2.2)

abbrev Cached (f : TokenId → TokenId) {α : Type} : α × Cache → α × Cache → Prop := fun x y => y = (x.1, tokCache f x.2)

abbrev Kept (f : TokenId → TokenId) : Cache → Cache → Prop := fun c d => d = tokCache f c

section
variable {f : TokenId → TokenId}

theorem tok_req {P Q : Prop} [Decidable P] [Decidable Q] (h : Q ↔ P) (e : Err) : req P e = req Q e := by
  unfold req
  by_cases hp : P
  · rw [if_pos hp, if_pos (h.2 hp)]
  · rw [if_neg hp, if_neg (fun hq => hp (h.1 hq))]

theorem tok_cacheNew (w : World) : Alike (Kept f) (cacheNew w.st) (cacheNew (tokWorld f w).st) := by
  show Alike _ _ (match w.st.lsToken.map f with | some t => _ | none => _)
  unfold cacheNew
  cases w.st.lsToken <;> exact rfl

theorem tok_emit (w : World) (c : Cache) (x : EventKind) (a : Addr) : emit (tokWorld f w) (tokCache f c) x a = tokWorld f (emit w c x a) := by
  unfold emit
  simp only [tokWorld, List.map_append, List.map_cons, List.map_nil, tokEvent, tokCache]

theorem tok_commit (w : World) (c : Cache) : commit (tokWorld f w) (tokCache f c) = tokWorld f (commit w c) := rfl

theorem tok_final (w : World) (c : Cache) (x : EventKind) (a : Addr) :
    commit (emit (tokWorld f w) (tokCache f c) x a) (tokCache f c) = tokWorld f (commit (emit w c x a) c) := by
  rw [tok_emit]; rfl

theorem tok_payEgld (w : World) (c : Addr) (x : Nat) : Alike (Tok f) (payEgld w c x) (payEgld (tokWorld f w) c x) :=
  Alike.read rfl fun _ => rfl

theorem tok_sendEgld (w : World) (c : Addr) (x : Nat) : Alike (Tok f) (sendEgld w c x) (sendEgld (tokWorld f w) c x) :=
  Alike.read rfl fun _ => rfl

theorem tok_some (hf : Function.Injective f) (o : Option TokenId) (t : TokenId) : (o.map f = some (f t)) ↔ (o = some t) := by
  cases o with
  | none => simp
  | some u => simp [hf.eq_iff]

theorem tok_payEsdt1 (hf : Function.Injective f) (w : World) (c : Addr) (p : Payment) :
    Alike (Tok f) (payEsdt1 w c p) (payEsdt1 (tokWorld f w) c (tokPay f p)) := by
  have h1 : ((tokWorld f w).st.lsToken = some (tokPay f p).token) ↔ (w.st.lsToken = some p.token) := tok_some hf _ _
  have h2 : ((tokWorld f w).st.unstakeToken = some (tokPay f p).token) ↔ (w.st.unstakeToken = some p.token) := tok_some hf _ _
  unfold payEsdt1
  simp only [h1, h2]
  exact Alike.ite (fun _ => Alike.ite (fun _ => Alike.read rfl fun _ => rfl) fun _ => rfl) fun _ =>
    Alike.ite (fun _ => Alike.read rfl fun _ => rfl) fun _ => rfl

theorem tok_payEsdts (hf : Function.Injective f) (c : Addr) (ps : List Payment) : ∀ w : World,
    Alike (Tok f) (payEsdts w c ps) (payEsdts (tokWorld f w) c (ps.map (tokPay f))) := by
  induction ps with
  | nil => intro w; exact rfl
  | cons p ps ih =>
    intro w
    refine (tok_payEsdt1 hf w c p).bind fun a b hm => ?_
    subst hm
    exact ih a

theorem tok_payAny (hf : Function.Injective f) (w : World) (c : Addr) (x : Nat) (ps : List Payment) :
    Alike (Tok f) (payAny w c x ps) (payAny (tokWorld f w) c x (ps.map (tokPay f))) := by
  refine Alike.read (tok_req (by simp) _) fun _ => (tok_payEgld w c x).bind fun a b hm => ?_
  subst hm
  exact tok_payEsdts hf c ps a

theorem tok_sendLs (w : World) (c : Addr) (x : Nat) : Alike (Tok f) (sendLs w c x) (sendLs (tokWorld f w) c x) :=
  Alike.read rfl fun _ => rfl

theorem tok_burnLs (w : World) (x : Nat) : Alike (Tok f) (burnLs w x) (burnLs (tokWorld f w) x) :=
  Alike.read rfl fun _ => rfl

theorem tok_nftBurn (w : World) (n x : Nat) : Alike (Tok f) (nftBurn w n x) (nftBurn (tokWorld f w) n x) :=
  Alike.read rfl fun _ => rfl

theorem tok_sendNft (w : World) (c : Addr) (n x : Nat) : Alike (Tok f) (sendNft w c n x) (sendNft (tokWorld f w) c n x) :=
  Alike.read rfl fun _ => rfl

theorem tok_nftAdd (w : World) (n x : Nat) : Alike (Tok f) (nftAddQuantity w n x) (nftAddQuantity (tokWorld f w) n x) := by
  unfold nftAddQuantity
  exact Alike.ite (fun _ => rfl) fun _ => rfl

theorem tok_poolAdd (x : Nat) (c : Cache) : Alike (Cached f) (poolAdd x c) (poolAdd x (tokCache f c)) :=
  Alike.read rfl fun _ => rfl

theorem tok_poolRemove (x : Nat) (c : Cache) : Alike (Cached f) (poolRemove x c) (poolRemove x (tokCache f c)) :=
  Alike.read rfl fun _ => Alike.read rfl fun _ => Alike.read rfl fun _ => rfl

theorem tok_clean (w : World) (n : Nat) (e : UInt64) :
    Alike (Tok f) (cleanOldUnbondEpochs w n e) (cleanOldUnbondEpochs (tokWorld f w) n e) := by
  refine Alike.read rfl fun a => Alike.ite (fun _ => ?_) fun _ => rfl
  exact tok_nftBurn { w with st := { w.st with unstakeNonce := w.st.unstakeNonce.set a.unbondEpoch 0 } } n _

theorem tok_ne (o : Option TokenId) : (o.map f ≠ none) ↔ (o ≠ none) := by cases o <;> simp

theorem tok_mint (w : World) (a : Attrs) (x : Nat) (e g : UInt64) :
    Alike (TokN f) (mintUnstakeTokens w a x e g) (mintUnstakeTokens (tokWorld f w) a x e g) := by
  unfold mintUnstakeTokens
  refine Alike.ite (fun _ => Alike.read (tok_req (tok_ne _) _) fun _ => ?_) fun _ => Alike.read (tok_req (tok_ne _) _) fun _ => ?_
  · refine Alike.ite (fun _ => ?_) fun _ => rfl
    refine (tok_clean { (nftCreate w (x + 1) a).1 with st := { (nftCreate w (x + 1) a).1.st with
      unstakeNonce := (nftCreate w (x + 1) a).1.st.unstakeNonce.set e (nftCreate w (x + 1) a).2 } } _ _).bind fun p q hq => ?_
    subst hq
    exact rfl
  · refine (tok_nftAdd w _ _).bind fun p q hq => ?_
    subst hq
    exact rfl

theorem tok_decrease (c : Cache) (x : Nat) : Alike (Kept f) (decreasePending c x) (decreasePending (tokCache f c) x) :=
  Alike.read rfl fun _ => Alike.read rfl fun _ => rfl

theorem tok_increase (c : Cache) (x : Nat) : Alike (Kept f) (increasePending c x) (increasePending (tokCache f c) x) :=
  Alike.read rfl fun _ => rfl

theorem tok_processDelegation (w : World) (a : Addr) (c : Cache) (x y : Nat) :
    Alike (TokC f) (processDelegation w a c x y) (processDelegation (tokWorld f w) a (tokCache f c) x y) := by
  unfold processDelegation
  refine Alike.bind (S := Kept f) (Alike.ite (fun _ => tok_decrease c x) fun _ => rfl) fun c1 d1 h1 => ?_
  subst h1
  refine Alike.bind (S := Kept f) (Alike.ite (fun _ => tok_increase c1 y) fun _ => rfl) fun c2 d2 h2 => ?_
  subst h2
  refine Alike.ite (fun _ => (tok_poolAdd _ _).bind fun p q hq => ?_) fun _ => rfl
  subst hq
  refine (tok_sendLs (mintLs w p.1) _ _).bind fun v u hu => ?_
  subst hu
  exact Prod.ext (tok_emit _ _ _ _) rfl

theorem tok_instantRedemption (w : World) (a : Addr) (c : Cache) (x : Nat) :
    Alike (TokC f) (instantRedemption w a c x) (instantRedemption (tokWorld f w) a (tokCache f c) x) := by
  unfold instantRedemption
  refine Alike.ite (fun _ => Alike.read rfl fun p => Alike.read rfl fun _ => ?_) fun _ => rfl
  refine (tok_sendEgld w a x).bind fun p q hq => ?_
  subst hq
  exact rfl

theorem tok_undelegateAmount (w : World) (a : Addr) (c : Cache) (x : Nat) :
    Alike (TokC f) (undelegateAmount w a c x) (undelegateAmount (tokWorld f w) a (tokCache f c) x) := by
  unfold undelegateAmount
  refine Alike.ite (fun _ => Alike.read rfl fun p => ?_) fun _ => rfl
  refine (tok_mint w _ _ _ _).bind fun p q hq => ?_
  subst hq
  refine (tok_sendNft _ _ _ _).bind fun p q hq => ?_
  subst hq
  exact rfl

theorem tok_processUnDelegation (w : World) (a : Addr) (c : Cache) (x y : Nat) :
    Alike (TokC f) (processUnDelegation w a c x y) (processUnDelegation (tokWorld f w) a (tokCache f c) x y) := by
  unfold processUnDelegation
  refine (tok_instantRedemption w _ _ _).bind fun p q hq => ?_
  subst hq
  refine (tok_undelegateAmount _ _ _ _).bind fun p q hq => ?_
  subst hq
  exact Prod.ext (tok_emit _ _ _ _) rfl

theorem tok_withdrawOne (hf : Function.Injective f) (w : World) (a : Addr) (u : TokenId) (c : Cache) (t : Nat) (p : Payment) :
    Alike (TokCN f) (withdrawOne a u w c t p) (withdrawOne a (f u) (tokWorld f w) (tokCache f c) t (tokPay f p)) := by
  unfold withdrawOne
  refine Alike.read (tok_req hf.eq_iff _) fun _ => Alike.read rfl fun _ => Alike.read rfl fun b => Alike.read rfl fun _ =>
    Alike.ite (fun _ => ?_) fun _ => Alike.ite (fun _ => ?_) fun _ => rfl
  · refine (tok_nftBurn w _ _).bind fun p q hq => ?_
    subst hq
    exact Alike.read rfl fun _ => rfl
  · refine (tok_nftBurn w _ _).bind fun p q hq => ?_
    subst hq
    refine Alike.read rfl fun _ => (tok_sendNft _ _ _ _).bind fun p q hq => ?_
    subst hq
    exact rfl

theorem tok_withdrawLoop (hf : Function.Injective f) (a : Addr) (u : TokenId) (ps : List Payment) : ∀ (w : World) (c : Cache) (t : Nat),
    Alike (TokCN f) (withdrawLoop a u ps w c t) (withdrawLoop a (f u) (ps.map (tokPay f)) (tokWorld f w) (tokCache f c) t) := by
  induction ps with
  | nil => intro w c t; exact rfl
  | cons p ps ih =>
    intro w c t
    refine (tok_withdrawOne hf w a u c t p).bind fun x y hxy => ?_
    subst hxy
    exact ih _ _ _

end

end LS
