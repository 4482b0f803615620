import Verif.Spec.Late
import Verif.Proofs.RenameStep

/-! A transaction some epochs later does what it does now, some epochs later. -/

namespace LS
open Spec

theorem late_inj (k : UInt64) (a b : UInt64) (h : a + k = b + k) : a = b := UInt64.add_left_inj k |>.1 h

theorem late_toNat {k e : UInt64} (h : fits k e) : (e + k).toNat = e.toNat + k.toNat := by
  rw [UInt64.toNat_add]
  exact Nat.mod_eq_of_lt h

theorem late_le {k a b : UInt64} (ha : fits k a) (hb : fits k b) : (a + k ≤ b + k) ↔ (a ≤ b) := by
  rw [UInt64.le_iff_toNat_le, UInt64.le_iff_toNat_le, late_toNat ha, late_toNat hb]
  omega

theorem late_lt {k a b : UInt64} (ha : fits k a) (hb : fits k b) : (a + k < b + k) ↔ (a < b) := by
  rw [UInt64.lt_iff_toNat_lt, UInt64.lt_iff_toNat_lt, late_toNat ha, late_toNat hb]
  omega

theorem late_add (k e p : UInt64) : e + k + p = e + p + k := by
  rw [UInt64.add_assoc, UInt64.add_comm k p, ← UInt64.add_assoc]

/-- The second world is the first one, later. -/
abbrev Late (k : UInt64) : World → World → Prop := fun w v => v = lateWorld k w

abbrev Late2 (k : UInt64) {α : Type} : World × α → World × α → Prop := fun x y => y = (lateWorld k x.1, x.2)

/-- The second world is the first one, later, and there is room. -/
abbrev LateR (k : UInt64) : World → World → Prop := fun w v => v = lateWorld k w ∧ Roomy k w

abbrev LateR2 (k : UInt64) {α : Type} : World × α → World × α → Prop := fun x y => y = (lateWorld k x.1, x.2) ∧ Roomy k x.1

section
variable {k : UInt64}

theorem roomy_same {w v : World} (h : Roomy k w) (he : v.epoch = w.epoch) (ha : v.attrs = w.attrs) : Roomy k v :=
  ⟨he ▸ h.now, ha ▸ h.tokens⟩

theorem late_attrs_get (m : Map Nat (Option Attrs)) (n : Nat) :
    Map.get none (renMap id (Option.map (lateAttrs k)) m) n = (Map.get none m n).map (lateAttrs k) :=
  renMap_get (f := id) (g := Option.map (lateAttrs k)) (fun _ _ h => h) rfl m n

theorem late_attrs_set (m : Map Nat (Option Attrs)) (n : Nat) (a : Attrs) :
    Map.set (renMap id (Option.map (lateAttrs k)) m) n (some (lateAttrs k a)) = renMap id (Option.map (lateAttrs k)) (Map.set m n (some a)) :=
  renMap_set (f := id) (g := Option.map (lateAttrs k)) (fun _ _ h => h) m n (some a)

theorem late_nonce_get (m : Map UInt64 Nat) (e : UInt64) : Map.get 0 (renMap (· + k) id m) (e + k) = Map.get 0 m e :=
  renMap_get (f := (· + k)) (g := id) (late_inj k) rfl m e

theorem late_nonce_set (m : Map UInt64 Nat) (e : UInt64) (n : Nat) :
    Map.set (renMap (· + k) id m) (e + k) n = renMap (· + k) id (Map.set m e n) :=
  renMap_set (f := (· + k)) (g := id) (late_inj k) m e n

theorem late_emit (w : World) (c : Cache) (x : EventKind) (a : Addr) : emit (lateWorld k w) c x a = lateWorld k (emit w c x a) := by
  unfold emit
  simp only [lateWorld, List.map_append, List.map_cons, List.map_nil, lateEvent]

theorem late_payEgld {w : World} (h : Roomy k w) (c : Addr) (x : Nat) : Alike (LateR k) (payEgld w c x) (payEgld (lateWorld k w) c x) :=
  Alike.read rfl fun _ => ⟨rfl, roomy_same h rfl rfl⟩

theorem late_pay (w : World) (c : Addr) (x : Nat) : Alike (Late k) (payEgld w c x) (payEgld (lateWorld k w) c x) :=
  Alike.read rfl fun _ => rfl

theorem late_sendEgld (w : World) (c : Addr) (x : Nat) : Alike (Late k) (sendEgld w c x) (sendEgld (lateWorld k w) c x) :=
  Alike.read rfl fun _ => rfl

theorem late_payEsdt1 {w : World} (h : Roomy k w) (c : Addr) (p : Payment) :
    Alike (LateR k) (payEsdt1 w c p) (payEsdt1 (lateWorld k w) c p) := by
  unfold payEsdt1
  exact Alike.ite (fun _ => Alike.ite (fun _ => Alike.read rfl fun _ => ⟨rfl, roomy_same h rfl rfl⟩) fun _ => rfl) fun _ =>
    Alike.ite (fun _ => Alike.read rfl fun _ => ⟨rfl, roomy_same h rfl rfl⟩) fun _ => ⟨rfl, h⟩

theorem late_payEsdts (c : Addr) (ps : List Payment) : ∀ {w : World}, Roomy k w →
    Alike (LateR k) (payEsdts w c ps) (payEsdts (lateWorld k w) c ps) := by
  induction ps with
  | nil => intro w h; exact ⟨rfl, h⟩
  | cons p ps ih =>
    intro w h
    refine (late_payEsdt1 h c p).bind fun a b hm => ?_
    obtain ⟨rfl, h1⟩ := hm
    exact ih h1

theorem late_payAny {w : World} (h : Roomy k w) (c : Addr) (x : Nat) (ps : List Payment) :
    Alike (LateR k) (payAny w c x ps) (payAny (lateWorld k w) c x ps) := by
  refine Alike.read rfl fun _ => (late_payEgld h c x).bind fun a b hm => ?_
  obtain ⟨rfl, h1⟩ := hm
  exact late_payEsdts c ps h1

theorem late_sendLs (w : World) (c : Addr) (x : Nat) : Alike (Late k) (sendLs w c x) (sendLs (lateWorld k w) c x) :=
  Alike.read rfl fun _ => rfl

theorem late_burnLs {w : World} (h : Roomy k w) (x : Nat) : Alike (LateR k) (burnLs w x) (burnLs (lateWorld k w) x) :=
  Alike.read rfl fun _ => ⟨rfl, roomy_same h rfl rfl⟩

theorem late_nftBurn {w : World} (n x : Nat) : Alike (Late k) (nftBurn w n x) (nftBurn (lateWorld k w) n x) :=
  Alike.read rfl fun _ => rfl

theorem late_burnRoomy {w : World} (h : Roomy k w) (n x : Nat) : Alike (LateR k) (nftBurn w n x) (nftBurn (lateWorld k w) n x) :=
  Alike.read rfl fun _ => ⟨rfl, roomy_same h rfl rfl⟩

theorem late_sendNft (w : World) (c : Addr) (n x : Nat) : Alike (Late k) (sendNft w c n x) (sendNft (lateWorld k w) c n x) :=
  Alike.read rfl fun _ => rfl

theorem late_sendRoomy {w : World} (h : Roomy k w) (c : Addr) (n x : Nat) :
    Alike (LateR k) (sendNft w c n x) (sendNft (lateWorld k w) c n x) :=
  Alike.read rfl fun _ => ⟨rfl, roomy_same h rfl rfl⟩

theorem late_nftAttrs (w : World) (n : Nat) :
    Alike (fun a b => b = lateAttrs k a ∧ w.attrs.get none n = some a) (nftAttrs w n) (nftAttrs (lateWorld k w) n) := by
  unfold nftAttrs
  refine Alike.ite (fun _ => rfl) fun _ => ?_
  show Alike _ _ (match Map.get none (renMap id (Option.map (lateAttrs k)) w.attrs) n with | some a => _ | none => _)
  rw [late_attrs_get]
  cases w.attrs.get none n with
  | none => exact rfl
  | some a => exact ⟨rfl, rfl⟩

theorem late_nftAdd (w : World) (n x : Nat) : Alike (Late k) (nftAddQuantity w n x) (nftAddQuantity (lateWorld k w) n x) := by
  unfold nftAddQuantity
  exact Alike.ite (fun _ => rfl) fun _ => rfl

theorem late_nftCreate (w : World) (x : Nat) (a : Attrs) :
    nftCreate (lateWorld k w) x (lateAttrs k a) = (lateWorld k (nftCreate w x a).1, (nftCreate w x a).2) := by
  unfold nftCreate
  simp only [lateWorld, late_attrs_set]

theorem late_clean (w : World) (n : Nat) (e : UInt64) (he : fits k e) (ha : ∀ a, w.attrs.get none n = some a → fits k a.unstakeEpoch) :
    Alike (Late k) (cleanOldUnbondEpochs w n e) (cleanOldUnbondEpochs (lateWorld k w) n (e + k)) := by
  unfold cleanOldUnbondEpochs
  refine (late_nftAttrs w n).bind fun a b hb => ?_
  obtain ⟨rfl, hg⟩ := hb
  have hc : ((lateAttrs k a).unstakeEpoch < e + k) ↔ (a.unstakeEpoch < e) := late_lt (ha a hg) he
  simp only [hc]
  refine Alike.ite (fun _ => ?_) fun _ => rfl
  have hs : { lateWorld k w with st := { (lateWorld k w).st with
        unstakeNonce := (lateWorld k w).st.unstakeNonce.set (lateAttrs k a).unbondEpoch 0 } } =
      lateWorld k { w with st := { w.st with unstakeNonce := w.st.unstakeNonce.set a.unbondEpoch 0 } } := by
    simp only [lateWorld, lateAttrs, late_nonce_set]
  show Alike (Late k) _ (nftBurn { lateWorld k w with st := { (lateWorld k w).st with
        unstakeNonce := (lateWorld k w).st.unstakeNonce.set (lateAttrs k a).unbondEpoch 0 } } n (w.nft.get 0 (n, w.self)))
  rw [hs]
  exact late_nftBurn _ _

theorem late_mint {w : World} (h : Roomy k w) (a : Attrs) (x : Nat) (e g : UInt64) (hg : fits k g) :
    Alike (Late2 k) (mintUnstakeTokens w a x e g) (mintUnstakeTokens (lateWorld k w) (lateAttrs k a) x (e + k) (g + k)) := by
  unfold mintUnstakeTokens
  have hn : (lateWorld k w).st.unstakeNonce.get 0 (e + k) = w.st.unstakeNonce.get 0 e := late_nonce_get _ _
  rw [hn]
  refine Alike.ite (fun _ => Alike.read rfl fun _ => ?_) fun _ => Alike.read rfl fun _ => ?_
  · rw [late_nftCreate]
    have hs : ∀ (v : World) (m : Nat), { lateWorld k v with st := { (lateWorld k v).st with
          unstakeNonce := (lateWorld k v).st.unstakeNonce.set (e + k) m } } =
        lateWorld k { v with st := { v.st with unstakeNonce := v.st.unstakeNonce.set e m } } := by
      intro v m
      simp only [lateWorld, late_nonce_set]
    simp only [hs]
    refine Alike.ite (fun hlt => ?_) fun _ => rfl
    refine (late_clean _ _ _ hg ?_).bind fun p q hq => ?_
    · intro b hb
      have hne : (w.lastNonce + 1) ≠ w.lastNonce + 1 - 1 := by omega
      have : Map.get none (w.attrs.set (w.lastNonce + 1) (some a)) (w.lastNonce + 1 - 1) = some b := hb
      rw [Map.get_set_other _ _ _ hne] at this
      exact (h.tokens _ b this).1
    · subst hq
      exact rfl
  · refine (late_nftAdd w _ _).bind fun p q hq => ?_
    subst hq
    exact rfl

theorem late_processDelegation (w : World) (a : Addr) (c : Cache) (x y : Nat) :
    Alike (Late2 k) (processDelegation w a c x y) (processDelegation (lateWorld k w) a c x y) := by
  unfold processDelegation
  refine Alike.read rfl fun c1 => Alike.read rfl fun c2 => ?_
  refine Alike.ite (fun _ => Alike.read rfl fun l => ?_) fun _ => rfl
  refine (late_sendLs (mintLs w l.1) _ _).bind fun p q hq => ?_
  subst hq
  exact Prod.ext (late_emit _ _ _ _) rfl

theorem late_instantRedemption {w : World} (h : Roomy k w) (a : Addr) (c : Cache) (x : Nat) :
    Alike (LateR2 k) (instantRedemption w a c x) (instantRedemption (lateWorld k w) a c x) := by
  unfold instantRedemption
  refine Alike.ite (fun _ => Alike.read rfl fun p => Alike.read rfl fun _ => ?_) fun _ => ⟨rfl, h⟩
  refine Alike.bind (S := LateR k) (Alike.read rfl fun _ => ⟨rfl, roomy_same h rfl rfl⟩) fun p q hq => ?_
  obtain ⟨rfl, h1⟩ := hq
  exact ⟨rfl, h1⟩

theorem late_undelegateAmount {w : World} (h : Roomy k w) (a : Addr) (c : Cache) (x : Nat) :
    Alike (Late2 k) (undelegateAmount w a c x) (undelegateAmount (lateWorld k w) a c x) := by
  unfold undelegateAmount
  refine Alike.ite (fun _ => Alike.read rfl fun p => ?_) fun _ => rfl
  have he : (lateWorld k w).epoch + (lateWorld k w).st.unbondPeriod = w.epoch + w.st.unbondPeriod + k := late_add _ _ _
  have hm := late_mint h { unstakeEpoch := w.epoch, unbondEpoch := w.epoch + w.st.unbondPeriod } x (w.epoch + w.st.unbondPeriod) w.epoch h.now
  simp only [he]
  refine Alike.bind hm fun p q hq => ?_
  subst hq
  refine (late_sendNft _ _ _ _).bind fun p q hq => ?_
  subst hq
  exact rfl

theorem late_processUnDelegation {w : World} (h : Roomy k w) (a : Addr) (c : Cache) (x y : Nat) :
    Alike (Late2 k) (processUnDelegation w a c x y) (processUnDelegation (lateWorld k w) a c x y) := by
  unfold processUnDelegation
  refine (late_instantRedemption h _ _ _).bind fun p q hq => ?_
  obtain ⟨rfl, h1⟩ := hq
  refine (late_undelegateAmount h1 _ _ _).bind fun p q hq => ?_
  subst hq
  exact Prod.ext (late_emit _ _ _ _) rfl

theorem late_withdrawOne {w : World} (h : Roomy k w) (a : Addr) (u : TokenId) (c : Cache) (t : Nat) (p : Payment) :
    Alike (LateR2 k) (withdrawOne a u w c t p) (withdrawOne a u (lateWorld k w) c t p) := by
  unfold withdrawOne
  refine Alike.read rfl fun _ => Alike.read rfl fun _ => (late_nftAttrs w _).bind fun b d hb => ?_
  obtain ⟨rfl, hg⟩ := hb
  have hc : ((lateAttrs k b).unbondEpoch ≤ (lateWorld k w).epoch) ↔ (b.unbondEpoch ≤ w.epoch) := late_le (h.tokens _ b hg).2 h.now
  refine Alike.read ?_ fun _ => Alike.ite (fun _ => ?_) fun _ => Alike.ite (fun _ => ?_) fun _ => rfl
  · unfold req; simp only [hc]
  · refine (late_burnRoomy h _ _).bind fun p q hq => ?_
    obtain ⟨rfl, h1⟩ := hq
    exact Alike.read rfl fun _ => ⟨rfl, h1⟩
  · refine (late_burnRoomy h _ _).bind fun p q hq => ?_
    obtain ⟨rfl, h1⟩ := hq
    refine Alike.read rfl fun _ => (late_sendRoomy h1 _ _ _).bind fun p q hq => ?_
    obtain ⟨rfl, h2⟩ := hq
    exact ⟨rfl, h2⟩

theorem late_withdrawLoop (a : Addr) (u : TokenId) (ps : List Payment) : ∀ {w : World} (c : Cache) (t : Nat), Roomy k w →
    Alike (LateR2 k) (withdrawLoop a u ps w c t) (withdrawLoop a u ps (lateWorld k w) c t) := by
  induction ps with
  | nil => intro w c t h; exact ⟨rfl, h⟩
  | cons p ps ih =>
    intro w c t h
    refine (late_withdrawOne h a u c t p).bind fun x y hxy => ?_
    obtain ⟨rfl, h1⟩ := hxy
    exact ih _ _ h1

end

end LS
