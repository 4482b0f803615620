import Verif.Spec.Rename
import Verif.Proofs.Front

/-! A transaction with other names does what it does with the old ones, with other names. -/

namespace LS
open Spec

section
variable {K V : Type} [DecidableEq K] {f : K → K} {g : V → V}

theorem renMap_get (hf : ∀ a b, f a = f b → a = b) {d : V} (hd : g d = d) (m : Map K V) (k : K) :
    Map.get d (renMap f g m) (f k) = g (Map.get d m k) := by
  induction m with
  | nil => exact hd.symm
  | cons e m ih =>
    obtain ⟨k', v⟩ := e
    show (if f k' = f k then g v else Map.get d (renMap f g m) (f k)) = g (if k' = k then v else Map.get d m k)
    by_cases h : k' = k
    · rw [if_pos h, if_pos (congrArg f h)]
    · rw [if_neg h, if_neg fun h' => h (hf _ _ h'), ih]

theorem renMap_set (hf : ∀ a b, f a = f b → a = b) (m : Map K V) (k : K) (v : V) :
    Map.set (renMap f g m) (f k) (g v) = renMap f g (Map.set m k v) := by
  induction m with
  | nil => rfl
  | cons e m ih =>
    obtain ⟨k', v'⟩ := e
    show (if f k' = f k then (f k', g v) :: renMap f g m else (f k', g v') :: Map.set (renMap f g m) (f k) (g v)) =
      renMap f g (if k' = k then (k', v) :: m else (k', v') :: Map.set m k v)
    by_cases h : k' = k
    · rw [if_pos h, if_pos (congrArg f h)]; rfl
    · rw [if_neg h, if_neg fun h' => h (hf _ _ h'), ih]; rfl

theorem renMap_credit (hf : ∀ a b, f a = f b → a = b) (m : Map K Nat) (k : K) (v : Nat) :
    credit (renMap f id m) (f k) v = renMap f id (credit m k v) := by
  unfold credit
  rw [renMap_get hf rfl]
  exact renMap_set (g := id) hf m k _

theorem renMap_debit (hf : ∀ a b, f a = f b → a = b) (m : Map K Nat) (k : K) (v : Nat) :
    Alike (fun a b => b = renMap f id a) (debit m k v) (debit (renMap f id m) (f k) v) := by
  unfold debit
  rw [renMap_get hf rfl]
  exact Alike.ite (fun _ => renMap_set (g := id) hf m k _) fun _ => rfl

end

/-- The second world is the first one with other names. -/
abbrev Ren (f : Addr → Addr) : World → World → Prop := fun w v => v = renWorld f w

/-- A world with other names, and something without names. -/
abbrev Ren2 (f : Addr → Addr) {α : Type} : World × α → World × α → Prop := fun x y => y = (renWorld f x.1, x.2)

theorem pair_inj {f : Addr → Addr} (hf : ∀ a b, f a = f b → a = b) (a b : Nat × Addr) (h : (a.1, f a.2) = (b.1, f b.2)) : a = b := by
  obtain ⟨h1, h2⟩ := Prod.mk.inj h
  exact Prod.ext h1 (hf _ _ h2)

section
variable {f : Addr → Addr} (hf : ∀ a b, f a = f b → a = b)
include hf

theorem ren_iff (a b : Addr) : f a = f b ↔ a = b := ⟨hf a b, congrArg f⟩

theorem ren_mem (l : List Addr) (a : Addr) : f a ∈ l.map f ↔ a ∈ l := by
  rw [List.mem_map]
  exact ⟨fun ⟨b, hb, h⟩ => hf _ _ h ▸ hb, fun h => ⟨a, h, rfl⟩⟩

theorem ren_req {p q : Prop} [Decidable p] [Decidable q] (h : p ↔ q) (e : Err) : req p e = req q e := by
  unfold req; simp only [h]

theorem ren_nft_get (m : Map (Nat × Addr) Nat) (n : Nat) (a : Addr) :
    Map.get 0 (renMap (fun k : Nat × Addr => (k.1, f k.2)) id m) (n, f a) = Map.get 0 m (n, a) :=
  renMap_get (f := fun k : Nat × Addr => (k.1, f k.2)) (g := id) (pair_inj hf) rfl m (n, a)

theorem ren_nft_credit (m : Map (Nat × Addr) Nat) (n : Nat) (a : Addr) (v : Nat) :
    credit (renMap (fun k : Nat × Addr => (k.1, f k.2)) id m) (n, f a) v = renMap (fun k => (k.1, f k.2)) id (credit m (n, a) v) :=
  renMap_credit (f := fun k : Nat × Addr => (k.1, f k.2)) (pair_inj hf) m (n, a) v

theorem ren_nft_debit (m : Map (Nat × Addr) Nat) (n : Nat) (a : Addr) (v : Nat) :
    Alike (fun x y => y = renMap (fun k : Nat × Addr => (k.1, f k.2)) id x) (debit m (n, a) v)
      (debit (renMap (fun k : Nat × Addr => (k.1, f k.2)) id m) (n, f a) v) :=
  renMap_debit (f := fun k : Nat × Addr => (k.1, f k.2)) (pair_inj hf) m (n, a) v

theorem ren_user (w : World) (a : Addr) : requireUser w a = requireUser (renWorld f w) (f a) :=
  ren_req hf (not_congr (ren_iff hf a w.self).symm) _

theorem ren_owns (w : World) (a : Addr) : requireOwner w a = requireOwner (renWorld f w) (f a) :=
  ren_req hf (ren_iff hf a w.owner).symm _

theorem ren_isManager (w : World) (a : Addr) : isManager (renWorld f w) (f a) = isManager w a := by
  rw [Bool.eq_iff_iff]
  simp only [isManager, Bool.or_eq_true, List.contains_iff_mem, beq_iff_eq]
  exact or_congr (ren_mem hf _ _) (ren_iff hf _ _)

theorem ren_manager (w : World) (a : Addr) : requireManager w a = requireManager (renWorld f w) (f a) := by
  unfold requireManager; rw [ren_isManager hf]

theorem ren_migration (h0 : f 0 = 0) (w : World) (a : Addr) : requireMigration w a = requireMigration (renWorld f w) (f a) := by
  unfold requireMigration
  show _ = (match w.st.migrationSc.map f with | none => _ | some m => _)
  cases w.st.migrationSc with
  | none => rfl
  | some m =>
    have h1 : (m ≠ 0) ↔ (f m ≠ 0) := not_congr ⟨fun h => by rw [h, h0], fun h => hf _ _ (by rw [h, h0])⟩
    simp only [Option.map_some]
    rw [ren_req hf h1, ren_req hf (ren_iff hf a m).symm]
    have h2 : (a ∈ w.contracts) ↔ (f a ∈ (renWorld f w).contracts) := (ren_mem hf _ _).symm
    rw [ren_req hf h2]

theorem ren_payEgld (w : World) (c : Addr) (x : Nat) : Alike (Ren f) (payEgld w c x) (payEgld (renWorld f w) (f c) x) := by
  unfold payEgld
  refine (renMap_debit hf w.egld c x).bind fun a b hm => ?_
  subst hm
  show _ = _
  simp only [renWorld, renMap_credit hf]

theorem ren_sendEgld (w : World) (c : Addr) (x : Nat) : Alike (Ren f) (sendEgld w c x) (sendEgld (renWorld f w) (f c) x) := by
  unfold sendEgld
  refine (renMap_debit hf w.egld w.self x).bind fun a b hm => ?_
  subst hm
  show _ = _
  simp only [renWorld, renMap_credit hf]

theorem ren_payEsdt1 (w : World) (c : Addr) (p : Payment) : Alike (Ren f) (payEsdt1 w c p) (payEsdt1 (renWorld f w) (f c) p) := by
  unfold payEsdt1
  refine Alike.ite (fun _ => Alike.ite (fun _ => ?_) fun _ => rfl) fun _ => Alike.ite (fun _ => ?_) fun _ => rfl
  · refine (renMap_debit hf w.ls c _).bind fun a b hm => ?_
    subst hm
    show _ = _
    simp only [renWorld, renMap_credit hf]
  · refine (ren_nft_debit hf w.nft p.nonce c _).bind fun a b hm => ?_
    subst hm
    show _ = _
    simp only [renWorld, ren_nft_credit hf]

theorem ren_payEsdts (c : Addr) (ps : List Payment) : ∀ w : World, Alike (Ren f) (payEsdts w c ps) (payEsdts (renWorld f w) (f c) ps) := by
  induction ps with
  | nil => intro w; exact rfl
  | cons p ps ih =>
    intro w
    refine (ren_payEsdt1 hf w c p).bind fun a b hm => ?_
    subst hm
    exact ih a

theorem ren_payAny (w : World) (c : Addr) (x : Nat) (ps : List Payment) :
    Alike (Ren f) (payAny w c x ps) (payAny (renWorld f w) (f c) x ps) := by
  refine Alike.read rfl fun _ => (ren_payEgld hf w c x).bind fun a b hm => ?_
  subst hm
  exact ren_payEsdts hf c ps a

theorem ren_mintLs (w : World) (x : Nat) : mintLs (renWorld f w) x = renWorld f (mintLs w x) := by
  unfold mintLs
  simp only [renWorld, renMap_credit hf]

theorem ren_sendLs (w : World) (c : Addr) (x : Nat) : Alike (Ren f) (sendLs w c x) (sendLs (renWorld f w) (f c) x) := by
  unfold sendLs
  refine (renMap_debit hf w.ls w.self x).bind fun a b hm => ?_
  subst hm
  show _ = _
  simp only [renWorld, renMap_credit hf]

theorem ren_burnLs (w : World) (x : Nat) : Alike (Ren f) (burnLs w x) (burnLs (renWorld f w) x) := by
  unfold burnLs
  refine (renMap_debit hf w.ls w.self x).bind fun a b hm => ?_
  subst hm
  exact rfl

theorem ren_nftBurn (w : World) (n x : Nat) : Alike (Ren f) (nftBurn w n x) (nftBurn (renWorld f w) n x) := by
  unfold nftBurn
  refine (ren_nft_debit hf w.nft n w.self x).bind fun a b hm => ?_
  subst hm
  exact rfl

theorem ren_sendNft (w : World) (c : Addr) (n x : Nat) : Alike (Ren f) (sendNft w c n x) (sendNft (renWorld f w) (f c) n x) := by
  unfold sendNft
  refine (ren_nft_debit hf w.nft n w.self x).bind fun a b hm => ?_
  subst hm
  show _ = _
  simp only [renWorld, ren_nft_credit hf]

theorem ren_held (w : World) (n : Nat) : (renWorld f w).nft.get 0 (n, (renWorld f w).self) = w.nft.get 0 (n, w.self) :=
  ren_nft_get hf w.nft n w.self

theorem ren_nftAttrs (w : World) (n : Nat) : nftAttrs w n = nftAttrs (renWorld f w) n := by
  unfold nftAttrs
  rw [ren_held hf]
  rfl

theorem ren_nftAdd (w : World) (n x : Nat) : Alike (Ren f) (nftAddQuantity w n x) (nftAddQuantity (renWorld f w) n x) := by
  unfold nftAddQuantity
  rw [ren_held hf]
  refine Alike.ite (fun _ => rfl) fun _ => ?_
  show _ = _
  simp only [renWorld, ren_nft_credit hf]

theorem ren_nftCreate (w : World) (x : Nat) (a : Attrs) :
    nftCreate (renWorld f w) x a = (renWorld f (nftCreate w x a).1, (nftCreate w x a).2) := by
  unfold nftCreate
  simp only [renWorld, ren_nft_credit hf]

theorem ren_commit (w : World) (c : Cache) : commit (renWorld f w) c = renWorld f (commit w c) := rfl

theorem ren_emit (w : World) (c : Cache) (k : EventKind) (a : Addr) :
    emit (renWorld f w) c (renKind f k) (f a) = renWorld f (emit w c k a) := by
  unfold emit
  simp only [renWorld, List.map_append, List.map_cons, List.map_nil, renEvent]

theorem ren_clean (w : World) (n : Nat) (e : UInt64) :
    Alike (Ren f) (cleanOldUnbondEpochs w n e) (cleanOldUnbondEpochs (renWorld f w) n e) := by
  unfold cleanOldUnbondEpochs
  refine Alike.read (ren_nftAttrs hf w n) fun a => Alike.ite (fun _ => ?_) fun _ => rfl
  show Alike (Ren f) (nftBurn { w with st := { w.st with unstakeNonce := w.st.unstakeNonce.set a.unbondEpoch 0 } } n (w.nft.get 0 (n, w.self)))
    (nftBurn (renWorld f { w with st := { w.st with unstakeNonce := w.st.unstakeNonce.set a.unbondEpoch 0 } }) n
      ((renWorld f w).nft.get 0 (n, (renWorld f w).self)))
  rw [ren_held hf]
  exact ren_nftBurn hf _ _ _

theorem ren_mint (w : World) (a : Attrs) (x : Nat) (e g : UInt64) :
    Alike (Ren2 f) (mintUnstakeTokens w a x e g) (mintUnstakeTokens (renWorld f w) a x e g) := by
  unfold mintUnstakeTokens
  refine Alike.ite (fun _ => Alike.read rfl fun _ => ?_) fun _ => Alike.read rfl fun _ => ?_
  · rw [ren_nftCreate hf]
    refine Alike.ite (fun _ => ?_) fun _ => rfl
    refine (ren_clean hf { (nftCreate w (x + 1) a).1 with st := { (nftCreate w (x + 1) a).1.st with
      unstakeNonce := (nftCreate w (x + 1) a).1.st.unstakeNonce.set e (nftCreate w (x + 1) a).2 } } _ _).bind fun p q hq => ?_
    subst hq
    exact rfl
  · refine (ren_nftAdd hf w _ _).bind fun p q hq => ?_
    subst hq
    exact rfl

theorem ren_processDelegation (w : World) (a : Addr) (c : Cache) (x y : Nat) :
    Alike (Ren2 f) (processDelegation w a c x y) (processDelegation (renWorld f w) (f a) c x y) := by
  unfold processDelegation
  refine Alike.read rfl fun c1 => Alike.read rfl fun c2 => ?_
  refine Alike.ite (fun _ => Alike.read rfl fun l => ?_) fun _ => rfl
  simp only [ren_mintLs hf]
  refine (ren_sendLs hf _ _ _).bind fun p q hq => ?_
  subst hq
  exact Prod.ext (ren_emit hf _ _ (.addLiquidity _) _) rfl

theorem ren_instantRedemption (w : World) (a : Addr) (c : Cache) (x : Nat) :
    Alike (Ren2 f) (instantRedemption w a c x) (instantRedemption (renWorld f w) (f a) c x) := by
  unfold instantRedemption
  refine Alike.ite (fun _ => Alike.read rfl fun p => Alike.read rfl fun _ => ?_) fun _ => rfl
  refine (ren_sendEgld hf _ _ _).bind fun p q hq => ?_
  subst hq
  exact rfl

theorem ren_undelegateAmount (w : World) (a : Addr) (c : Cache) (x : Nat) :
    Alike (Ren2 f) (undelegateAmount w a c x) (undelegateAmount (renWorld f w) (f a) c x) := by
  unfold undelegateAmount
  refine Alike.ite (fun _ => Alike.read rfl fun p => ?_) fun _ => rfl
  refine (ren_mint hf w _ _ _ _).bind fun p q hq => ?_
  subst hq
  refine (ren_sendNft hf _ _ _ _).bind fun p q hq => ?_
  subst hq
  exact rfl

theorem ren_processUnDelegation (w : World) (a : Addr) (c : Cache) (x y : Nat) :
    Alike (Ren2 f) (processUnDelegation w a c x y) (processUnDelegation (renWorld f w) (f a) c x y) := by
  unfold processUnDelegation
  refine (ren_instantRedemption hf _ _ _ _).bind fun p q hq => ?_
  subst hq
  refine (ren_undelegateAmount hf _ _ _ _).bind fun p q hq => ?_
  subst hq
  exact Prod.ext (ren_emit hf _ _ (.removeLiquidity _) _) rfl

theorem ren_withdrawOne (w : World) (a : Addr) (u : TokenId) (c : Cache) (t : Nat) (p : Payment) :
    Alike (Ren2 f) (withdrawOne a u w c t p) (withdrawOne (f a) u (renWorld f w) c t p) := by
  unfold withdrawOne
  refine Alike.read rfl fun _ => Alike.read rfl fun _ => Alike.read (ren_nftAttrs hf w _) fun _ => ?_
  refine Alike.read rfl fun _ => Alike.ite (fun _ => ?_) fun _ => Alike.ite (fun _ => ?_) fun _ => rfl
  · refine (ren_nftBurn hf _ _ _).bind fun p q hq => ?_
    subst hq
    exact Alike.read rfl fun _ => rfl
  · refine (ren_nftBurn hf _ _ _).bind fun p q hq => ?_
    subst hq
    refine Alike.read rfl fun _ => (ren_sendNft hf _ _ _ _).bind fun p q hq => ?_
    subst hq
    exact rfl

theorem ren_withdrawLoop (a : Addr) (u : TokenId) (ps : List Payment) : ∀ (w : World) (c : Cache) (t : Nat),
    Alike (Ren2 f) (withdrawLoop a u ps w c t) (withdrawLoop (f a) u ps (renWorld f w) c t) := by
  induction ps with
  | nil => intro w c t; exact rfl
  | cons p ps ih =>
    intro w c t
    refine (ren_withdrawOne hf w a u c t p).bind fun x y hxy => ?_
    subst hxy
    exact ih _ _ _

end

end LS
