import Verif.Spec.Front
import Verif.Proofs.Parts

/-! Transactions of users do not read the dealings with providers. -/

namespace LS
open Spec

/-- Two results are alike: both succeed, with related values, or both fail with the same error. -/
def Alike {α : Type} (S : α → α → Prop) : Res α → Res α → Prop
  | .ok a, .ok b => S a b
  | .error e, .error e' => e = e'
  | _, _ => False

section
variable {α β : Type} {S : α → α → Prop} {T : β → β → Prop}

theorem Alike.bind {x y : Res α} {f g : α → Res β} (h : Alike S x y) (hf : ∀ a b, S a b → Alike T (f a) (g b)) :
    Alike T (x >>= f) (y >>= g) := by
  cases x with
  | ok a => cases y with
    | ok b => exact hf a b h
    | error e => exact h.elim
  | error e => cases y with
    | ok b => exact h.elim
    | error e' => exact h

theorem Alike.read {x y : Res α} {f g : α → Res β} (h : x = y) (hf : ∀ a, Alike T (f a) (g a)) : Alike T (x >>= f) (y >>= g) := by
  subst h
  cases x with
  | ok a => exact hf a
  | error e => exact rfl

theorem Alike.bindOf {x y : Res α} {f g : α → Res β} (h : Alike S x y) (hf : ∀ a b, x = .ok a → S a b → Alike T (f a) (g b)) :
    Alike T (x >>= f) (y >>= g) := by
  cases x with
  | ok a => cases y with
    | ok b => exact hf a b rfl h
    | error e => exact h.elim
  | error e => cases y with
    | ok b => exact h.elim
    | error e' => exact h

theorem Alike.readOf {x y : Res α} {f g : α → Res β} (h : x = y) (hf : ∀ a, x = .ok a → Alike T (f a) (g a)) :
    Alike T (x >>= f) (y >>= g) := by
  subst h
  cases x with
  | ok a => exact hf a rfl
  | error e => exact rfl

theorem Alike.ite {c : Prop} [Decidable c] {x y x' y' : Res α} (h1 : c → Alike S x y) (h2 : ¬c → Alike S x' y') :
    Alike S (if c then x else x') (if c then y else y') := by
  by_cases h : c
  · rw [if_pos h, if_pos h]; exact h1 h
  · rw [if_neg h, if_neg h]; exact h2 h

end

/-- Two maps that read the same on some keys. -/
def Reads {K V : Type} [DecidableEq K] (A : K → Prop) (d : V) (m m' : Map K V) : Prop := ∀ k, A k → m'.get d k = m.get d k

section
variable {K V : Type} [DecidableEq K] {A : K → Prop}

theorem Reads.set {d : V} {m m' : Map K V} (h : Reads A d m m') (k : K) (v : V) : Reads A d (m.set k v) (m'.set k v) := by
  intro k' hk
  rw [Map.get_set, Map.get_set, h k' hk]

theorem Reads.credit {m m' : Map K Nat} (h : Reads A 0 m m') (k : K) (v : Nat) : Reads A 0 (credit m k v) (credit m' k v) := by
  intro k' hk
  rw [get_credit, get_credit, h k' hk]

theorem Reads.debit {m m' : Map K Nat} (h : Reads A 0 m m') {k : K} (hk : A k) (v : Nat) :
    Alike (Reads A 0) (debit m k v) (debit m' k v) := by
  unfold LS.debit
  rw [h k hk]
  exact Alike.ite (fun _ => h.set _ _) (fun _ => rfl)

end

/-- The storage is the same in front, and also behind if `B`. -/
structure TwinSt (B : Prop) (C : Part → Prop) (s t : Store) : Prop where
  state : t.state = s.state
  lsToken : t.lsToken = s.lsToken
  lsPending : t.lsPending = s.lsPending
  unstakeToken : t.unstakeToken = s.unstakeToken
  unstakePending : t.unstakePending = s.unstakePending
  r : t.r = s.r
  feeRate : C .feeRate → t.feeRate = s.feeRate
  accumulator : C .accumulator → t.accumulator = s.accumulator
  roundsPerEpoch : C .roundsPerEpoch → t.roundsPerEpoch = s.roundsPerEpoch
  minimumRounds : C .minimumRounds → t.minimumRounds = s.minimumRounds
  maxDelegationAddresses : C .maxAddresses → t.maxDelegationAddresses = s.maxDelegationAddresses
  maxSelectedProviders : C .maxSelected → t.maxSelectedProviders = s.maxSelectedProviders
  unbondPeriod : C .unbondPeriod → t.unbondPeriod = s.unbondPeriod
  scoring : C .scoring → t.scoring = s.scoring
  managers : C .managers → t.managers = s.managers
  migrationSc : C .migrationSc → t.migrationSc = s.migrationSc
  unstakeNonce : Reads (fun _ => True) 0 s.unstakeNonce t.unstakeNonce
  delegList : B → t.delegList = s.delegList
  undelegList : B → t.undelegList = s.undelegList
  data : B → Reads (fun _ => True) none s.data t.data

/-- The part is not behind, unless `B`, not a setting or a part that is never read, unless `C` has it, and not the balance of an account outside `A`. -/
def concerns (A : Addr → Prop) (B : Prop) (C : Part → Prop) : Part → Prop
  | .egld a | .ls a | .unstakes _ a => A a
  | x => (behind x = true → B) ∧ ((unread x || setting x) = true → C x)

/-- The world is the same in front, as far as the contract and some accounts are concerned. -/
structure Twin (A : Addr → Prop) (B : Prop) (C : Part → Prop) (w v : World) : Prop where
  ours : A w.self
  self : v.self = w.self
  owner : v.owner = w.owner
  contracts : v.contracts = w.contracts
  epoch : v.epoch = w.epoch
  st : TwinSt B C w.st v.st
  flights : B → v.flights = w.flights
  dead : B → C .failed → v.dead = w.dead
  egld : Reads A 0 w.egld v.egld
  ls : Reads A 0 w.ls v.ls
  nft : Reads (fun k => A k.2) 0 w.nft v.nft
  attrs : Reads (fun _ => True) none w.attrs v.attrs
  lastNonce : v.lastNonce = w.lastNonce
  issues : v.issues = w.issues
  events : C .events → v.events = w.events
  migratedVirtual : C .migrated → v.migratedVirtual = w.migratedVirtual
  migratedPending : C .migrated → v.migratedPending = w.migratedPending
  burntLs : C .burnt → v.burntLs = w.burntLs
  burntUnstake : C .burnt → v.burntUnstake = w.burntUnstake

theorem twin_of {A : Addr → Prop} {B : Prop} {C : Part → Prop} {w v : World} (ho : A w.self) (h : ∀ x, concerns A B C x → Same w v x) : Twin A B C w v := by
  obtain ⟨h1, h2⟩ := h .identity ⟨Bool.noConfusion, Bool.noConfusion⟩
  obtain ⟨h3, h4⟩ := h .lsSlot ⟨Bool.noConfusion, Bool.noConfusion⟩
  obtain ⟨h5, h6⟩ := h .unstakeSlot ⟨Bool.noConfusion, Bool.noConfusion⟩
  have h7 := fun hC : C .migrated => h .migrated ⟨Bool.noConfusion, fun _ => hC⟩
  have h9 := fun hC : C .burnt => h .burnt ⟨Bool.noConfusion, fun _ => hC⟩
  have hr : v.st.r = w.st.r := by
    have a := h .supply ⟨Bool.noConfusion, Bool.noConfusion⟩
    have b := h .reserve ⟨Bool.noConfusion, Bool.noConfusion⟩
    have c := h .fees ⟨Bool.noConfusion, Bool.noConfusion⟩
    have d := h .withdrawable ⟨Bool.noConfusion, Bool.noConfusion⟩
    have e := h .pending ⟨Bool.noConfusion, Bool.noConfusion⟩
    have f := h .queue ⟨Bool.noConfusion, Bool.noConfusion⟩
    have g := h .unbonding ⟨Bool.noConfusion, Bool.noConfusion⟩
    simp only [Same, Spec.supply, Spec.reserve, feesReserve, Spec.withdrawable, pendingEgld, toUndelegate, Spec.unbonding] at a b c d e f g
    generalize v.st.r = s at *
    generalize w.st.r = t at *
    cases s; cases t; simp_all
  have hd : B → ∀ p, provider v p = provider w p := by
    intro hB p
    have h1 := h (.listed p) ⟨fun _ => hB, Bool.noConfusion⟩
    have h2 := h (.admin p) ⟨fun _ => hB, Bool.noConfusion⟩
    have h3 := h (.terms p) ⟨fun _ => hB, Bool.noConfusion⟩
    have h4 := h (.eligible p) ⟨fun _ => hB, Bool.noConfusion⟩
    have h5 := h (.staked p) ⟨fun _ => hB, Bool.noConfusion⟩
    have h6 := h (.unstaked p) ⟨fun _ => hB, Bool.noConfusion⟩
    have h7 := h (.inFlightStake p) ⟨fun _ => hB, Bool.noConfusion⟩
    have h8 := h (.inFlightUnstake p) ⟨fun _ => hB, Bool.noConfusion⟩
    simp only [Same, figure] at h1 h2 h3 h4 h5 h6 h7 h8
    cases ha : provider v p with
    | none => cases hb : provider w p with
      | none => rfl
      | some d => rw [ha, hb] at h1; exact Bool.noConfusion h1
    | some e => cases hb : provider w p with
      | none => rw [ha, hb] at h1; exact Bool.noConfusion h1
      | some d =>
        rw [ha, hb] at h2 h3 h4 h5 h6 h7 h8
        cases d; cases e
        simp_all [termsOf]
  exact {
    ours := ho, self := h1, contracts := h2, owner := h .owner ⟨Bool.noConfusion, Bool.noConfusion⟩, epoch := h .clock ⟨Bool.noConfusion, Bool.noConfusion⟩
    st := {
      state := h .switch ⟨Bool.noConfusion, Bool.noConfusion⟩, lsToken := h3, lsPending := h4, unstakeToken := h5, unstakePending := h6, r := hr
      feeRate := fun hC => h .feeRate ⟨Bool.noConfusion, fun _ => hC⟩, accumulator := fun hC => h .accumulator ⟨Bool.noConfusion, fun _ => hC⟩, roundsPerEpoch := fun hC => h .roundsPerEpoch ⟨Bool.noConfusion, fun _ => hC⟩
      minimumRounds := fun hC => h .minimumRounds ⟨Bool.noConfusion, fun _ => hC⟩, maxDelegationAddresses := fun hC => h .maxAddresses ⟨Bool.noConfusion, fun _ => hC⟩
      maxSelectedProviders := fun hC => h .maxSelected ⟨Bool.noConfusion, fun _ => hC⟩, unbondPeriod := fun hC => h .unbondPeriod ⟨Bool.noConfusion, fun _ => hC⟩, scoring := fun hC => h .scoring ⟨Bool.noConfusion, fun _ => hC⟩
      managers := fun hC => h .managers ⟨Bool.noConfusion, fun _ => hC⟩, migrationSc := fun hC => h .migrationSc ⟨Bool.noConfusion, fun _ => hC⟩, unstakeNonce := fun e _ => h (.registry e) ⟨Bool.noConfusion, Bool.noConfusion⟩
      delegList := fun hB => h .delegOrder ⟨fun _ => hB, Bool.noConfusion⟩, undelegList := fun hB => h .undelegOrder ⟨fun _ => hB, Bool.noConfusion⟩
      data := fun hB p _ => hd hB p }
    flights := fun hB => h .calls ⟨fun _ => hB, Bool.noConfusion⟩, dead := fun hB hC => h .failed ⟨fun _ => hB, fun _ => hC⟩
    egld := fun a ha => h (.egld a) ha, ls := fun a ha => h (.ls a) ha, nft := fun k hk => h (.unstakes k.1 k.2) hk
    attrs := fun n _ => h (.attributes n) ⟨Bool.noConfusion, Bool.noConfusion⟩, lastNonce := h .lastNonce ⟨Bool.noConfusion, Bool.noConfusion⟩, issues := h .issuing ⟨Bool.noConfusion, Bool.noConfusion⟩
    events := fun hC => h .events ⟨Bool.noConfusion, fun _ => hC⟩
    migratedVirtual := fun hC => (h7 hC).1, migratedPending := fun hC => (h7 hC).2
    burntLs := fun hC => (h9 hC).1, burntUnstake := fun hC => (h9 hC).2 }

theorem Twin.same {A : Addr → Prop} {B : Prop} {C : Part → Prop} {w v : World} (h : Twin A B C w v) (x : Part) (hx : concerns A B C x) :
    Same w v x := by
  cases x with
  | identity => exact ⟨h.self, h.contracts⟩
  | owner => exact h.owner
  | clock => exact h.epoch
  | switch => exact h.st.state
  | lsSlot => exact ⟨h.st.lsToken, h.st.lsPending⟩
  | unstakeSlot => exact ⟨h.st.unstakeToken, h.st.unstakePending⟩
  | issuing => exact h.issues
  | supply => exact congrArg (·.lsSupply) h.st.r
  | reserve => exact congrArg (·.reserve) h.st.r
  | fees => exact congrArg (·.fees) h.st.r
  | withdrawable => exact congrArg (·.withdrawn) h.st.r
  | pending => exact congrArg (·.pending) h.st.r
  | queue => exact congrArg (·.toUnstake) h.st.r
  | unbonding => exact congrArg (·.toUnbond) h.st.r
  | feeRate => exact h.st.feeRate (hx.2 rfl)
  | accumulator => exact h.st.accumulator (hx.2 rfl)
  | roundsPerEpoch => exact h.st.roundsPerEpoch (hx.2 rfl)
  | minimumRounds => exact h.st.minimumRounds (hx.2 rfl)
  | maxAddresses => exact h.st.maxDelegationAddresses (hx.2 rfl)
  | maxSelected => exact h.st.maxSelectedProviders (hx.2 rfl)
  | unbondPeriod => exact h.st.unbondPeriod (hx.2 rfl)
  | scoring => exact h.st.scoring (hx.2 rfl)
  | managers => exact h.st.managers (hx.2 rfl)
  | migrationSc => exact h.st.migrationSc (hx.2 rfl)
  | registry e => exact h.st.unstakeNonce e trivial
  | attributes n => exact h.attrs n trivial
  | lastNonce => exact h.lastNonce
  | egld a => exact h.egld a hx
  | ls a => exact h.ls a hx
  | unstakes n a => exact h.nft (n, a) hx
  | events => exact h.events (hx.2 rfl)
  | migrated => exact ⟨h.migratedVirtual (hx.2 rfl), h.migratedPending (hx.2 rfl)⟩
  | burnt => exact ⟨h.burntLs (hx.2 rfl), h.burntUnstake (hx.2 rfl)⟩
  | delegOrder => exact h.st.delegList (hx.1 rfl)
  | undelegOrder => exact h.st.undelegList (hx.1 rfl)
  | listed p => exact congrArg Option.isSome (h.st.data (hx.1 rfl) p trivial)
  | admin p => exact congrArg (Option.map (·.admin)) (h.st.data (hx.1 rfl) p trivial)
  | terms p => exact congrArg (Option.map termsOf) (h.st.data (hx.1 rfl) p trivial)
  | eligible p => exact congrArg (Option.map (·.eligible)) (h.st.data (hx.1 rfl) p trivial)
  | staked p => exact figure_of_eq (h.st.data (hx.1 rfl) p trivial)
  | unstaked p => exact figure_of_eq (h.st.data (hx.1 rfl) p trivial)
  | inFlightStake p => exact figure_of_eq (h.st.data (hx.1 rfl) p trivial)
  | inFlightUnstake p => exact figure_of_eq (h.st.data (hx.1 rfl) p trivial)
  | calls => exact h.flights (hx.1 rfl)
  | failed => exact h.dead (hx.1 rfl) (hx.2 rfl)

section
variable {A : Addr → Prop} {B : Prop} {C : Part → Prop} {w v : World} (h : Twin A B C w v)
include h

theorem Twin.cache : cacheNew w.st = cacheNew v.st := by
  unfold cacheNew; rw [h.st.lsToken, h.st.state, h.st.r]

theorem Twin.user (a : Addr) : requireUser w a = requireUser v a := by
  unfold requireUser; rw [h.self]

theorem Twin.owns (a : Addr) : requireOwner w a = requireOwner v a := by
  unfold requireOwner; rw [h.owner]

theorem Twin.isManager {a : Addr} (hc : a ≠ w.owner → C .managers) : isManager v a = isManager w a := by
  unfold LS.isManager
  rw [h.owner]
  by_cases ho : a = w.owner
  · rw [beq_iff_eq.2 ho, Bool.or_true, Bool.or_true]
  · rw [h.st.managers (hc ho)]

theorem Twin.manager {a : Addr} (hc : a ≠ w.owner → C .managers) : requireManager w a = requireManager v a := by
  unfold requireManager; rw [h.isManager hc]

theorem Twin.migration (hc : C .migrationSc) (a : Addr) : requireMigration w a = requireMigration v a := by
  unfold requireMigration; rw [h.st.migrationSc hc, h.contracts]

theorem Twin.payEgld {c : Addr} (hc : A c) (x : Nat) : Alike (Twin A B C) (payEgld w c x) (payEgld v c x) := by
  unfold LS.payEgld
  refine (h.egld.debit hc x).bind fun a b hm => ?_
  rw [h.self]
  exact { h with self := rfl, egld := hm.credit _ _ }

theorem Twin.sendEgld (c : Addr) (x : Nat) : Alike (Twin A B C) (sendEgld w c x) (sendEgld v c x) := by
  unfold LS.sendEgld
  rw [h.self]
  refine (h.egld.debit h.ours x).bind fun a b hm => ?_
  exact { h with self := rfl, egld := hm.credit _ _ }

theorem Twin.payEsdt1 {c : Addr} (hc : A c) (p : Payment) : Alike (Twin A B C) (payEsdt1 w c p) (payEsdt1 v c p) := by
  unfold LS.payEsdt1
  rw [h.st.lsToken, h.st.unstakeToken, h.self]
  refine Alike.ite (fun _ => Alike.ite (fun _ => ?_) fun _ => rfl) fun _ => Alike.ite (fun _ => ?_) fun _ => h
  · exact (h.ls.debit hc _).bind fun a b hm => { h with self := rfl, ls := hm.credit _ _ }
  · exact (h.nft.debit (k := (p.nonce, c)) hc _).bind fun a b hm => { h with self := rfl, nft := hm.credit _ _ }

theorem Twin.mintLs (x : Nat) : Twin A B C (mintLs w x) (mintLs v x) := by
  unfold LS.mintLs
  rw [h.self]
  exact { h with self := rfl, ls := h.ls.credit _ _ }

theorem Twin.sendLs (c : Addr) (x : Nat) : Alike (Twin A B C) (sendLs w c x) (sendLs v c x) := by
  unfold LS.sendLs
  rw [h.self]
  exact (h.ls.debit h.ours _).bind fun a b hm => { h with self := rfl, ls := hm.credit _ _ }

theorem Twin.burnLs (x : Nat) : Alike (Twin A B C) (burnLs w x) (burnLs v x) := by
  unfold LS.burnLs
  rw [h.self]
  exact (h.ls.debit h.ours _).bind fun a b hm => { h with self := rfl, ls := hm }

theorem Twin.nftBurn (n x : Nat) : Alike (Twin A B C) (nftBurn w n x) (nftBurn v n x) := by
  unfold LS.nftBurn
  rw [h.self]
  exact (h.nft.debit (k := (n, w.self)) h.ours _).bind fun a b hm => { h with self := rfl, nft := hm }

theorem Twin.nftBurnAll (n : Nat) {x y : Nat} (e : x = y) : Alike (Twin A B C) (LS.nftBurn w n x) (LS.nftBurn v n y) := by
  subst e; exact h.nftBurn n x

theorem Twin.sendNft (c : Addr) (n x : Nat) : Alike (Twin A B C) (sendNft w c n x) (sendNft v c n x) := by
  unfold LS.sendNft
  rw [h.self]
  exact (h.nft.debit (k := (n, w.self)) h.ours _).bind fun a b hm => { h with self := rfl, nft := hm.credit _ _ }

theorem Twin.nftAttrs (n : Nat) : nftAttrs w n = nftAttrs v n := by
  unfold LS.nftAttrs
  rw [h.self, h.nft (n, w.self) h.ours, h.attrs n trivial]

theorem Twin.nftAdd (n x : Nat) : Alike (Twin A B C) (nftAddQuantity w n x) (nftAddQuantity v n x) := by
  unfold nftAddQuantity
  rw [h.self, h.nft (n, w.self) h.ours]
  exact Alike.ite (fun _ => rfl) fun _ => { h with self := rfl, nft := h.nft.credit _ _ }

theorem Twin.nftCreate (x : Nat) (a : Attrs) :
    Twin A B C (nftCreate w x a).1 (nftCreate v x a).1 ∧ (nftCreate w x a).2 = (nftCreate v x a).2 := by
  unfold LS.nftCreate
  rw [h.self, h.lastNonce]
  exact ⟨{ h with self := rfl, nft := h.nft.credit _ _, attrs := h.attrs.set _ _, lastNonce := rfl }, rfl⟩

theorem Twin.commit (c : Cache) : Twin A B C (commit w c) (commit v c) := { h with st := { h.st with r := rfl } }

theorem Twin.emit (c : Cache) (k : EventKind) (a : Addr) : Twin A B C (emit w c k a) (emit v c k a) :=
  { h with events := fun hC => by simp only [LS.emit, h.events hC, h.epoch] }

theorem Twin.register (e : UInt64) (n : Nat) :
    Twin A B C { w with st := { w.st with unstakeNonce := w.st.unstakeNonce.set e n } }
      { v with st := { v.st with unstakeNonce := v.st.unstakeNonce.set e n } } :=
  { h with st := { h.st with unstakeNonce := h.st.unstakeNonce.set _ _ } }

theorem Twin.clean (n : Nat) (e : UInt64) : Alike (Twin A B C) (cleanOldUnbondEpochs w n e) (cleanOldUnbondEpochs v n e) := by
  unfold cleanOldUnbondEpochs
  refine Alike.read (h.nftAttrs n) fun a => Alike.ite (fun _ => ?_) fun _ => h
  have h1 := h.register a.unbondEpoch 0
  have e : v.nft.get 0 (n, v.self) = w.nft.get 0 (n, w.self) := by
    rw [h.self, h.nft (n, w.self) h.ours]
  exact h1.nftBurnAll n e.symm

end

/-- A world and something read alike. -/
def Twin2 (A : Addr → Prop) (B : Prop) (C : Part → Prop) {α : Type} (x y : World × α) : Prop := Twin A B C x.1 y.1 ∧ x.2 = y.2

theorem Twin.mint {A : Addr → Prop} {B : Prop} {C : Part → Prop} {w v : World} (h : Twin A B C w v) (a : Attrs) (x : Nat) (e f : UInt64) :
    Alike (Twin2 A B C) (mintUnstakeTokens w a x e f) (mintUnstakeTokens v a x e f) := by
  unfold mintUnstakeTokens
  simp only [h.st.unstakeNonce e trivial, h.st.unstakeToken]
  refine Alike.ite (fun _ => Alike.read rfl fun _ => ?_) fun _ => Alike.read rfl fun _ => ?_
  · obtain ⟨h1, h2⟩ := h.nftCreate (x + 1) a
    rw [← h2]
    have h3 := h1.register e (LS.nftCreate w (x + 1) a).2
    exact Alike.ite (fun _ => (h3.clean _ _).bind fun _ _ hc => ⟨hc, rfl⟩) fun _ => ⟨h3, rfl⟩
  · exact (h.nftAdd _ _).bind fun _ _ hc => ⟨hc, rfl⟩

theorem Twin.payEsdts {A : Addr → Prop} {B : Prop} {C : Part → Prop} {c : Addr} (hc : A c) (ps : List Payment) : ∀ {w v : World}, Twin A B C w v → Alike (Twin A B C) (payEsdts w c ps) (payEsdts v c ps) := by
  induction ps with
  | nil => intro w v h; exact h
  | cons p ps ih => intro w v h; exact (h.payEsdt1 hc p).bind fun _ _ h1 => ih h1

theorem Twin.payAny {A : Addr → Prop} {B : Prop} {C : Part → Prop} {w v : World} (h : Twin A B C w v) {c : Addr} (hc : A c) (x : Nat) (ps : List Payment) :
    Alike (Twin A B C) (payAny w c x ps) (payAny v c x ps) :=
  Alike.read rfl fun _ => (h.payEgld hc x).bind fun _ _ h1 => Twin.payEsdts hc ps h1

theorem Twin.processDelegation {A : Addr → Prop} {B : Prop} {C : Part → Prop} {w v : World} (h : Twin A B C w v) (a : Addr) (c : Cache) (x y : Nat) :
    Alike (Twin2 A B C) (processDelegation w a c x y) (processDelegation v a c x y) := by
  unfold LS.processDelegation
  refine Alike.read rfl fun c1 => Alike.read rfl fun c2 => ?_
  refine Alike.ite (fun _ => Alike.read rfl fun l => ?_) fun _ => ⟨h, rfl⟩
  exact ((h.mintLs _).sendLs _ _).bind fun _ _ h1 => ⟨h1.emit _ _ _, rfl⟩

theorem Twin.instantRedemption {A : Addr → Prop} {B : Prop} {C : Part → Prop} {w v : World} (h : Twin A B C w v) (a : Addr) (c : Cache) (x : Nat) :
    Alike (Twin2 A B C) (instantRedemption w a c x) (instantRedemption v a c x) := by
  unfold LS.instantRedemption
  refine Alike.ite (fun _ => Alike.read rfl fun p => Alike.read rfl fun _ => ?_) fun _ => ⟨h, rfl⟩
  exact (h.sendEgld _ _).bind fun _ _ h1 => ⟨h1, rfl⟩

theorem Twin.undelegateAmount {A : Addr → Prop} {B : Prop} {C : Part → Prop} {w v : World} (h : Twin A B C w v) (hc : C .unbondPeriod) (a : Addr) (c : Cache) (x : Nat) :
    Alike (Twin2 A B C) (undelegateAmount w a c x) (undelegateAmount v a c x) := by
  unfold LS.undelegateAmount
  refine Alike.ite (fun _ => Alike.read rfl fun p => ?_) fun _ => ⟨h, rfl⟩
  simp only [h.epoch, h.st.unbondPeriod hc]
  refine (h.mint _ _ _ _).bind fun x y hxy => ?_
  obtain ⟨x1, x2⟩ := x
  obtain ⟨y1, y2⟩ := y
  obtain ⟨h1, rfl⟩ := hxy
  exact (Twin.sendNft h1 _ _ _).bind fun _ _ h2 => ⟨h2, rfl⟩

theorem Twin.processUnDelegation {A : Addr → Prop} {B : Prop} {C : Part → Prop} {w v : World} (h : Twin A B C w v) (hc : C .unbondPeriod) (a : Addr) (c : Cache) (x y : Nat) :
    Alike (Twin2 A B C) (processUnDelegation w a c x y) (processUnDelegation v a c x y) := by
  unfold LS.processUnDelegation
  refine (h.instantRedemption _ _ _).bind fun x y hxy => ?_
  obtain ⟨x1, x2⟩ := x
  obtain ⟨y1, y2⟩ := y
  obtain ⟨h1, rfl⟩ := hxy
  refine (Twin.undelegateAmount h1 hc _ _ _).bind fun x y hxy => ?_
  obtain ⟨x1, x2⟩ := x
  obtain ⟨y1, y2⟩ := y
  obtain ⟨h1, rfl⟩ := hxy
  exact ⟨Twin.emit h1 _ _ _, rfl⟩

theorem Twin.withdrawOne {A : Addr → Prop} {B : Prop} {C : Part → Prop} {w v : World} (h : Twin A B C w v) (a : Addr) (u : TokenId) (c : Cache) (t : Nat) (p : Payment) :
    Alike (Twin2 A B C) (withdrawOne a u w c t p) (withdrawOne a u v c t p) := by
  unfold LS.withdrawOne
  refine Alike.read rfl fun _ => Alike.read rfl fun _ => Alike.read (h.nftAttrs _) fun _ => ?_
  rw [h.epoch]
  refine Alike.read rfl fun _ => Alike.ite (fun _ => ?_) fun _ => Alike.ite (fun _ => ?_) fun _ => rfl
  · exact (h.nftBurn _ _).bind fun _ _ h1 => Alike.read rfl fun _ => ⟨h1, rfl⟩
  · exact (h.nftBurn _ _).bind fun _ _ h1 => Alike.read rfl fun _ => (h1.sendNft _ _ _).bind fun _ _ h2 => ⟨h2, rfl⟩

theorem Twin.withdrawLoop {A : Addr → Prop} {B : Prop} {C : Part → Prop} {a : Addr} {u : TokenId} (ps : List Payment) : ∀ {w v : World} (c : Cache) (t : Nat), Twin A B C w v →
    Alike (Twin2 A B C) (withdrawLoop a u ps w c t) (withdrawLoop a u ps v c t) := by
  induction ps with
  | nil => intro w v c t h; exact ⟨h, rfl⟩
  | cons p ps ih =>
    intro w v c t h
    refine (h.withdrawOne a u c t p).bind fun x y hxy => ?_
    obtain ⟨x1, x2, x3⟩ := x
    obtain ⟨y1, y2, y3⟩ := y
    obtain ⟨h1, h2⟩ := hxy
    obtain ⟨rfl, rfl⟩ := Prod.mk.inj h2
    exact ih _ _ h1

theorem Twin.withdraw {A : Addr → Prop} {B : Prop} {C : Part → Prop} {w v : World} (h : Twin A B C w v) {a : Addr} (ha : A a) (x : Nat) (ps : List Payment) :
    Alike (Twin A B C) (withdraw w a x ps) (withdraw v a x ps) := by
  unfold LS.withdraw
  refine Alike.read (h.user a) fun _ => (h.payAny ha x ps).bind fun w0 v0 h0 => Alike.read h0.cache fun c => Alike.read rfl fun _ => ?_
  rw [h0.st.unstakeToken]
  cases w0.st.unstakeToken with
  | none => exact rfl
  | some u =>
    refine (Twin.withdrawLoop ps c 0 h0).bind fun x y hxy => ?_
    obtain ⟨x1, x2, x3⟩ := x
    obtain ⟨y1, y2, y3⟩ := y
    obtain ⟨h1, h2⟩ := hxy
    obtain ⟨rfl, rfl⟩ := Prod.mk.inj h2
    exact (Twin.sendEgld h1 _ _).bind fun _ _ h2 => (h2.emit _ _ _).commit _

theorem Twin.delegate {A : Addr → Prop} {B : Prop} {C : Part → Prop} {w v : World} (h : Twin A B C w v) {a : Addr} (ha : A a) (x : Nat) : Alike (Twin A B C) (delegate w a x) (delegate v a x) := by
  unfold LS.delegate
  refine Alike.read (h.user a) fun _ => (h.payEgld ha x).bind fun w0 v0 h0 => Alike.read h0.cache fun c => Alike.read rfl fun _ =>
    Alike.read rfl fun _ => Alike.read rfl fun q => (h0.processDelegation a c q.1 q.2).bind fun x y hxy => ?_
  obtain ⟨x1, x2⟩ := x
  obtain ⟨y1, y2⟩ := y
  obtain ⟨h1, rfl⟩ := hxy
  exact Twin.commit h1 _

theorem Twin.unDelegate {A : Addr → Prop} {B : Prop} {C : Part → Prop} {w v : World} (h : Twin A B C w v) (hc : C .unbondPeriod) {a : Addr} (ha : A a) (x : Nat) (ps : List Payment) :
    Alike (Twin A B C) (unDelegate w a x ps) (unDelegate v a x ps) := by
  unfold LS.unDelegate
  refine Alike.read (h.user a) fun _ => (h.payAny ha x ps).bind fun w0 v0 h0 => Alike.read h0.cache fun c => ?_
  match ps with
  | [] => exact rfl
  | _ :: _ :: _ => exact rfl
  | [p] =>
    refine Alike.read rfl fun _ => Alike.read rfl fun _ => Alike.read rfl fun _ => Alike.read rfl fun q =>
      (h0.burnLs _).bind fun w1 v1 h1 => Alike.read rfl fun z => (h1.processUnDelegation hc _ _ _ _).bind fun x y hxy => ?_
    obtain ⟨x1, x2⟩ := x
    obtain ⟨y1, y2⟩ := y
    obtain ⟨h1, rfl⟩ := hxy
    exact Twin.commit h1 _

theorem Twin.claimFees {A : Addr → Prop} {B : Prop} {C : Part → Prop} {w v : World} (h : Twin A B C w v) (hc : C .accumulator) (a : Addr) (b : Bool) : Alike (Twin A B C) (claimFees w a b) (claimFees v a b) := by
  unfold LS.claimFees claimFeesWith
  refine Alike.read (h.user a) fun _ => Alike.read h.cache fun c => Alike.read rfl fun _ => ?_
  rw [h.st.accumulator hc, h.self]
  refine Alike.read rfl fun _ => (h.sendEgld _ _).bind fun w1 v1 h1 => ?_
  refine Alike.bind (S := Twin A B C) ?_ fun _ _ h2 => h2.commit _
  cases b
  · exact rfl
  · exact h1

theorem Twin.migrate {A : Addr → Prop} {B : Prop} {C : Part → Prop} {w v : World} (h : Twin A B C w v) (hm : C .migrationSc) (a : Addr) (x : Nat) (o : Addr) :
    Alike (Twin A B C) (migrate w a x o) (migrate v a x o) := by
  unfold LS.migrate
  refine Alike.read (h.user a) fun _ => Alike.read h.cache fun c => Alike.read (h.migration hm a) fun _ => Alike.read rfl fun q =>
    (((h.mintLs _).emit _ _ _).sendLs _ _).bind fun _ _ h1 => ?_
  exact { h1.commit q.2 with migratedVirtual := fun hC => by rw [h.migratedVirtual hC] }

theorem Twin.migratePending {A : Addr → Prop} {B : Prop} {C : Part → Prop} {w v : World} (h : Twin A B C w v) (hm : C .migrationSc) {a : Addr} (ha : A a) (x : Nat) :
    Alike (Twin A B C) (migratePending w a x) (migratePending v a x) := by
  unfold LS.migratePending
  refine Alike.read (h.user a) fun _ => (h.payEgld ha x).bind fun w0 v0 h0 => Alike.read h0.cache fun c =>
    Alike.read (h0.migration hm a) fun _ => ?_
  exact { (h0.emit _ _ _).commit _ with migratedPending := fun hC => by rw [h.migratedPending hC] }

theorem Twin.addRewards {A : Addr → Prop} {B : Prop} {C : Part → Prop} {w v : World} (h : Twin A B C w v) {a : Addr} (ha : A a) (x : Nat) : Alike (Twin A B C) (addRewards w a x) (addRewards v a x) := by
  unfold LS.addRewards
  exact Alike.read (h.user a) fun _ => (h.payEgld ha x).bind fun w0 v0 h0 => Alike.read h0.cache fun c => (h0.emit _ _ _).commit _

theorem TwinSt.setToken {B : Prop} {C : Part → Prop} {s t : Store} (h : TwinSt B C s t) (k : TokenKind) (x : Option TokenId) : TwinSt B C (setToken s k x) (setToken t k x) := by
  cases k
  · exact { h with lsToken := rfl, lsPending := rfl }
  · exact { h with unstakeToken := rfl, unstakePending := rfl }

theorem Twin.issued {A : Addr → Prop} {B : Prop} {C : Part → Prop} {w v : World} (h : Twin A B C w v) (i : Nat) (o : Option TokenId) : Alike (Twin A B C) (issued w i o) (issued v i o) := by
  unfold LS.issued
  rw [h.issues]
  cases hi : w.issues[i]? with
  | none => exact rfl
  | some x =>
    have ht : tokenOf v.st x.kind.other = tokenOf w.st x.kind.other := by
      cases x.kind
      · exact h.st.unstakeToken
      · exact h.st.lsToken
    simp only [ht, h.self]
    refine Alike.read rfl fun _ => ?_
    have h1 : Twin A B C { w with issues := w.issues.eraseIdx i, egld := if o = none then credit w.egld w.self x.cost else w.egld }
        { v with self := w.self, issues := w.issues.eraseIdx i, egld := if o = none then credit v.egld w.self x.cost else v.egld } := by
      refine { h with self := rfl, issues := rfl, egld := ?_ }
      by_cases ho : o = none
      · simp only [ho, if_true]; exact h.egld.credit _ _
      · simp only [ho, if_false]; exact h.egld
    cases o with
    | some id => exact { h1 with st := h1.st.setToken _ _ }
    | none => exact (h1.sendEgld x.caller x.cost).bind fun _ _ h2 => { h2 with st := h2.st.setToken _ _ }

theorem TwinSt.apply {B : Prop} {C : Part → Prop} {s t : Store} (h : TwinSt B C s t) (cmd : OwnerCmd) : Alike (TwinSt B C) (applyOwnerCmd s cmd) (applyOwnerCmd t cmd) := by
  cases cmd with
  | stateActive => exact { h with state := rfl }
  | stateInactive => exact { h with state := rfl }
  | accumulator a => exact { h with accumulator := fun _ => rfl }
  | fees x => exact { h with feeRate := fun _ => rfl }
  | minimumRounds x => exact { h with minimumRounds := fun _ => rfl }
  | maxAddresses x => exact Alike.read rfl fun _ => { h with maxDelegationAddresses := fun _ => rfl }
  | maxSelected x => exact Alike.read rfl fun _ => { h with maxSelectedProviders := fun _ => rfl }
  | unbondPeriod x => exact { h with unbondPeriod := fun _ => rfl }
  | addManagers l => exact { h with managers := fun hC => by simp only [h.managers hC] }
  | removeManager a => exact { h with managers := fun hC => by simp only [h.managers hC] }

/-- A transaction in front does the same in twin worlds. -/
theorem Twin.front {A : Addr → Prop} {B : Prop} {C : Part → Prop} {w v : World} (h : Twin A B C w v) {op : Op} (hop : frontOp op = true)
    (hp : ∀ c, payer op = some c → A c) (hc : ∀ x, consults w op x = true → C x) : Alike (Twin A B C) (step w op) (step v op) := by
  cases op with
  | delegate a x => exact h.delegate (hp a rfl) x
  | unDelegate a x ps => exact h.unDelegate (hc _ rfl) (hp a rfl) x ps
  | withdraw a x ps => exact h.withdraw (hp a rfl) x ps
  | upgrade => exact h
  | claimFees a b => exact h.claimFees (hc _ rfl) a b
  | migrate a x o => exact h.migrate (hc _ rfl) a x o
  | migratePending a x => exact h.migratePending (hc _ rfl) (hp a rfl) x
  | addRewards a x => exact h.addRewards (hp a rfl) x
  | setMigrationSc a x =>
    refine Alike.read (h.user a) fun _ => Alike.read (h.owns a) fun _ => Alike.read (by rw [h.contracts]) fun _ => ?_
    exact { h with st := { h.st with migrationSc := fun _ => rfl } }
  | registerLsToken a x =>
    refine Alike.read (h.user a) fun _ => (h.egld.debit (hp a rfl) x).bind fun m m' hm => Alike.read (h.owns a) fun _ =>
      Alike.read (by rw [h.st.lsToken, h.st.lsPending]) fun _ => ?_
    exact { h with egld := hm, st := { h.st with lsPending := rfl }, issues := by simp only [h.issues] }
  | registerUnstakeToken a x =>
    refine Alike.read (h.user a) fun _ => (h.egld.debit (hp a rfl) x).bind fun m m' hm => Alike.read (h.owns a) fun _ =>
      Alike.read (by rw [h.st.unstakeToken, h.st.unstakePending]) fun _ => ?_
    exact { h with egld := hm, st := { h.st with unstakePending := rfl }, issues := by simp only [h.issues] }
  | owner a cmd =>
    exact Alike.read (h.user a) fun _ => Alike.read (h.owns a) fun _ => (h.st.apply cmd).bind fun _ _ hs => { h with st := hs }
  | setScoringConfig a cfg =>
    exact Alike.read (h.user a) fun _ => Alike.read (h.manager fun ho => hc .managers (bne_iff_ne.2 ho)) fun _ => Alike.read rfl fun _ =>
      { h with st := { h.st with scoring := fun _ => rfl } }
  | viewLsValue x =>
    show Alike (Twin A B C) (viewLsValue w x >>= _) (viewLsValue v x >>= _)
    refine Alike.bind (S := fun p q : Nat × World => p.1 = q.1 ∧ Twin A B C p.2 q.2) ?_ fun ⟨_, a⟩ ⟨_, b⟩ hs => (hs.2 : Twin A B C a b)
    exact Alike.read h.cache fun c => Alike.read rfl fun e => ⟨rfl, h.commit _⟩
  | viewEgldPosition x =>
    show Alike (Twin A B C) (viewEgldPosition w x >>= _) (viewEgldPosition v x >>= _)
    refine Alike.bind (S := fun p q : Nat × World => p.1 = q.1 ∧ Twin A B C p.2 q.2) ?_ fun ⟨_, a⟩ ⟨_, b⟩ hs => (hs.2 : Twin A B C a b)
    exact Alike.read h.cache fun c => Alike.read rfl fun e => ⟨rfl, h.commit _⟩
  | issued i o => exact h.issued i o
  | transferLs a b x =>
    exact Alike.read (h.user a) fun _ => Alike.read (h.user b) fun _ => (h.ls.debit (hp a rfl) x).bind fun m m' hm =>
      { h with ls := hm.credit _ _ }
  | transferNft a b n x =>
    exact Alike.read (h.user a) fun _ => Alike.read (h.user b) fun _ => (h.nft.debit (k := (n, a)) (hp a rfl) x).bind fun m m' hm =>
      { h with nft := hm.credit _ _ }
  | fund a x => exact Alike.read (h.user a) fun _ => { h with egld := h.egld.credit _ _ }
  | advance e => exact Alike.read (by rw [h.epoch]) fun _ => { h with epoch := rfl }
  | changeOwner a b => exact Alike.read (h.user a) fun _ => Alike.read (h.owns a) fun _ => { h with owner := rfl }
  | burnLs a x =>
    exact Alike.read (h.user a) fun _ => (h.ls.debit (hp a rfl) x).bind fun m m' hm =>
      { h with ls := hm, burntLs := fun hC => by simp only [h.burntLs hC] }
  | burnUnstake a n x =>
    exact Alike.read (h.user a) fun _ => (h.nft.debit (k := (n, a)) (hp a rfl) x).bind fun m m' hm =>
      { h with nft := hm, burntUnstake := fun hC => by simp only [h.burntUnstake hC] }
  | transferEgld a b x =>
    exact Alike.read (h.user a) fun _ => Alike.read (h.user b) fun _ => (h.egld.debit (hp a rfl) x).bind fun m m' hm =>
      { h with egld := hm.credit _ _ }
  | giveEgld a x =>
    exact Alike.read (h.user a) fun _ => Alike.read (by rw [h.contracts]) fun _ => (h.egld.debit (hp a rfl) x).bind fun m m' hm =>
      { h with egld := by simp only [h.self]; exact hm.credit _ _ }
  | giveLs a x =>
    exact Alike.read (h.user a) fun _ => Alike.read (by rw [h.contracts]) fun _ => (h.ls.debit (hp a rfl) x).bind fun m m' hm =>
      { h with ls := by simp only [h.self]; exact hm.credit _ _ }
  | giveUnstake a n x =>
    exact Alike.read (h.user a) fun _ => Alike.read (by rw [h.contracts]) fun _ => (h.nft.debit (k := (n, a)) (hp a rfl) x).bind fun m m' hm =>
      { h with nft := by simp only [h.self]; exact hm.credit _ _, burntUnstake := fun hC => by simp only [h.burntUnstake hC] }
  | delegatePending a x => exact Bool.noConfusion hop
  | unDelegatePending a x => exact Bool.noConfusion hop
  | withdrawPending a p => exact Bool.noConfusion hop
  | claimRewards a => exact Bool.noConfusion hop
  | whitelist a x p b t c n y => exact Bool.noConfusion hop
  | changeAdmin a p b => exact Bool.noConfusion hop
  | changeParams a p t c n y e => exact Bool.noConfusion hop
  | deliver i o => exact Bool.noConfusion hop
  | starve i o => exact Bool.noConfusion hop

section
variable {C : Part → Prop} {s t : Store} (h : TwinSt True C s t)
include h

theorem TwinSt.getData (a : Addr) : getData s a = getData t a := by
  unfold LS.getData
  rw [h.data trivial a trivial]

theorem TwinSt.maxProviders (hm : C .maxSelected) (x y n : Nat) : maxProviders s x y n = maxProviders t x y n := by
  unfold LS.maxProviders
  rw [h.maxSelectedProviders hm]

theorem TwinSt.config (hs : C .scoring) : getScoringConfig s = getScoringConfig t := by
  unfold getScoringConfig
  rw [h.scoring hs]

theorem TwinSt.consider (m : Nat) (a : Addr) (l : List SelInfo) (x : Nat) : considerProvider s m a l x = considerProvider t m a l x := by
  unfold considerProvider
  rw [h.getData]

theorem TwinSt.delegLoop (m k : Nat) (as : List Addr) : ∀ (l : List SelInfo) (x : Nat),
    selectDelegationLoop s m k as l x = selectDelegationLoop t m k as l x := by
  induction as with
  | nil => intro l x; rfl
  | cons a as ih =>
    intro l x
    simp only [selectDelegationLoop, h.consider, ih]

theorem TwinSt.undelegLoop (hm : C .maxSelected) (m k g : Nat) (as : List Addr) : ∀ (l : List SelInfo) (x y : Nat),
    selectUndelegationLoop s m k g as l x y = selectUndelegationLoop t m k g as l x y := by
  induction as with
  | nil => intro l x y; rfl
  | cons a as ih =>
    intro l x y
    simp only [selectUndelegationLoop, h.getData, h.maxSelectedProviders hm, ih]

theorem TwinSt.select (hm : C .maxSelected) (hs : C .scoring) (x : Nat) (b : Bool) (c : Cache) : getDelegationContract s x b c = getDelegationContract t x b c := by
  unfold getDelegationContract handleDelegation handleUndelegation selectDelegationProviders selectUndelegationProviders
  simp only [h.delegList trivial, h.undelegList trivial, h.maxProviders hm, h.config hs, h.delegLoop, h.undelegLoop hm, h.maxSelectedProviders hm]

end

section
variable {A : Addr → Prop} {C : Part → Prop} {w v : World} (h : Twin A True C w v)
include h

theorem Twin.update (a : Addr) (f : ProviderData → Res ProviderData) : Alike (Twin A True C) (updateData w a f) (updateData v a f) := by
  unfold updateData
  exact Alike.read (h.st.getData a) fun d => Alike.read rfl fun d' =>
    { h with st := { h.st with data := fun _ => (h.st.data trivial).set _ _ } }

theorem Twin.promise (f : Flight) (x : Nat) : Alike (Twin A True C) (registerPromise w f x) (registerPromise v f x) := by
  unfold registerPromise
  rw [h.self]
  exact (h.egld.debit h.ours x).bind fun _ _ hm =>
    { h with self := rfl, egld := hm, flights := fun _ => by simp only [h.flights trivial] }

theorem Twin.arrive (i : Nat) (f : Flight) (o : Outcome) : Twin A True C (arrive w i f o) (arrive v i f o) := by
  unfold LS.arrive
  rw [h.self]
  exact { h with self := rfl, egld := h.egld.credit _ _, flights := fun _ => by simp only [h.flights trivial] }

theorem Twin.kill (f : Flight) : Twin A True C { w with dead := w.dead ++ [f] } { v with dead := v.dead ++ [f] } :=
  { h with dead := fun _ hC => by simp only [h.dead trivial hC] }

theorem Twin.removeCb (p : Addr) (x : Nat) (b : Bool) : Alike (Twin A True C) (removeLiquidityCb w p x b) (removeLiquidityCb v p x b) := by
  unfold removeLiquidityCb
  refine Alike.read h.cache fun c => ?_
  cases b
  · exact (h.update _ _).bind fun _ _ h1 => (h1.emit _ _ _).commit _
  · exact (h.update _ _).bind fun _ _ h1 => (h1.emit _ _ _).commit _

theorem Twin.addCb (p : Addr) (x : Nat) (b : Bool) : Alike (Twin A True C) (addLiquidityCb w p x b) (addLiquidityCb v p x b) := by
  unfold addLiquidityCb
  refine Alike.read h.cache fun c => ?_
  cases b
  · exact (h.update _ _).bind fun _ _ h1 => (h1.emit _ _ _).commit _
  · exact (h.update _ _).bind fun _ _ h1 => h1.commit _

theorem Twin.withdrawCb (p : Addr) (x : Nat) : Alike (Twin A True C) (withdrawTokensCb w p x) (withdrawTokensCb v p x) := by
  unfold withdrawTokensCb
  exact Alike.ite (fun _ => Alike.read h.cache fun c => Alike.read rfl fun _ => (h.update _ _).bind fun _ _ h1 =>
    (h1.emit _ _ _).commit _) fun _ => h

theorem Twin.claimCb (hc : C .feeRate) (x : Option Nat) : Alike (Twin A True C) (claimRewardsCb w x) (claimRewardsCb v x) := by
  unfold claimRewardsCb
  cases x with
  | none => exact h
  | some y =>
    refine Alike.ite (fun _ => Alike.read h.cache fun c => ?_) fun _ => h
    simp only [h.st.feeRate hc]
    refine Alike.read rfl fun f => Alike.read rfl fun q => ?_
    have h1 : Twin A True C { w with events := w.events ++ [.protocolRevenue f w.epoch] }
        { v with events := v.events ++ [.protocolRevenue f v.epoch] } :=
      { h with events := fun hC => by simp only [h.events hC, h.epoch] }
    exact (h1.emit _ _ _).commit _

theorem Twin.whitelistCb (p : Addr) (x : Nat) (u : Addr) (b : Bool) :
    Alike (Twin A True C) (whitelistCb w p x u b) (whitelistCb v p x u b) := by
  unfold LS.whitelistCb
  refine Alike.read h.cache fun c => ?_
  cases b with
  | true =>
    refine (h.update _ _).bind fun w1 v1 h1 => ?_
    have h3 : Twin A True C
        { w1 with st := { w1.st with delegList := setInsert w1.st.delegList p, undelegList := setInsert w1.st.undelegList p } }
        { v1 with st := { v1.st with delegList := setInsert v1.st.delegList p, undelegList := setInsert v1.st.undelegList p } } :=
      { h1 with st := { h1.st with
          delegList := fun _ => by simp only [h1.st.delegList trivial]
          undelegList := fun _ => by simp only [h1.st.undelegList trivial] } }
    exact Alike.read rfl fun q => (((h3.mintLs _).emit _ _ _).sendLs _ _).bind fun _ _ h4 => h4.commit _
  | false =>
    have h1 : Twin A True C { w with st := { w.st with data := w.st.data.set p none } }
        { v with st := { v.st with data := v.st.data.set p none } } :=
      { h with st := { h.st with data := fun _ => (h.st.data trivial).set _ _ } }
    exact (h1.sendEgld _ _).bind fun _ _ h2 => h2.commit _

theorem Twin.callback (f : Flight) (o : Outcome) (hc : ∀ l g r, f = .claim l → o = .ok g r → C .feeRate) : Alike (Twin A True C) (runCallback w f o) (runCallback v f o) := by
  cases f with
  | delegate p x => cases o with
    | ok g r => exact h.addCb p x true
    | err => exact h.addCb p x false
  | undelegate p x => cases o with
    | ok g r => exact h.removeCb p x true
    | err => exact h.removeCb p x false
  | withdraw p => cases o with
    | ok g r => exact h.withdrawCb p g
    | err => exact h.withdrawCb p 0
  | claim l => cases o with
    | ok g r => exact h.claimCb (hc l g r rfl rfl) (some r)
    | err => exact h
  | whitelist p x u => cases o with
    | ok g r => exact h.whitelistCb p x u true
    | err => exact h.whitelistCb p x u false

theorem Twin.deliver (i : Nat) (o : Outcome) (hc : ∀ l g r, w.flights[i]? = some (.claim l) → o = .ok g r → C .feeRate) : Alike (Twin A True C) (deliver w i o) (deliver v i o) := by
  unfold LS.deliver
  rw [h.flights trivial]
  cases hf : w.flights[i]? with
  | none => exact rfl
  | some f =>
    have h1 := h.arrive i f o
    have h2 := h1.callback f o fun l g r e => hc l g r (by rw [hf, e])
    simp only
    cases hw : runCallback (LS.arrive w i f o) f o with
    | ok a => cases hv : runCallback (LS.arrive v i f o) f o with
      | ok b => rw [hw, hv] at h2; exact h2
      | error e => rw [hw, hv] at h2; exact h2.elim
    | error e => cases hv : runCallback (LS.arrive v i f o) f o with
      | ok b => rw [hw, hv] at h2; exact h2.elim
      | error e => exact h1.kill f

theorem Twin.starve (i : Nat) (o : Outcome) : Alike (Twin A True C) (starve w i o) (starve v i o) := by
  unfold LS.starve
  rw [h.flights trivial]
  cases w.flights[i]? with
  | none => exact rfl
  | some f => exact (h.arrive i f o).kill f

end

theorem Twin.delegateLoop {A : Addr → Prop} {C : Part → Prop} (l : List Selection) : ∀ {w v : World}, Twin A True C w v →
    Alike (Twin A True C) (delegateLoop l w) (delegateLoop l v) := by
  induction l with
  | nil => intro w v h; exact h
  | cons s l ih =>
    intro w v h
    have h1 : Twin A True C { w with st := { w.st with delegList := moveToBack w.st.delegList s.address } }
        { v with st := { v.st with delegList := moveToBack v.st.delegList s.address } } :=
      { h with st := { h.st with delegList := fun _ => by simp only [h.st.delegList trivial] } }
    exact (h1.update _ _).bind fun _ _ h2 => (h2.promise _ _).bind fun _ _ h3 => ih h3

theorem Twin.undelegateLoop {A : Addr → Prop} {C : Part → Prop} (l : List Selection) : ∀ {w v : World}, Twin A True C w v →
    Alike (Twin A True C) (undelegateLoop l w) (undelegateLoop l v) := by
  induction l with
  | nil => intro w v h; exact h
  | cons s l ih =>
    intro w v h
    have h1 : Twin A True C { w with st := { w.st with undelegList := moveToBack w.st.undelegList s.address } }
        { v with st := { v.st with undelegList := moveToBack v.st.undelegList s.address } } :=
      { h with st := { h.st with undelegList := fun _ => by simp only [h.st.undelegList trivial] } }
    exact (h1.update _ _).bind fun _ _ h2 => (h2.promise _ _).bind fun _ _ h3 => ih h3

/-- Any transaction does the same in twin worlds. -/
theorem Twin.step {A : Addr → Prop} {C : Part → Prop} {w v : World} (h : Twin A True C w v) {op : Op} (hp : ∀ c, payer op = some c → A c)
    (hc : ∀ x, consults w op x = true → C x) : Alike (Twin A True C) (step w op) (step v op) := by
  cases hop : frontOp op with
  | true => exact h.front hop hp hc
  | false =>
    cases op with
    | delegatePending a x =>
      exact Alike.read (h.user a) fun _ => Alike.read h.cache fun c => Alike.read rfl fun _ => Alike.read (h.manager fun ho => hc .managers (bne_iff_ne.2 ho)) fun _ =>
        Alike.read rfl fun _ => Alike.read (h.st.select (hc _ rfl) (hc _ rfl) _ _ _) fun q => Alike.read rfl fun _ =>
          (Twin.delegateLoop q.1 h).bind fun _ _ h1 => (h1.emit _ _ _).commit _
    | unDelegatePending a x =>
      exact Alike.read (h.user a) fun _ => Alike.read h.cache fun c => Alike.read rfl fun _ => Alike.read (h.manager fun ho => hc .managers (bne_iff_ne.2 ho)) fun _ =>
        Alike.read rfl fun _ => Alike.read (h.st.select (hc _ rfl) (hc _ rfl) _ _ _) fun q => Alike.read rfl fun _ =>
          (Twin.undelegateLoop q.1 h).bind fun _ _ h1 => (h1.emit _ _ _).commit _
    | withdrawPending a p =>
      exact Alike.read (h.user a) fun _ => Alike.read h.cache fun c => Alike.read (h.manager fun ho => hc .managers (bne_iff_ne.2 ho)) fun _ => Alike.read rfl fun _ =>
        Alike.read (by rw [h.st.data trivial p trivial]) fun _ => (h.promise _ _).bind fun _ _ h1 => h1.commit _
    | claimRewards a =>
      refine Alike.read (h.user a) fun _ => Alike.read h.cache fun c => Alike.read (h.manager fun ho => hc .managers (bne_iff_ne.2 ho)) fun _ => Alike.read rfl fun _ =>
        Alike.read (by rw [h.st.delegList trivial]) fun _ => ?_
      rw [h.st.delegList trivial]
      exact (h.promise _ _).bind fun _ _ h1 => h1.commit _
    | whitelist a x p b t c n y =>
      refine Alike.read (h.user a) fun _ => (h.payEgld (hp a rfl) x).bindOf fun w0 v0 e0 h0 => ?_
      have he : w0.owner = w.owner := by
        obtain ⟨_, _, rfl⟩ := payEgld_ok.1 e0
        rfl
      have hx : C .maxAddresses := hc _ rfl
      refine Alike.read (by rw [h0.st.delegList trivial, h0.st.maxDelegationAddresses hx]) fun _ =>
        Alike.read (by rw [h0.st.undelegList trivial, h0.st.maxDelegationAddresses hx]) fun _ => Alike.read (h0.manager fun ho => hc .managers (bne_iff_ne.2 (by rwa [← he]))) fun _ =>
        Alike.read (by rw [h0.st.data trivial p trivial]) fun _ => Alike.read rfl fun _ => Alike.read rfl fun _ => ?_
      refine Twin.promise ?_ _ _
      exact { h0 with st := { h0.st with data := fun _ => (h0.st.data trivial).set _ _ } }
    | changeAdmin a p b =>
      exact Alike.read (h.user a) fun _ => Alike.read (by rw [h.st.data trivial p trivial]) fun _ => Alike.read (h.manager fun ho => hc .managers (bne_iff_ne.2 ho)) fun _ =>
        h.update _ _
    | changeParams a p t c n y e =>
      refine Alike.read (h.user a) fun _ => Alike.readOf (h.st.getData p) fun d hd => Alike.read (by rw [h.st.data trivial p trivial]) fun _ => ?_
      refine Alike.read ?_ fun _ => Alike.read rfl fun _ => h.update _ _
      by_cases ha : d.admin = a
      · simp only [ha, true_or]
      · rw [h.isManager fun ho => hc .managers ?_]
        have hd' : provider w p = some d := getData_ok.1 hd
        simp only [consults, hd', Option.map_some, Bool.and_eq_true, bne_iff_ne, ne_eq, Option.some.injEq]
        exact ⟨ho, ha⟩
    | deliver i o => exact h.deliver i o fun l g r e eo => hc .feeRate (by subst eo; simp only [consults, e])
    | starve i o => exact h.starve i o
    | _ => exact Bool.noConfusion hop

theorem alike_exec {R : World → World → Prop} {w v : World} {op : Op} (h : R w v) (hs : Alike R (step w op) (step v op)) :
    R (exec w op) (exec v op) := by
  unfold exec
  cases hw : step w op with
  | ok a => cases hv : step v op with
    | ok b => rw [hw, hv] at hs; exact hs
    | error e => rw [hw, hv] at hs; exact hs.elim
  | error e => cases hv : step v op with
    | ok b => rw [hw, hv] at hs; exact hs.elim
    | error e => exact h

theorem alike_outcome {R : World → World → Prop} {x y : Res World} (h : Alike R x y) :
    (∀ a, x = .ok a → ∃ b, y = .ok b ∧ R a b) ∧ (∀ e, x = .error e → y = .error e) := by
  constructor
  · rintro a rfl
    cases y with
    | ok b => exact ⟨b, rfl, h⟩
    | error e => exact h.elim
  · rintro e rfl
    cases y with
    | ok b => exact h.elim
    | error e' => exact congrArg _ (h : e = e').symm

theorem front_concerns {x : Part} : behind x = false ↔ concerns (fun _ => True) False (fun _ => True) x := by
  cases x <;> simp [behind, concerns]

theorem within_concerns {A : Addr → Prop} {x : Part} : within A x ↔ concerns A True (fun _ => True) x := by
  cases x <;> simp [within, concerns]

theorem read_concerns {x : Part} : unread x = false ↔ concerns (fun _ => True) True (fun x => unread x = false) x := by
  cases x <;> simp [unread, concerns]

theorem read_consults {w : World} {op : Op} {x : Part} (h : consults w op x = true) : unread x = false := by
  cases x <;> first | rfl | (cases op <;> first | exact Bool.noConfusion h | (rename_i o; cases o <;> exact Bool.noConfusion h))

theorem twin_front {w v : World} : SameFront w v ↔ Twin (fun _ => True) False (fun _ => True) w v :=
  ⟨fun h => twin_of trivial fun x hx => h x (front_concerns.2 hx), fun h x hx => h.same x (front_concerns.1 hx)⟩

theorem twin_within {A : Addr → Prop} {w v : World} (ho : A w.self) : SameWithin A w v ↔ Twin A True (fun _ => True) w v :=
  ⟨fun h => twin_of ho fun x hx => h x (within_concerns.2 hx), fun h x hx => h.same x (within_concerns.1 hx)⟩

theorem twin_read {w v : World} : SameRead w v ↔ Twin (fun _ => True) True (fun x => unread x = false) w v :=
  ⟨fun h => twin_of trivial fun x hx => h x (read_concerns.2 hx), fun h x hx => h.same x (read_concerns.1 hx)⟩

theorem Spec.Same.symm {w v : World} {x : Part} (h : Same w v x) : Same v w x := by
  cases x <;> first | exact Eq.symm h | exact ⟨h.1.symm, h.2.symm⟩

/-- What a transaction in front is for lies in front. -/
theorem front_touches {w : World} {op : Op} (hop : frontOp op = true) (x : Part) (hm : x ∈ touched w op) : behind x = false := by
  have pos : ∀ c, x ∈ positionParts w c → behind x = false := by
    intro c h
    unfold positionParts at h
    simp only at h
    split at h
    · simp only [List.mem_singleton] at h; subst h; rfl
    · simp only [List.mem_append, List.mem_cons, List.not_mem_nil, or_false, List.mem_map] at h
      rcases h with (rfl | rfl | rfl | rfl | rfl | rfl) | ⟨_, _, rfl⟩ <;> rfl
  cases op with
  | unDelegate c v ps =>
    simp only [touched, List.mem_append] at hm
    rcases hm with h | h
    · simp only [List.mem_cons, List.not_mem_nil, or_false] at h
      rcases h with rfl | rfl | rfl | rfl | rfl | rfl | rfl | rfl <;> rfl
    · exact pos c h
  | withdraw c v ps =>
    simp only [touched, List.mem_append, List.mem_cons, List.not_mem_nil, or_false, List.mem_map] at hm
    rcases hm with (rfl | rfl | rfl | rfl) | ⟨_, _, rfl⟩ <;> rfl
  | owner c cmd =>
    simp only [touched, List.mem_singleton] at hm
    subst hm
    cases cmd <;> rfl
  | issued i o =>
    simp only [touched] at hm
    split at hm
    · by_cases ho : o = none
      · simp only [ho, if_true, List.mem_append, List.mem_cons, List.not_mem_nil, or_false] at hm
        rcases hm with (rfl | rfl) | rfl <;> rfl
      · simp only [ho, if_false, List.mem_append, List.mem_cons, List.not_mem_nil, or_false] at hm
        rcases hm with rfl | rfl <;> rfl
    · by_cases ho : o = none
      · simp only [ho, if_true, List.mem_append, List.mem_cons, List.not_mem_nil, or_false] at hm
        rcases hm with (rfl | rfl) | rfl <;> rfl
      · simp only [ho, if_false, List.mem_append, List.mem_cons, List.not_mem_nil, or_false] at hm
        rcases hm with rfl | rfl <;> rfl
    · simp at hm
  | deliver i o => exact Bool.noConfusion hop
  | starve i o => exact Bool.noConfusion hop
  | delegatePending a x => exact Bool.noConfusion hop
  | unDelegatePending a x => exact Bool.noConfusion hop
  | withdrawPending a p => exact Bool.noConfusion hop
  | claimRewards a => exact Bool.noConfusion hop
  | whitelist a x p b t c n y => exact Bool.noConfusion hop
  | changeAdmin a p b => exact Bool.noConfusion hop
  | changeParams a p t c n y e => exact Bool.noConfusion hop
  | upgrade => simp [touched] at hm
  | viewLsValue l => simp [touched] at hm
  | viewEgldPosition l => simp [touched] at hm
  | _ =>
    simp only [touched, List.mem_cons, List.not_mem_nil, or_false] at hm
    (repeat' rcases hm with rfl | hm) <;> first | rfl | (subst hm; rfl)

theorem attached_zero {f : Flight} {o : Outcome} (h : bringsNothing f o = true) : attached f o = 0 := by
  cases o with
  | ok g r => cases f <;> exact eq_of_beq h
  | err => cases f <;> first | rfl | exact Bool.noConfusion h

theorem arrive_front {w : World} {i : Nat} {f : Flight} {o : Outcome} (h : attached f o = 0) : SameFront w (arrive w i f o) :=
  fun x hx => parts_arrive x (by rintro rfl; exact Bool.noConfusion hx) (.inr h)

theorem dead_front {w : World} {l : List Flight} : SameFront w { w with dead := l } := by
  intro x hx
  cases x <;> first | rfl | exact ⟨rfl, rfl⟩ | exact Bool.noConfusion hx

theorem data_front {w : World} {m : Map Addr (Option ProviderData)} : SameFront w { w with st := { w.st with data := m } } := by
  intro x hx
  cases x <;> first | rfl | exact ⟨rfl, rfl⟩ | exact Bool.noConfusion hx

/-- Quiet dealings change nothing in front. -/
theorem quiet_front {w w' : World} {op : Op} (hr : Reachable w) (hq : quiet w op = true) (hs : step w op = .ok w') : SameFront w w' := by
  have calls : touched w op = [.calls] → SameFront w w' := by
    intro h x hx
    refine parts_step hr hs x ?_
    rw [h, List.mem_singleton]
    rintro rfl; exact Bool.noConfusion hx
  cases op with
  | withdrawPending a p => exact calls rfl
  | claimRewards a => exact calls rfl
  | changeAdmin a p b =>
    obtain ⟨_, _, d, hd, rfl⟩ := changeAdmin_ok.1 hs
    exact data_front
  | changeParams a p t c n y e =>
    obtain ⟨_, _, d, hd, _, rfl⟩ := changeParams_ok.1 hs
    exact data_front
  | starve i o =>
    obtain ⟨f, hf, rfl⟩ := starve_ok hs
    simp only [quiet, hf] at hq
    exact fun x hx => (arrive_front (attached_zero hq) x hx).trans (dead_front x hx)
  | deliver i o =>
    obtain ⟨f, hf, h⟩ := deliver_ok hs
    simp only [quiet, hf] at hq
    have key : attached f o = 0 ∧ ∀ w1, runCallback (arrive w i f o) f o = .ok w1 → SameFront (arrive w i f o) w1 := by
      cases f with
      | delegate p a =>
        cases o with
        | ok g r =>
          refine ⟨eq_of_beq hq, fun w1 h1 => ?_⟩
          obtain ⟨_, d, _, _, rfl⟩ := addLiquidityCb_true_ok.1 h1
          exact data_front
        | err => exact Bool.noConfusion hq
      | undelegate p a => cases o <;> exact Bool.noConfusion hq
      | whitelist p a u => cases o <;> exact Bool.noConfusion hq
      | withdraw p =>
        have h0 : attached (.withdraw p) o = 0 := attached_zero (f := .withdraw p) (by cases o <;> exact hq)
        refine ⟨h0, fun w1 h1 => ?_⟩
        have : runCallback (arrive w i (.withdraw p) o) (.withdraw p) o = .ok (arrive w i (.withdraw p) o) := by
          cases o with
          | ok g r => simp only [attached] at h0; subst h0; rfl
          | err => rfl
        rw [this] at h1
        cases h1
        exact fun x _ => .refl _ x
      | claim l =>
        cases o with
        | ok g r =>
          simp only [Bool.and_eq_true, beq_iff_eq] at hq
          obtain ⟨rfl, rfl⟩ := hq
          refine ⟨rfl, fun w1 h1 => ?_⟩
          cases h1
          exact fun x _ => .refl _ x
        | err =>
          refine ⟨rfl, fun w1 h1 => ?_⟩
          cases h1
          exact fun x _ => .refl _ x
    rcases h with h | ⟨_, rfl⟩
    · exact fun x hx => (arrive_front key.1 x hx).trans (key.2 _ h x hx)
    · exact fun x hx => (arrive_front key.1 x hx).trans (dead_front x hx)
  | _ => exact Bool.noConfusion hq

end LS
