import Verif.Model.Layout
import Verif.Demo
import Verif.Props.Pool
import Mathlib.Tactic.Ring

/-! Storage keys and encodings: C82, C83. -/

namespace LS
open Layout

/-- All kinds of entries. -/
private def slots : List Slot := [.delegInfo, .delegLinks, .delegValue, .delegId, .undelegInfo, .undelegLinks, .undelegValue,
  .undelegId, .provider, .managersLen, .managersItem, .managersIndex, .scoring, .fees, .accumulator, .roundsPerEpoch,
  .minimumRounds, .state, .lsToken, .lsSupply, .reserve, .feesReserve, .withdrawn, .unstakeToken, .pending, .toUnstake, .toUnbond,
  .unstakeNonce, .maxDelegationAddresses, .maxSelectedProviders, .unbondPeriod, .migrationSc, .closure]

private theorem slots_all (s : Slot) : s ∈ slots := by cases s <;> decide

private def clash (s t : Slot) : Bool :=
  decide (s ≠ t) && decide (s.name.length + s.argLen = t.name.length + t.argLen) &&
    (s.name.isPrefixOf t.name || t.name.isPrefixOf s.name)

private theorem no_clash : (slots.all fun s => slots.all fun t => !clash s t) = true := by decide +kernel

private theorem prefix_of {a b x y : Bytes} (h : a ++ x = b ++ y) : a <+: b ∨ b <+: a := by
  rcases List.append_eq_append_iff.1 h with ⟨c, hc, _⟩ | ⟨c, hc, _⟩
  · exact .inl ⟨c, hc.symm⟩
  · exact .inr ⟨c, hc.symm⟩

/-- **C82**: no two storage entries have the same key, whatever addresses, epochs, node numbers and hashes they are for. -/
theorem C82_keys_distinct {e e' : Entry} (h : e.key = e'.key) : e = e' := by
  obtain ⟨s, a, ha⟩ := e
  obtain ⟨t, b, hb⟩ := e'
  unfold Entry.key at h
  dsimp only at h ha hb
  have hst : s = t := by
    by_contra hne
    have hc : clash s t = false := by
      have := List.all_eq_true.1 (List.all_eq_true.1 no_clash s (slots_all s)) t (slots_all t)
      simpa using this
    have hlen : s.name.length + s.argLen = t.name.length + t.argLen := by
      have := congrArg List.length h
      simpa [ha, hb] using this
    have hp : s.name.isPrefixOf t.name = true ∨ t.name.isPrefixOf s.name = true := by
      rcases prefix_of h with h | h
      · exact .inl (List.isPrefixOf_iff_prefix.2 h)
      · exact .inr (List.isPrefixOf_iff_prefix.2 h)
    unfold clash at hc
    rcases hp with hp | hp <;> simp [hne, hlen, hp] at hc
  subst hst
  have : a = b := List.append_cancel_left h
  subst this
  rfl

/-- **C82**: what is written to an entry is read there, and every other entry reads as before. -/
theorem C82_write_read (s : Raw) (e : Entry) (v : Bytes) :
    (s.write e v).read e = v ∧ ∀ e', e' ≠ e → (s.write e v).read e' = s.read e' := by
  unfold Raw.write Raw.read
  refine ⟨if_pos rfl, fun e' h => if_neg fun hk => h (C82_keys_distinct hk)⟩

/-- **C82**: no key lies in the part of storage that the protocol keeps for itself (prefix `ELROND`), where contracts cannot
write. -/
theorem C82_not_reserved (e : Entry) : ¬ ascii "ELROND".toList <+: e.key := by
  obtain ⟨s, a, ha⟩ := e
  have h0 : s.name.head? ≠ some 69 ∧ s.name ≠ [] := by cases s <;> decide +kernel
  rintro ⟨c, hc⟩
  unfold Entry.key at hc
  dsimp only at hc
  have := congrArg List.head? hc
  cases hn : s.name with
  | nil => exact h0.2 hn
  | cons x l =>
    rw [hn] at this h0
    exact h0.1 this.symm

/-- The records of two providers, the two sets of providers, and two figures whose names begin alike. -/
example : let a := encAddr 21
    let k1 : Entry := ⟨.provider, a, by decide +kernel⟩
    let k2 : Entry := ⟨.delegId, a, by decide +kernel⟩
    let k3 : Entry := ⟨.pending, [], rfl⟩
    let k4 : Entry := ⟨.toUnstake, [], rfl⟩
    k1.key.length = 50 ∧ k2.key.length = 62 ∧ k3.key <+: k4.key ∧ k3.key ≠ k4.key := by
  refine ⟨by decide +kernel, by decide +kernel, ?_, by decide +kernel⟩
  exact List.isPrefixOf_iff_prefix.1 (by decide +kernel)

theorem beFixed_length : ∀ k n, (beFixed k n).length = k
  | 0, _ => rfl
  | k + 1, n => by rw [beFixed, List.length_append, beFixed_length]; rfl

private theorem beVal_snoc (b : Bytes) (x : UInt8) : beVal (b ++ [x]) = beVal b * 256 + x.toNat := by
  unfold beVal; rw [List.foldl_append]; rfl

theorem beVal_beFixed : ∀ k n, n < 256 ^ k → beVal (beFixed k n) = n
  | 0, n, h => by rw [Nat.pow_zero] at h; rw [beFixed]; show 0 = n; omega
  | k + 1, n, h => by
    have h' : n / 256 < 256 ^ k := by rw [Nat.div_lt_iff_lt_mul (by decide)]; rw [Nat.pow_succ] at h; exact h
    rw [beFixed, beVal_snoc, beVal_beFixed k _ h']
    have : (n % 256).toUInt8.toNat = n % 256 := by
      rw [Nat.toUInt8, UInt8.toNat_ofNat']; omega
    rw [this]; omega

private theorem byteLen_fits (n : Nat) : n < 256 ^ byteLen n := by
  unfold byteLen
  split
  · rename_i h; subst h; decide
  · have h1 : n < 2 ^ (n.log2 + 1) := Nat.lt_log2_self
    have h2 : (256 : Nat) = 2 ^ 8 := rfl
    rw [h2, ← Nat.pow_mul]
    exact Nat.lt_of_lt_of_le h1 (Nat.pow_le_pow_right (by decide) (by omega))

/-- **C83**, numbers: a number read back is the number written; it leaves the entry empty exactly if it is zero; no leading zero
byte is stored. -/
theorem C83_numbers (n : Nat) : beVal (encTop n) = n ∧ (encTop n = [] ↔ n = 0) ∧ (encTop n).head? ≠ some 0 := by
  have hv : beVal (encTop n) = n := beVal_beFixed _ _ (byteLen_fits n)
  refine ⟨hv, ⟨fun h => by rw [h] at hv; exact hv.symm, fun h => by subst h; rfl⟩, ?_⟩
  intro hh
  unfold encTop at hv hh
  have hn : n ≠ 0 := by
    rintro rfl; simp [byteLen, beFixed] at hh
  have hlow : 256 ^ (byteLen n - 1) ≤ n := by
    unfold byteLen
    rw [if_neg hn]
    have h1 : 2 ^ n.log2 ≤ n := Nat.log2_self_le hn
    have h2 : (256 : Nat) = 2 ^ 8 := rfl
    rw [h2, ← Nat.pow_mul]
    exact Nat.le_trans (Nat.pow_le_pow_right (by decide) (by omega)) h1
  have key : ∀ k m, 0 < k → (beFixed k m).head? = some 0 → m < 256 ^ k → m < 256 ^ (k - 1) := by
    intro k
    induction k with
    | zero => intro m h; omega
    | succ k ih =>
      intro m _ hh hm
      rcases Nat.eq_zero_or_pos k with rfl | hk
      · simp only [beFixed, List.nil_append, List.head?_cons, Option.some.injEq] at hh
        have : (m % 256).toUInt8.toNat = 0 := by rw [hh]; rfl
        rw [Nat.toUInt8, UInt8.toNat_ofNat'] at this
        simp only [Nat.zero_add, Nat.pow_one, Nat.sub_self, Nat.pow_zero] at hm ⊢
        omega
      · have hne : beFixed k (m / 256) ≠ [] := by
          intro h; have := congrArg List.length h; rw [beFixed_length] at this; simp at this; omega
        rw [beFixed, List.head?_append_of_ne_nil _ hne] at hh
        have := ih (m / 256) hk hh (by rw [Nat.div_lt_iff_lt_mul (by decide)]; rw [Nat.pow_succ] at hm; exact hm)
        rw [Nat.div_lt_iff_lt_mul (by decide), ← Nat.pow_succ] at this
        have e : (k - 1).succ = k + 1 - 1 := by omega
        rwa [e] at this
  have hb : 0 < byteLen n := by unfold byteLen; rw [if_neg hn]; omega
  exact absurd (key _ _ hb hh (byteLen_fits n)) (by omega)

/-- A number short enough for its length to be stored in four bytes: all below 256^(2^32). -/
def Short (n : Nat) : Prop := byteLen n < 2 ^ 32

/-- The figures of a record are short and its admin's address has 32 bytes. -/
def Storable (d : ProviderData) : Prop :=
  d.admin < 2 ^ 256 ∧ Short d.totalStaked ∧ Short d.cap ∧ Short d.staked ∧ Short d.unstaked ∧ Short d.pStake ∧ Short d.pUnstake

private theorem takeN_append {k : Nat} {a b : Bytes} (h : a.length = k) : takeN k (a ++ b) = some (a, b) := by
  subst h
  unfold takeN
  rw [if_pos (by simp), List.take_left, List.drop_left]

private theorem decFixed_append {k n : Nat} (h : n < 256 ^ k) (b : Bytes) : decFixed k (beFixed k n ++ b) = some (n, b) := by
  unfold decFixed
  rw [takeN_append (beFixed_length k n)]
  simp only [beVal_beFixed k n h]

theorem decU64_append (x : UInt64) (b : Bytes) : decU64 (encU64 x ++ b) = some (x, b) := by
  unfold decU64 encU64
  have : x.toNat < 256 ^ 8 := by have := x.toNat_lt; simpa using this
  rw [decFixed_append this]
  simp

theorem decBig_append {n : Nat} (h : Short n) (b : Bytes) : decBig (encBig n ++ b) = some (n, b) := by
  unfold decBig encBig
  unfold Short at h
  rw [List.append_assoc, decFixed_append (by simpa using h)]
  exact decFixed_append (byteLen_fits n) b

theorem decAddr_append {a : Addr} (h : a < 2 ^ 256) (b : Bytes) : decAddr (encAddr a ++ b) = some (a, b) := by
  unfold decAddr encAddr
  have : a < 256 ^ 32 := h
  rw [decFixed_append this]

theorem decBool_append (x : Bool) (b : Bytes) : decBool (encBool x ++ b) = some (x, b) := by
  cases x <;> rfl

/-- **C83**, the record of a provider. -/
theorem C83_provider {d : ProviderData} (h : Storable d) : decProvider (encProvider d) = some d ∧ encProvider d ≠ [] := by
  obtain ⟨h1, h2, h3, h4, h5, h6, h7⟩ := h
  constructor
  · unfold decProvider decAll decProviderFields encProvider
    have e : decBig (encBig d.pUnstake) = some (d.pUnstake, []) := by
      have := decBig_append h7 []
      rwa [List.append_nil] at this
    simp only [decAddr_append h1, decBig_append h2, decBig_append h3, decU64_append, decBig_append h4, decBig_append h5,
      decBool_append, decBig_append h6, e, Option.bind_eq_bind, Option.bind_some]
  · intro hn
    have := congrArg List.length hn
    unfold encProvider encAddr at this
    rw [List.length_append, beFixed_length] at this
    simp at this

/-- **C83**, the attributes of an unstake token. -/
theorem C83_attrs (a : Attrs) : decAttrs (encAttrs a) = some a ∧ (encAttrs a).length = 16 := by
  constructor
  · unfold decAttrs decAll decAttrsFields encAttrs
    have e := decU64_append a.unbondEpoch []
    rw [List.append_nil] at e
    simp only [decU64_append, e, Option.bind_eq_bind, Option.bind_some]
  · unfold encAttrs encU64
    rw [List.length_append, beFixed_length, beFixed_length]

/-- **C83**, the scoring configuration. -/
theorem C83_scoring (c : ScoringConfig) : decScoring (encScoring c) = some c ∧ encScoring c ≠ [] := by
  constructor
  · unfold decScoring decAll decScoringFields encScoring
    have e := decU64_append c.apyGrowthMultiplier []
    rw [List.append_nil] at e
    simp only [decU64_append, e, Option.bind_eq_bind, Option.bind_some]
  · intro hn
    have := congrArg List.length hn
    unfold encScoring encU64 at this
    rw [List.length_append, beFixed_length] at this
    simp at this

/-- **C83**, the state of the contract: an entry never written means inactive. -/
theorem C83_state (c : CState) : decState (encState c) = some c ∧ decState [] = some .inactive := by
  cases c <;> exact ⟨by decide +kernel, by decide +kernel⟩

/-- Bytes of an entry that may be unset. -/
def encOpt {α : Type} (f : α → Bytes) : Option α → Bytes
  | none => []
  | some x => f x

/-- The entry of a kind that takes no argument. -/
def plain (s : Slot) (h : s.argLen = 0 := by rfl) : Entry := ⟨s, [], h.symm⟩

/-- The record of a provider: storage/mod.rs:16-21. -/
def providerAt (a : Addr) : Entry := ⟨.provider, encAddr a, beFixed_length 32 a⟩

private theorem providerAt_arg (a : Addr) : (providerAt a).arg = encAddr a := rfl

/-- The unstake token of an epoch: storage/mod.rs:87-89. -/
def nonceAt (e : UInt64) : Entry := ⟨.unstakeNonce, encU64 e, beFixed_length 8 e.toNat⟩

/-- The bytes of storage hold the values of `st`, apart from the token slots and the sets, which the framework's mappers keep. -/
structure Represents (s : Raw) (st : Store) : Prop where
  state : s.read (plain .state) = encState st.state
  lsSupply : s.read (plain .lsSupply) = encTop st.r.lsSupply
  reserve : s.read (plain .reserve) = encTop st.r.reserve
  fees : s.read (plain .feesReserve) = encTop st.r.fees
  withdrawn : s.read (plain .withdrawn) = encTop st.r.withdrawn
  pending : s.read (plain .pending) = encTop st.r.pending
  toUnstake : s.read (plain .toUnstake) = encTop st.r.toUnstake
  toUnbond : s.read (plain .toUnbond) = encTop st.r.toUnbond
  feeRate : s.read (plain .fees) = encTop st.feeRate
  accumulator : s.read (plain .accumulator) = encAddr st.accumulator
  roundsPerEpoch : s.read (plain .roundsPerEpoch) = encTop st.roundsPerEpoch.toNat
  minimumRounds : s.read (plain .minimumRounds) = encTop st.minimumRounds.toNat
  maxDelegationAddresses : s.read (plain .maxDelegationAddresses) = encTop st.maxDelegationAddresses
  maxSelectedProviders : s.read (plain .maxSelectedProviders) = encTop st.maxSelectedProviders
  unbondPeriod : s.read (plain .unbondPeriod) = encTop st.unbondPeriod.toNat
  scoring : s.read (plain .scoring) = encOpt encScoring st.scoring
  migrationSc : s.read (plain .migrationSc) = encOpt encAddr st.migrationSc
  data : ∀ a < 2 ^ 256, s.read (providerAt a) = encOpt encProvider (st.data.get none a)
  nonces : ∀ e, s.read (nonceAt e) = encTop (st.unstakeNonce.get 0 e)

/-- Addresses have 32 bytes and records are storable. -/
def Bounded (st : Store) : Prop :=
  st.accumulator < 2 ^ 256 ∧ (∀ m, st.migrationSc = some m → m < 2 ^ 256) ∧
  ∀ a d, st.data.get none a = some d → a < 2 ^ 256 ∧ Storable d

private theorem encTop_inj {a b : Nat} (h : encTop a = encTop b) : a = b := by
  rw [← (C83_numbers a).1, ← (C83_numbers b).1, h]

private theorem encU_inj {a b : UInt64} (h : encTop a.toNat = encTop b.toNat) : a = b := UInt64.toNat_inj.1 (encTop_inj h)

private theorem encAddr_inj {a b : Addr} (ha : a < 2 ^ 256) (hb : b < 2 ^ 256) (h : encAddr a = encAddr b) : a = b := by
  have h1 : a < 256 ^ 32 := ha
  have h2 : b < 256 ^ 32 := hb
  unfold encAddr at h
  rw [← beVal_beFixed 32 a h1, ← beVal_beFixed 32 b h2, h]

private theorem encOpt_inj {α : Type} {f : α → Bytes} {x y : Option α} (hx : ∀ a, x = some a → f a ≠ [])
    (hy : ∀ a, y = some a → f a ≠ []) (hf : ∀ a b, x = some a → y = some b → f a = f b → a = b)
    (h : encOpt f x = encOpt f y) : x = y := by
  cases x with
  | none =>
    cases y with
    | none => rfl
    | some b => exact absurd h.symm (hy b rfl)
  | some a =>
    cases y with
    | none => exact absurd h (hx a rfl)
    | some b => rw [hf a b rfl rfl h]

private theorem encAddr_ne (a : Addr) : encAddr a ≠ [] := by
  intro h
  have := congrArg List.length h
  unfold encAddr at this
  rw [beFixed_length] at this
  simp at this

/-- **C83**: the bytes in storage determine every figure, setting, provider record and unstake-token number: two stores held by
the same bytes agree on all of them. -/
theorem C83_determined {s : Raw} {st st' : Store} (h : Represents s st) (h' : Represents s st') (hb : Bounded st)
    (hb' : Bounded st') :
    st.state = st'.state ∧ st.r = st'.r ∧ st.feeRate = st'.feeRate ∧ st.accumulator = st'.accumulator ∧
    st.roundsPerEpoch = st'.roundsPerEpoch ∧ st.minimumRounds = st'.minimumRounds ∧
    st.maxDelegationAddresses = st'.maxDelegationAddresses ∧ st.maxSelectedProviders = st'.maxSelectedProviders ∧
    st.unbondPeriod = st'.unbondPeriod ∧ st.scoring = st'.scoring ∧ st.migrationSc = st'.migrationSc ∧
    (∀ a, st.data.get none a = st'.data.get none a) ∧ ∀ e, st.unstakeNonce.get 0 e = st'.unstakeNonce.get 0 e := by
  refine ⟨?_, ?_, encTop_inj (h.feeRate.symm.trans h'.feeRate),
    encAddr_inj hb.1 hb'.1 (h.accumulator.symm.trans h'.accumulator), encU_inj (h.roundsPerEpoch.symm.trans h'.roundsPerEpoch),
    encU_inj (h.minimumRounds.symm.trans h'.minimumRounds),
    encTop_inj (h.maxDelegationAddresses.symm.trans h'.maxDelegationAddresses),
    encTop_inj (h.maxSelectedProviders.symm.trans h'.maxSelectedProviders),
    encU_inj (h.unbondPeriod.symm.trans h'.unbondPeriod), ?_, ?_, fun a => ?_,
    fun e => encTop_inj ((h.nonces e).symm.trans (h'.nonces e))⟩
  · have := h.state.symm.trans h'.state
    have h1 := (C83_state st.state).1
    rw [this, (C83_state st'.state).1] at h1
    exact (Option.some.inj h1).symm
  · have e1 := encTop_inj (h.lsSupply.symm.trans h'.lsSupply)
    have e2 := encTop_inj (h.reserve.symm.trans h'.reserve)
    have e3 := encTop_inj (h.fees.symm.trans h'.fees)
    have e4 := encTop_inj (h.withdrawn.symm.trans h'.withdrawn)
    have e5 := encTop_inj (h.pending.symm.trans h'.pending)
    have e6 := encTop_inj (h.toUnstake.symm.trans h'.toUnstake)
    have e7 := encTop_inj (h.toUnbond.symm.trans h'.toUnbond)
    generalize st.r = r at *
    generalize st'.r = r' at *
    cases r; cases r'
    simp_all
  · refine encOpt_inj (fun a _ => (C83_scoring a).2) (fun a _ => (C83_scoring a).2) (fun a b _ _ hab => ?_)
      (h.scoring.symm.trans h'.scoring)
    have h1 := (C83_scoring a).1
    rw [hab, (C83_scoring b).1] at h1
    exact (Option.some.inj h1).symm
  · exact encOpt_inj (fun a _ => encAddr_ne a) (fun a _ => encAddr_ne a)
      (fun a b ha hb2 hab => encAddr_inj (hb.2.1 a ha) (hb'.2.1 b hb2) hab) (h.migrationSc.symm.trans h'.migrationSc)
  · by_cases ha : a < 2 ^ 256
    · refine encOpt_inj (fun d hd => (C83_provider (hb.2.2 a d hd).2).2) (fun d hd => (C83_provider (hb'.2.2 a d hd).2).2)
        (fun d d' hd hd' hab => ?_) ((h.data a ha).symm.trans (h'.data a ha))
      have h1 := (C83_provider (hb.2.2 a d hd).2).1
      rw [hab, (C83_provider (hb'.2.2 a d' hd').2).1] at h1
      exact (Option.some.inj h1).symm
    · have n1 : st.data.get none a = none := by
        cases hd : st.data.get none a with
        | none => rfl
        | some d => exact absurd (hb.2.2 a d hd).1 ha
      have n2 : st'.data.get none a = none := by
        cases hd : st'.data.get none a with
        | none => rfl
        | some d => exact absurd (hb'.2.2 a d hd).1 ha
      rw [n1, n2]

/-- Writing the record of a provider changes that record and nothing else. -/
theorem C83_write_record {s : Raw} {st : Store} (h : Represents s st) {p : Addr} (hp : p < 2 ^ 256) (d : Option ProviderData) :
    Represents (s.write (providerAt p) (encOpt encProvider d)) { st with data := st.data.set p d } := by
  have other : ∀ e : Entry, e.slot ≠ .provider →
      (s.write (providerAt p) (encOpt encProvider d)).read e = s.read e := fun e he =>
    (C82_write_read s _ _).2 e fun h => he (by rw [h]; rfl)
  have single : ∀ (t : Slot) (ht : t.argLen = 0), t ≠ .provider →
      (s.write (providerAt p) (encOpt encProvider d)).read (plain t ht) = s.read (plain t ht) := fun t ht hne =>
    other (plain t ht) hne
  constructor
  case data =>
    intro a ha
    dsimp only
    rw [Map.get_set]
    split
    · rename_i h; subst h; exact (C82_write_read s _ _).1
    · rename_i hne
      rw [(C82_write_read s _ _).2, h.data a ha]
      intro he
      have h2 := congrArg Entry.arg he
      rw [providerAt_arg, providerAt_arg] at h2
      exact hne (encAddr_inj ha hp h2).symm
  case nonces => exact fun e => (other (nonceAt e) (by show Slot.unstakeNonce ≠ Slot.provider; decide)).trans (h.nonces e)
  case state => exact (single .state rfl (by decide)).trans h.state
  case lsSupply => exact (single .lsSupply rfl (by decide)).trans h.lsSupply
  case reserve => exact (single .reserve rfl (by decide)).trans h.reserve
  case fees => exact (single .feesReserve rfl (by decide)).trans h.fees
  case withdrawn => exact (single .withdrawn rfl (by decide)).trans h.withdrawn
  case pending => exact (single .pending rfl (by decide)).trans h.pending
  case toUnstake => exact (single .toUnstake rfl (by decide)).trans h.toUnstake
  case toUnbond => exact (single .toUnbond rfl (by decide)).trans h.toUnbond
  case feeRate => exact (single .fees rfl (by decide)).trans h.feeRate
  case accumulator => exact (single .accumulator rfl (by decide)).trans h.accumulator
  case roundsPerEpoch => exact (single .roundsPerEpoch rfl (by decide)).trans h.roundsPerEpoch
  case minimumRounds => exact (single .minimumRounds rfl (by decide)).trans h.minimumRounds
  case maxDelegationAddresses => exact (single .maxDelegationAddresses rfl (by decide)).trans h.maxDelegationAddresses
  case maxSelectedProviders => exact (single .maxSelectedProviders rfl (by decide)).trans h.maxSelectedProviders
  case unbondPeriod => exact (single .unbondPeriod rfl (by decide)).trans h.unbondPeriod
  case scoring => exact (single .scoring rfl (by decide)).trans h.scoring
  case migrationSc => exact (single .migrationSc rfl (by decide)).trans h.migrationSc

/-- What an entry holds for a store. -/
private def contents (st : Store) (e : Entry) : Bytes :=
  match e.slot with
  | .state => encState st.state
  | .lsSupply => encTop st.r.lsSupply
  | .reserve => encTop st.r.reserve
  | .feesReserve => encTop st.r.fees
  | .withdrawn => encTop st.r.withdrawn
  | .pending => encTop st.r.pending
  | .toUnstake => encTop st.r.toUnstake
  | .toUnbond => encTop st.r.toUnbond
  | .fees => encTop st.feeRate
  | .accumulator => encAddr st.accumulator
  | .roundsPerEpoch => encTop st.roundsPerEpoch.toNat
  | .minimumRounds => encTop st.minimumRounds.toNat
  | .maxDelegationAddresses => encTop st.maxDelegationAddresses
  | .maxSelectedProviders => encTop st.maxSelectedProviders
  | .unbondPeriod => encTop st.unbondPeriod.toNat
  | .scoring => encOpt encScoring st.scoring
  | .migrationSc => encOpt encAddr st.migrationSc
  | .provider => encOpt encProvider (st.data.get none (beVal e.arg))
  | .unstakeNonce => encTop (st.unstakeNonce.get 0 (beVal e.arg).toUInt64)
  | _ => []

/-- **C83**: every store can be held: the entries do not get into each other's way. -/
theorem C83_representable (st : Store) : ∃ s, Represents s st := by
  classical
  have hread : ∀ e : Entry, Raw.read (fun k => if h : ∃ e : Entry, e.key = k then contents st h.choose else []) e = contents st e := by
    intro e
    have hx : ∃ e' : Entry, e'.key = e.key := ⟨e, rfl⟩
    show (if h : ∃ e' : Entry, e'.key = e.key then contents st h.choose else []) = _
    rw [dif_pos hx, C82_keys_distinct hx.choose_spec]
  refine ⟨_, ⟨hread _, hread _, hread _, hread _, hread _, hread _, hread _, hread _, hread _, hread _, hread _, hread _, hread _,
    hread _, hread _, hread _, hread _, fun a ha => (hread _).trans ?_, fun e => (hread _).trans ?_⟩⟩
  · have h1 : a < 256 ^ 32 := ha
    show encOpt encProvider (st.data.get none (beVal (beFixed 32 a))) = _
    rw [beVal_beFixed 32 a h1]
  · have h1 : e.toNat < 256 ^ 8 := by have := e.toNat_lt; simpa using this
    show encTop (st.unstakeNonce.get 0 (beVal (beFixed 8 e.toNat)).toUInt64) = _
    rw [beVal_beFixed 8 _ h1]
    simp

/-- A world with providers and a redemption: its storage is bounded, and there are bytes that hold it. -/
example : (∃ s, Represents s Demo.redeemed.st) ∧ Demo.redeemed.st.data.get none 21 ≠ none ∧ Demo.redeemed.st.r.reserve ≠ 0 :=
  ⟨C83_representable _, by decide +kernel, by decide +kernel⟩

/-- A record with figures of a million EGLD. -/
example : Storable ⟨41, 10 ^ 24, 0, 10, 800, 10 ^ 24, 5, true, 0, 10 ^ 18⟩ ∧
    (encProvider ⟨41, 10 ^ 24, 0, 10, 800, 10 ^ 24, 5, true, 0, 10 ^ 18⟩).length = 102 := by
  refine ⟨?_, by decide +kernel⟩
  unfold Storable Short
  decide +kernel

/-- Records in a changed order of fields would be taken for others. -/
example : decAttrs (encAttrs ⟨7, 17⟩) = some ⟨7, 17⟩ ∧ decAttrs (encU64 17 ++ encU64 7) ≠ some ⟨7, 17⟩ ∧
    decAttrs (encAttrs ⟨7, 17⟩ ++ [0]) = none ∧ decProvider [] = none := by
  decide +kernel

end LS
