import Verif.Model.Proxy
import Verif.Props.Views

/-! The published client: C100. -/

namespace LS
open Spec Demo Layout Abi Mapper Views Proxy

/-- Methods for which the contract has no endpoint. -/
def Spec.Stale : Method → Prop
  | .delegateRewards | .rewardsReserve => True
  | _ => False

/-- The operation a method is for, named like the contract's function of the same name; `none` for those that only read. -/
def Spec.wanted (c : Addr) (v : Nat) (ps : List Payment) : Method → Option Op
  | .delegate => some (.delegate c v)
  | .unDelegate => some (.unDelegate c v ps)
  | .withdraw => some (.withdraw c v ps)
  | .lsValueForPosition n => some (.viewLsValue n)
  | .egldPositionValue n => some (.viewEgldPosition n)
  | .registerLsToken _ _ _ => some (.registerLsToken c v)
  | .registerUnstakeToken _ _ _ => some (.registerUnstakeToken c v)
  | .setStateActive => some (.owner c .stateActive)
  | .setStateInactive => some (.owner c .stateInactive)
  | .setAccumulatorContract a => some (.owner c (.accumulator a))
  | .setFees n => some (.owner c (.fees n))
  | .setMinimumRounds x => some (.owner c (.minimumRounds x))
  | .setMaxAddresses n => some (.owner c (.maxAddresses n))
  | .setMaxSelectedProviders n => some (.owner c (.maxSelected n))
  | .setUnbondPeriod x => some (.owner c (.unbondPeriod x))
  | .setManagers l => some (.owner c (.addManagers l))
  | .removeManager a => some (.owner c (.removeManager a))
  | .setScoringConfig x => some (.setScoringConfig c x)
  | .delegatePending o => some (.delegatePending c o)
  | .unDelegatePending o => some (.unDelegatePending c o)
  | .withdrawPending a => some (.withdrawPending c a)
  | .claimRewards => some (.claimRewards c)
  | .migrate n a => some (.migrate c n a)
  | .migratePending => some (.migratePending c v)
  | .addRewards => some (.addRewards c v)
  | .addMigrationScAddress a => some (.setMigrationSc c a)
  | .whitelistDelegationContract p a t cap n y => some (.whitelist c v p a t cap n y)
  | .changeDelegationContractAdmin p a => some (.changeAdmin c p a)
  | .changeDelegationContractParams p t cap n y e => some (.changeParams c p t cap n y e)
  | _ => none

/-- What a view asked through the client is to give; `none` where nothing is kept. -/
def Spec.reading (st : Store) : Method → Option Reading
  | .exchangeRate => some (.nat (if st.r.lsSupply = 0 then 10 ^ 18 else st.r.reserve * 10 ^ 18 / st.r.lsSupply))
  | .stakedAmount a => (st.data.get none a).map fun d => .nat d.staked
  | .unstakedAmount a => (st.data.get none a).map fun d => .nat d.unstaked
  | .delegationAddressesList => some (.addrs st.delegList)
  | .unDelegationAddressesList => some (.addrs st.undelegList)
  | .managers => some (.addrs st.managers)
  | .scoringConfig => st.scoring.map .scoring
  | .fees => some (.nat st.feeRate)
  | .accumulatorContract => some (.addr st.accumulator)
  | .roundsPerEpoch => some (.u64 st.roundsPerEpoch)
  | .minimumRounds => some (.u64 st.minimumRounds)
  | .state => some (.state st.state)
  | .lsTokenSupply => some (.nat st.r.lsSupply)
  | .virtualEgldReserve => some (.nat st.r.reserve)
  | .totalWithdrawnEgld => some (.nat st.r.withdrawn)
  | .pendingEgld => some (.nat st.r.pending)
  | .pendingEgldForUnstake => some (.nat st.r.toUnstake)
  | .pendingEgldForUnbond => some (.nat st.r.toUnbond)
  | .unstakeTokenNonce x => some (.u64 (st.unstakeNonce.get 0 x).toUInt64)
  | .maxDelegationAddresses => some (.nat st.maxDelegationAddresses)
  | .maxSelectedProviders => some (.nat st.maxSelectedProviders)
  | .unbondPeriod => some (.u64 st.unbondPeriod)
  | .migrationScAddress => st.migrationSc.map .addr
  | _ => none

/-- The views whose results are read as intended. -/
def Spec.Readable : Method → Prop
  | .exchangeRate | .stakedAmount _ | .unstakedAmount _ | .delegationAddressesList | .unDelegationAddressesList
  | .managers | .scoringConfig | .fees | .accumulatorContract | .roundsPerEpoch | .minimumRounds | .state | .lsTokenSupply
  | .virtualEgldReserve | .totalWithdrawnEgld | .pendingEgld | .pendingEgldForUnstake | .pendingEgldForUnbond
  | .unstakeTokenNonce _ | .maxDelegationAddresses | .maxSelectedProviders | .unbondPeriod | .migrationScAddress => True
  | _ => False

/-- Arguments have the types the client asks for: addresses of 32 bytes, lengths of 32 bits. -/
def Spec.Typed : Method → Prop
  | .stakedAmount a => a < 2 ^ 256
  | .unstakedAmount a => a < 2 ^ 256
  | .registerLsToken _ _ decimals => decimals < 2 ^ 32
  | .registerUnstakeToken _ _ decimals => decimals < 2 ^ 32
  | .setAccumulatorContract a => a < 2 ^ 256
  | .setMaxAddresses n => n < 2 ^ 32
  | .setManagers l => ∀ a ∈ l, a < 2 ^ 256
  | .removeManager a => a < 2 ^ 256
  | .withdrawPending a => a < 2 ^ 256
  | .delegationContractData a => a < 2 ^ 256
  | .migrate _ a => a < 2 ^ 256
  | .addMigrationScAddress a => a < 2 ^ 256
  | .whitelistDelegationContract p a _ _ _ _ => p < 2 ^ 256 ∧ a < 2 ^ 256
  | .changeDelegationContractAdmin p a => p < 2 ^ 256 ∧ a < 2 ^ 256
  | .changeDelegationContractParams p _ _ _ _ _ => p < 2 ^ 256
  | _ => True

/-- The payment is of the kind the endpoint takes: only the two redemptions take tokens. -/
def Spec.Pays (ps : List Payment) : Method → Prop
  | .unDelegate | .withdraw => True
  | _ => ps = []

/-! ### Proofs -/

private theorem top_val (n : Nat) : beVal (encTop n) = n := (C83_numbers n).1
private theorem at_val {a : Addr} (h : a < 2 ^ 256) : beVal (encAddr a) = a := beVal_beFixed 32 a (show a < 256 ^ 32 from h)
private theorem at_len (a : Addr) : (encAddr a).length = 32 := beFixed_length 32 a
private theorem bool_val (e : Bool) : beVal (encTop (if e then 1 else 0)) = if e then 1 else 0 := top_val _
private theorem ats_val {l : List Addr} (h : ∀ a ∈ l, a < 2 ^ 256) : (l.map encAddr).map beVal = l := by
  induction l with
  | nil => rfl
  | cons a l ih =>
    rw [List.map_cons, List.map_cons, at_val (h a List.mem_cons_self), ih fun x hx => h x (List.mem_cons_of_mem _ hx)]

private theorem means_request {c : Addr} {v : Nat} {ps : List Payment} {k : Bool} {m : Method} {op : Op} (ht : Typed m) (hp : Pays ps m)
    (hw : wanted c v ps m = some op) : Means (request c v ps k m) op := by
  cases m with
  | delegate =>
    cases hw
    cases hp
    have h := Means.delegate c v k
    exact h
  | unDelegate =>
    cases hw
    have h := Means.unDelegate c v ps k
    exact h
  | withdraw =>
    cases hw
    have h := Means.withdraw c v ps k
    exact h
  | lsValueForPosition n =>
    cases hw
    have h := Means.lsValue c (encTop n) k
    rw [top_val n] at h
    exact h
  | egldPositionValue n =>
    cases hw
    have h := Means.egldPosition c (encTop n) k
    rw [top_val n] at h
    exact h
  | registerLsToken name ticker decimals =>
    cases hw
    cases hp
    have h := Means.registerLs c v name ticker (encTop decimals) k (by rw [top_val]; exact ht)
    exact h
  | registerUnstakeToken name ticker decimals =>
    cases hw
    cases hp
    have h := Means.registerUnstake c v name ticker (encTop decimals) k (by rw [top_val]; exact ht)
    exact h
  | setStateActive =>
    cases hw
    have h := Means.setActive c k
    exact h
  | setStateInactive =>
    cases hw
    have h := Means.setInactive c k
    exact h
  | setAccumulatorContract a =>
    cases hw
    have h := Means.setAccumulator c (encAddr a) k (at_len a)
    rw [at_val ht] at h
    exact h
  | setFees n =>
    cases hw
    have h := Means.setFees c (encTop n) k
    rw [top_val n] at h
    exact h
  | setMinimumRounds x =>
    cases hw
    have h := Means.setMinimumRounds c (encTop x.toNat) x k (top_val _)
    exact h
  | setMaxAddresses n =>
    cases hw
    have h := Means.setMaxAddresses c (encTop n) k (by rw [top_val]; exact ht)
    rw [top_val n] at h
    exact h
  | setMaxSelectedProviders n =>
    cases hw
    have h := Means.setMaxSelected c (encTop n) k
    rw [top_val n] at h
    exact h
  | setUnbondPeriod x =>
    cases hw
    have h := Means.setUnbondPeriod c (encTop x.toNat) x k (top_val _)
    exact h
  | setManagers l =>
    cases hw
    have h := Means.addManagers c (l.map encAddr) k (fun b hb => by obtain ⟨a, _, rfl⟩ := List.mem_map.1 hb; exact at_len a)
    rw [ats_val ht] at h
    exact h
  | removeManager a =>
    cases hw
    have h := Means.removeManager c (encAddr a) k (at_len a)
    rw [at_val ht] at h
    exact h
  | setScoringConfig x =>
    cases hw
    have h := Means.setScoring c (encScoring x) x k rfl
    exact h
  | delegatePending o =>
    cases hw
    cases o with
    | none => exact .delegatePending c k
    | some n =>
      have h := Means.delegatePart c (encTop n) k
      rw [top_val] at h
      exact h
  | unDelegatePending o =>
    cases hw
    cases o with
    | none => exact .unDelegatePending c k
    | some n =>
      have h := Means.unDelegatePart c (encTop n) k
      rw [top_val] at h
      exact h
  | withdrawPending a =>
    cases hw
    have h := Means.withdrawPending c (encAddr a) k (at_len a)
    rw [at_val ht] at h
    exact h
  | claimRewards =>
    cases hw
    have h := Means.claimRewards c k
    exact h
  | migrate n a =>
    cases hw
    have h := Means.migrate c (encTop n) (encAddr a) k (at_len a)
    rw [top_val n, at_val ht] at h
    exact h
  | migratePending =>
    cases hw
    cases hp
    have h := Means.migratePending c v k
    exact h
  | addRewards =>
    cases hw
    cases hp
    have h := Means.addRewards c v k
    exact h
  | addMigrationScAddress a =>
    cases hw
    have h := Means.setMigrationSc c (encAddr a) k (at_len a)
    rw [at_val ht] at h
    exact h
  | whitelistDelegationContract p a t cap n y =>
    cases hw
    cases hp
    have h := Means.whitelist c v (encAddr p) (encAddr a) (encTop t) (encTop cap) (encTop n.toNat) (encTop y.toNat) n y k (at_len p) (at_len a) (top_val _) (top_val _)
    rw [at_val ht.1, at_val ht.2, top_val t, top_val cap] at h
    exact h
  | changeDelegationContractAdmin p a =>
    cases hw
    have h := Means.changeAdmin c (encAddr p) (encAddr a) k (at_len p) (at_len a)
    rw [at_val ht.1, at_val ht.2] at h
    exact h
  | changeDelegationContractParams p t cap n y e =>
    cases hw
    have h := Means.changeParams c (encAddr p) (encTop t) (encTop cap) (encTop n.toNat) (encTop y.toNat) (encTop (if e then 1 else 0)) n y e k (at_len p) (top_val _) (top_val _) (bool_val e)
    rw [at_val ht, top_val t, top_val cap] at h
    exact h
  | _ => cases hw

private theorem reads_request {c : Addr} {v : Nat} {ps : List Payment} {k : Bool} {m : Method} (hs : ¬ Stale m)
    (hw : wanted c v ps m = none) : ReadOnly (request c v ps k m) := by
  cases m with
  | delegateRewards | rewardsReserve => exact absurd trivial hs
  | exchangeRate => exact ⟨rfl, rfl, .inl ⟨rfl, "getExchangeRate", by decide, rfl⟩⟩
  | stakedAmount a => exact ⟨rfl, rfl, .inr (.inl ⟨encAddr a, rfl, at_len a, "getDelegationContractStakedAmount", by decide, rfl⟩)⟩
  | unstakedAmount a => exact ⟨rfl, rfl, .inr (.inl ⟨encAddr a, rfl, at_len a, "getDelegationContractUnstakedAmount", by decide, rfl⟩)⟩
  | delegationAddressesList => exact ⟨rfl, rfl, .inl ⟨rfl, "getDelegationAddressesList", by decide, rfl⟩⟩
  | unDelegationAddressesList => exact ⟨rfl, rfl, .inl ⟨rfl, "getUnDelegationAddressesList", by decide, rfl⟩⟩
  | delegationContractData a => exact ⟨rfl, rfl, .inr (.inl ⟨encAddr a, rfl, at_len a, "getDelegationContractInfo", by decide, rfl⟩)⟩
  | managers => exact ⟨rfl, rfl, .inl ⟨rfl, "getManagers", by decide, rfl⟩⟩
  | scoringConfig => exact ⟨rfl, rfl, .inl ⟨rfl, "getScoringConfig", by decide, rfl⟩⟩
  | fees => exact ⟨rfl, rfl, .inl ⟨rfl, "fees", by decide, rfl⟩⟩
  | accumulatorContract => exact ⟨rfl, rfl, .inl ⟨rfl, "getAccumulatorContract", by decide, rfl⟩⟩
  | roundsPerEpoch => exact ⟨rfl, rfl, .inl ⟨rfl, "roundsPerEpoch", by decide, rfl⟩⟩
  | minimumRounds => exact ⟨rfl, rfl, .inl ⟨rfl, "minimumRounds", by decide, rfl⟩⟩
  | state => exact ⟨rfl, rfl, .inl ⟨rfl, "getState", by decide, rfl⟩⟩
  | lsToken => exact ⟨rfl, rfl, .inl ⟨rfl, "getLsTokenId", by decide, rfl⟩⟩
  | lsTokenSupply => exact ⟨rfl, rfl, .inl ⟨rfl, "getLsSupply", by decide, rfl⟩⟩
  | virtualEgldReserve => exact ⟨rfl, rfl, .inl ⟨rfl, "getVirtualEgldReserve", by decide, rfl⟩⟩
  | totalWithdrawnEgld => exact ⟨rfl, rfl, .inl ⟨rfl, "getTotalWithdrawnEgld", by decide, rfl⟩⟩
  | unstakeToken => exact ⟨rfl, rfl, .inl ⟨rfl, "getUnstakeTokenId", by decide, rfl⟩⟩
  | pendingEgld => exact ⟨rfl, rfl, .inl ⟨rfl, "getPendingEGLDForDelegate", by decide, rfl⟩⟩
  | pendingEgldForUnstake => exact ⟨rfl, rfl, .inl ⟨rfl, "getPendingEGLDForUnDelegate", by decide, rfl⟩⟩
  | pendingEgldForUnbond => exact ⟨rfl, rfl, .inl ⟨rfl, "getPendingEgldForUnbond", by decide, rfl⟩⟩
  | unstakeTokenNonce x => exact ⟨rfl, rfl, .inr (.inr ⟨encTop x.toNat, rfl, by rw [top_val]; exact x.toNat_lt, rfl⟩)⟩
  | maxDelegationAddresses => exact ⟨rfl, rfl, .inl ⟨rfl, "maxDelegationAddresses", by decide, rfl⟩⟩
  | maxSelectedProviders => exact ⟨rfl, rfl, .inl ⟨rfl, "maxSelectedProviders", by decide, rfl⟩⟩
  | unbondPeriod => exact ⟨rfl, rfl, .inl ⟨rfl, "unbondPeriod", by decide, rfl⟩⟩
  | migrationScAddress => exact ⟨rfl, rfl, .inl ⟨rfl, "getMigrationScAddress", by decide, rfl⟩⟩
  | _ => cases hw

/-- What C100 asks for: every endpoint has a method, every method's call is the operation or view it is named for, and the record of
every provider can be read. -/
def Spec.ClientFits : Prop :=
  (∀ n ∈ exported, ∃ m : Method, m.endpoint = ascii n.toList) ∧
  (∀ (c : Addr) (v : Nat) (ps : List Payment) (k : Bool) (m : Method), Typed m → Pays ps m →
    parse (request c v ps k m) = .ok (wanted c v ps m)) ∧
  ∀ (s : Stored) (st : Store) (c a : Addr) (d : ProviderData), Keeps s st → Sizes st → st.data.get none a = some d →
    ∃ i, ask s c (.delegationContractData a) = some (.info i)

/-- **C100**, what holds of the requests: apart from two methods every call made by the client is the operation or view meant.
Missing for the whole: `delegate_rewards` and `rewards_reserve`, see `C100_false`. -/
theorem C100_requests_partial (c : Addr) (v : Nat) (ps : List Payment) (k : Bool) {m : Method} (hs : ¬ Stale m) (ht : Typed m)
    (hp : Pays ps m) : parse (request c v ps k m) = .ok (wanted c v ps m) := by
  cases hw : wanted c v ps m with
  | none => exact C96_reads.2 (reads_request hs hw)
  | some op => exact C96_meaning.2 (means_request ht hp hw)

/-- **C100**, the deployment through the client is the deployment with these settings. -/
theorem C100_deploys {self owner : Addr} {contracts : List Addr} {epoch : UInt64} {funds : Map Addr Nat} {acc : Addr} {fees : Nat}
    {rounds min : UInt64} {maxSel maxAddr : Nat} {unbond : UInt64} {k : Bool} {w : World} (ha : acc < 2 ^ 256) (hm : maxAddr < 2 ^ 32) :
    deploy self owner contracts epoch funds (initRequest owner acc fees rounds min maxSel maxAddr unbond k) = .ok w ↔
      initWorld self owner contracts epoch funds acc fees rounds min maxSel maxAddr unbond = .ok w := by
  rw [C96_deploy]
  constructor
  · rintro ⟨_, _, a, f, r, m, s, n, u, r', m', u', h, _, hr, hm', _, hu, hi⟩
    have h : [encAddr acc, encTop fees, encTop rounds.toNat, encTop min.toNat, encTop maxSel, encTop maxAddr, encTop unbond.toNat] =
      [a, f, r, m, s, n, u] := h
    simp only [List.cons.injEq, and_true] at h
    obtain ⟨rfl, rfl, rfl, rfl, rfl, rfl, rfl⟩ := h
    rw [top_val] at hr hm' hu
    cases UInt64.toNat_inj.1 hr
    cases UInt64.toNat_inj.1 hm'
    cases UInt64.toNat_inj.1 hu
    rw [at_val ha, top_val, top_val, top_val] at hi
    exact hi
  · intro hi
    refine ⟨rfl, rfl, encAddr acc, encTop fees, encTop rounds.toNat, encTop min.toNat, encTop maxSel, encTop maxAddr,
      encTop unbond.toNat, rounds, min, unbond, rfl, at_len acc, top_val _, top_val _, by rw [top_val]; exact hm, top_val _, ?_⟩
    rw [at_val ha, top_val, top_val, top_val]
    exact hi

private theorem ask_some {s : Stored} {c : Addr} {m : Method} {out : List Bytes} (h : view s (request c 0 [] true m) = some out) :
    ask s c m = m.read out := by
  unfold ask; rw [h]

private theorem ask_none {s : Stored} {c : Addr} {m : Method} (h : view s (request c 0 [] true m) = none) : ask s c m = none := by
  unfold ask; rw [h]

private theorem one_eq (d : Bytes → Option Reading) (b : Bytes) : one d [b] = d b := rfl

private theorem acc_reads (out : List Bytes) :
    Method.read .accumulatorContract out = one (fun b => (readAddr b).map .addr) out := rfl

private theorem mig_reads (out : List Bytes) :
    Method.read .migrationScAddress out = one (fun b => (readAddr b).map .addr) out := rfl

private theorem info_reads (a : Addr) (b : Bytes) :
    Method.read (.delegationContractData a) [b] = (decAll decInfo b).map Reading.info := rfl

private theorem scoring_reads (b : Bytes) : Method.read .scoringConfig [b] = (decScoring b).map Reading.scoring := rfl

private theorem nat_read (n : Nat) : one (fun b => some (.nat (beVal b))) [encTop n] = some (.nat n) := by
  show some (Reading.nat (beVal (encTop n))) = _
  rw [top_val]

private theorem u64_read (x : UInt64) :
    one (fun b => if beVal b < 2 ^ 64 then some (.u64 (beVal b).toUInt64) else none) [encTop x.toNat] = some (.u64 x) := by
  show (if beVal (encTop x.toNat) < 2 ^ 64 then some (Reading.u64 (beVal (encTop x.toNat)).toUInt64) else none) = _
  rw [top_val, if_pos x.toNat_lt]
  simp

private theorem usize_read {n : Nat} (h : n < 2 ^ 32) :
    one (fun b => if beVal b < 2 ^ 32 then some (.nat (beVal b)) else none) [encTop n] = some (.nat n) := by
  show (if beVal (encTop n) < 2 ^ 32 then some (Reading.nat (beVal (encTop n))) else none) = _
  rw [top_val, if_pos h]

private theorem readAddr_enc {a : Addr} (h : a < 2 ^ 256) : readAddr (encAddr a) = some a := by
  unfold readAddr
  rw [if_pos (at_len a), at_val h]

private theorem addr_read {a : Addr} (h : a < 2 ^ 256) : one (fun b => (readAddr b).map .addr) [encAddr a] = some (.addr a) := by
  rw [one_eq]
  simp only [readAddr_enc h, Option.map_some]

private theorem addrs_read {l : List Addr} (h : ∀ a ∈ l, a < 2 ^ 256) : allSome ((l.map encAddr).map readAddr) = some l := by
  induction l with
  | nil => rfl
  | cons a l ih =>
    rw [List.map_cons, List.map_cons, readAddr_enc (h a List.mem_cons_self)]
    show (allSome ((l.map encAddr).map readAddr)).map (a :: ·) = _
    rw [ih fun x hx => h x (List.mem_cons_of_mem _ hx)]; rfl

/-- **C100**, what holds of the answers: apart from the record of a provider (and the token identifiers, which are not covered) the
client reads from every view exactly what the contract keeps, and nothing where nothing is kept. -/
theorem C100_answers_partial {s : Stored} {st : Store} (hk : Keeps s st) (hf : Sizes st) (c : Addr) {m : Method} (hr : Readable m)
    (ht : Typed m) : ask s c m = reading st m := by
  have sh : ∀ {m : Method} {n : String} {out : List Bytes}, request c 0 [] true m = ⟨c, ascii n.toList, m.args, 0, [], true⟩ →
      Shows st n m.args out → ask s c m = m.read out := by
    intro m n out hq hs
    refine ask_some ?_
    rw [hq]
    exact shown hk hf rfl rfl rfl hs
  cases m with
  | delegationAddressesList =>
    rw [sh (m := .delegationAddressesList) (n := "getDelegationAddressesList") rfl .deleg]
    show (allSome _).map Reading.addrs = _
    rw [addrs_read fun a ha => hf.2.2.2 a (.inl ha)]; rfl
  | unDelegationAddressesList =>
    rw [sh (m := .unDelegationAddressesList) (n := "getUnDelegationAddressesList") rfl .undeleg]
    show (allSome _).map Reading.addrs = _
    rw [addrs_read fun a ha => hf.2.2.2 a (.inr (.inl ha))]; rfl
  | managers =>
    rw [sh (m := .managers) (n := "getManagers") rfl .managers]
    show (allSome _).map Reading.addrs = _
    rw [addrs_read fun a ha => hf.2.2.2 a (.inr (.inr ha))]; rfl
  | fees => exact (sh (m := .fees) (n := "fees") rfl .feeRate).trans (nat_read _)
  | accumulatorContract => exact (sh (m := .accumulatorContract) (n := "getAccumulatorContract") rfl .accumulator).trans ((acc_reads _).trans (addr_read hf.1.1))
  | roundsPerEpoch => exact (sh (m := .roundsPerEpoch) (n := "roundsPerEpoch") rfl .rounds).trans (u64_read _)
  | minimumRounds => exact (sh (m := .minimumRounds) (n := "minimumRounds") rfl .minimumRounds).trans (u64_read _)
  | lsTokenSupply => exact (sh (m := .lsTokenSupply) (n := "getLsSupply") rfl .supply).trans (nat_read _)
  | virtualEgldReserve => exact (sh (m := .virtualEgldReserve) (n := "getVirtualEgldReserve") rfl .reserve).trans (nat_read _)
  | totalWithdrawnEgld => exact (sh (m := .totalWithdrawnEgld) (n := "getTotalWithdrawnEgld") rfl .withdrawn).trans (nat_read _)
  | pendingEgld => exact (sh (m := .pendingEgld) (n := "getPendingEGLDForDelegate") rfl .pending).trans (nat_read _)
  | pendingEgldForUnstake => exact (sh (m := .pendingEgldForUnstake) (n := "getPendingEGLDForUnDelegate") rfl .toUnstake).trans (nat_read _)
  | pendingEgldForUnbond => exact (sh (m := .pendingEgldForUnbond) (n := "getPendingEgldForUnbond") rfl .toUnbond).trans (nat_read _)
  | maxDelegationAddresses => exact (sh (m := .maxDelegationAddresses) (n := "maxDelegationAddresses") rfl .maxAddresses).trans (usize_read hf.2.1)
  | maxSelectedProviders => exact (sh (m := .maxSelectedProviders) (n := "maxSelectedProviders") rfl .maxSelected).trans (nat_read _)
  | unbondPeriod => exact (sh (m := .unbondPeriod) (n := "unbondPeriod") rfl .unbondPeriod).trans (u64_read _)
  | exchangeRate => exact (sh (m := .exchangeRate) (n := "getExchangeRate") rfl (shows_rate st)).trans (nat_read _)
  | state =>
    cases hst : st.state with
    | active =>
      rw [sh (m := .state) (n := "getState") rfl (.active hst)]
      show _ = some (Reading.state st.state)
      rw [hst]; decide +kernel
    | inactive =>
      rw [sh (m := .state) (n := "getState") rfl (.inactive hst)]
      show _ = some (Reading.state st.state)
      rw [hst]; decide +kernel
  | unstakeTokenNonce x =>
    rw [sh (m := .unstakeTokenNonce x) (n := "getUnstakeTokenNonce") rfl (.nonce _ x (top_val _))]
    have h := u64_read (st.unstakeNonce.get 0 x).toUInt64
    have e : (st.unstakeNonce.get 0 x).toUInt64.toNat = st.unstakeNonce.get 0 x := by
      rw [Nat.toUInt64, UInt64.toNat_ofNat']; exact Nat.mod_eq_of_lt (hf.2.2.1 x)
    rw [e] at h
    exact h
  | scoringConfig =>
    cases hc : st.scoring with
    | some x =>
      rw [sh (m := .scoringConfig) (n := "getScoringConfig") rfl (.scoring x hc)]
      show _ = st.scoring.map Reading.scoring
      rw [scoring_reads, (C83_scoring x).1, hc]
    | none =>
      show _ = st.scoring.map Reading.scoring
      rw [hc]
      refine ask_none ?_
      rw [view_of .getScoringConfig (reads_request (m := .scoringConfig) (fun h => h) rfl) rfl]
      refine (scoring_top hk).trans ?_
      rw [hc]; rfl
  | migrationScAddress =>
    cases hc : st.migrationSc with
    | some x =>
      rw [sh (m := .migrationScAddress) (n := "getMigrationScAddress") rfl (.migrationSc x hc)]
      show _ = st.migrationSc.map Reading.addr
      rw [hc, mig_reads]
      exact addr_read (hf.1.2.1 x hc)
    | none =>
      show _ = st.migrationSc.map Reading.addr
      rw [hc]
      refine ask_none ?_
      rw [view_of .getMigrationScAddress (reads_request (m := .migrationScAddress) (fun h => h) rfl) rfl]
      refine (migration_top hk hf).trans ?_
      rw [hc]; rfl
  | stakedAmount a =>
    have ha : beVal (encAddr a) = a := at_val ht
    cases hd : st.data.get none a with
    | some d =>
      rw [sh (m := .stakedAmount a) (n := "getDelegationContractStakedAmount") rfl (.staked _ d (at_len a) (by rw [ha]; exact hd))]
      show _ = (st.data.get none a).map fun d => Reading.nat d.staked
      rw [hd]
      exact nat_read _
    | none =>
      show _ = (st.data.get none a).map fun d => Reading.nat d.staked
      rw [hd]
      refine ask_none ?_
      rw [view_of .getDelegationContractStakedAmount (reads_request (m := .stakedAmount a) (fun h => h) rfl) rfl]
      refine (record_top hk hf (at_len a) _).trans ?_
      rw [ha, hd]; rfl
  | unstakedAmount a =>
    have ha : beVal (encAddr a) = a := at_val ht
    cases hd : st.data.get none a with
    | some d =>
      rw [sh (m := .unstakedAmount a) (n := "getDelegationContractUnstakedAmount") rfl (.unstaked _ d (at_len a) (by rw [ha]; exact hd))]
      show _ = (st.data.get none a).map fun d => Reading.nat d.unstaked
      rw [hd]
      exact nat_read _
    | none =>
      show _ = (st.data.get none a).map fun d => Reading.nat d.unstaked
      rw [hd]
      refine ask_none ?_
      rw [view_of .getDelegationContractUnstakedAmount (reads_request (m := .unstakedAmount a) (fun h => h) rfl) rfl]
      refine (record_top hk hf (at_len a) _).trans ?_
      rw [ha, hd]; rfl
  | _ => exact absurd hr fun h => h

/-- The client's record ends before the contract's does. -/
private theorem info_long {d : ProviderData} (h : Storable d) : decAll decInfo (encProvider d) = none := by
  obtain ⟨h1, h2, h3, h4, h5, h6, h7⟩ := h
  unfold decAll decInfo encProvider
  simp only [decAddr_append h1, decBig_append h2, decBig_append h3, decU64_append, decBig_append h4, decBig_append h5,
    decBool_append, Option.bind_eq_bind, Option.bind_some]
  cases hx : encBig d.pStake ++ encBig d.pUnstake with
  | nil =>
    have := congrArg List.length hx
    unfold encBig at this
    simp only [List.length_append, beFixed_length, List.length_nil] at this
    omega
  | cons _ _ => rfl

/-- **C100**, the record: whatever is kept about a provider, the contract answers and the client cannot read it, because the client
expects a record without the two amounts in flight. -/
theorem C100_record {s : Stored} {st : Store} (hk : Keeps s st) (hf : Sizes st) (c : Addr) {a : Addr} {d : ProviderData}
    (hd : st.data.get none a = some d) :
    view s (request c 0 [] true (.delegationContractData a)) = some [encProvider d] ∧ ask s c (.delegationContractData a) = none := by
  have hb := hf.1.2.2 a d hd
  have hv : view s (request c 0 [] true (.delegationContractData a)) = some [encProvider d] :=
    shown (c := ⟨c, ascii "getDelegationContractInfo".toList, [encAddr a], 0, [], true⟩) hk hf rfl rfl rfl
      (.info _ d (at_len a) (by rw [at_val hb.1]; exact hd))
  refine ⟨hv, (ask_some hv).trans ?_⟩
  rw [info_reads, info_long hb.2]; rfl

/-- **C100**, two methods: in every state `delegate_rewards` and `rewards_reserve` are refused, because there are no such endpoints. -/
theorem C100_stale {m : Method} (h : Stale m) (w : World) (c : Addr) (v : Nat) (ps : List Payment) (k : Bool) :
    call w (request c v ps k m) = .error (.refused .noFunction) := by
  have hn : ∀ c : Call, c.fn = ascii "delegateRewards".toList ∨ c.fn = ascii "getRewardsReserve".toList →
      parse c = .error .noFunction := by
    intro c hc
    unfold parse
    have : (Fn.all.find? fun f => f.name = c.fn) = none := by
      rcases hc with hc | hc <;> rw [hc] <;> decide +kernel
    rw [this]
  have hp : parse (request c v ps k m) = .error .noFunction := by
    cases m with
    | delegateRewards => exact hn _ (.inl rfl)
    | rewardsReserve => exact hn _ (.inr rfl)
    | _ => exact absurd h fun h => h
  unfold call
  rw [hp]

private def endpoints : List String :=
  ["delegate", "unDelegate", "withdraw", "getLsValueForPosition", "getEgldPositionValue", "getExchangeRate",
   "getDelegationContractStakedAmount", "getDelegationContractUnstakedAmount", "registerLsToken", "registerUnstakeToken",
   "setStateActive", "setStateInactive", "setAccumulatorContract", "setFees", "setMinimumRounds", "setMaxAddresses",
   "setMaxSelectedProviders", "setUnbondPeriod", "addManagers", "removeManager", "setScoringConfig", "delegatePending",
   "unDelegatePending", "withdrawPending", "claimRewards", "delegateRewards", "getDelegationAddressesList",
   "getUnDelegationAddressesList", "getDelegationContractInfo", "getManagers", "getScoringConfig", "fees",
   "getAccumulatorContract", "roundsPerEpoch", "minimumRounds", "getState", "getLsTokenId", "getLsSupply",
   "getVirtualEgldReserve", "getRewardsReserve", "getTotalWithdrawnEgld", "getUnstakeTokenId", "getPendingEGLDForDelegate",
   "getPendingEGLDForUnDelegate", "getPendingEgldForUnbond", "getUnstakeTokenNonce", "maxDelegationAddresses",
   "maxSelectedProviders", "unbondPeriod", "migrate", "migratePending", "addRewards", "setMigrationScAddress",
   "getMigrationScAddress", "whitelistDelegationContract", "changeDelegationContractAdmin", "changeDelegationContractParams"]

private theorem endpoint_name (m : Method) : ∃ n ∈ endpoints, m.endpoint = ascii n.toList := by
  cases m with
  | delegate => exact ⟨"delegate", by decide, rfl⟩
  | unDelegate => exact ⟨"unDelegate", by decide, rfl⟩
  | withdraw => exact ⟨"withdraw", by decide, rfl⟩
  | lsValueForPosition => exact ⟨"getLsValueForPosition", by decide, rfl⟩
  | egldPositionValue => exact ⟨"getEgldPositionValue", by decide, rfl⟩
  | exchangeRate => exact ⟨"getExchangeRate", by decide, rfl⟩
  | stakedAmount => exact ⟨"getDelegationContractStakedAmount", by decide, rfl⟩
  | unstakedAmount => exact ⟨"getDelegationContractUnstakedAmount", by decide, rfl⟩
  | registerLsToken => exact ⟨"registerLsToken", by decide, rfl⟩
  | registerUnstakeToken => exact ⟨"registerUnstakeToken", by decide, rfl⟩
  | setStateActive => exact ⟨"setStateActive", by decide, rfl⟩
  | setStateInactive => exact ⟨"setStateInactive", by decide, rfl⟩
  | setAccumulatorContract => exact ⟨"setAccumulatorContract", by decide, rfl⟩
  | setFees => exact ⟨"setFees", by decide, rfl⟩
  | setMinimumRounds => exact ⟨"setMinimumRounds", by decide, rfl⟩
  | setMaxAddresses => exact ⟨"setMaxAddresses", by decide, rfl⟩
  | setMaxSelectedProviders => exact ⟨"setMaxSelectedProviders", by decide, rfl⟩
  | setUnbondPeriod => exact ⟨"setUnbondPeriod", by decide, rfl⟩
  | setManagers => exact ⟨"addManagers", by decide, rfl⟩
  | removeManager => exact ⟨"removeManager", by decide, rfl⟩
  | setScoringConfig => exact ⟨"setScoringConfig", by decide, rfl⟩
  | delegatePending => exact ⟨"delegatePending", by decide, rfl⟩
  | unDelegatePending => exact ⟨"unDelegatePending", by decide, rfl⟩
  | withdrawPending => exact ⟨"withdrawPending", by decide, rfl⟩
  | claimRewards => exact ⟨"claimRewards", by decide, rfl⟩
  | delegateRewards => exact ⟨"delegateRewards", by decide, rfl⟩
  | delegationAddressesList => exact ⟨"getDelegationAddressesList", by decide, rfl⟩
  | unDelegationAddressesList => exact ⟨"getUnDelegationAddressesList", by decide, rfl⟩
  | delegationContractData => exact ⟨"getDelegationContractInfo", by decide, rfl⟩
  | managers => exact ⟨"getManagers", by decide, rfl⟩
  | scoringConfig => exact ⟨"getScoringConfig", by decide, rfl⟩
  | fees => exact ⟨"fees", by decide, rfl⟩
  | accumulatorContract => exact ⟨"getAccumulatorContract", by decide, rfl⟩
  | roundsPerEpoch => exact ⟨"roundsPerEpoch", by decide, rfl⟩
  | minimumRounds => exact ⟨"minimumRounds", by decide, rfl⟩
  | state => exact ⟨"getState", by decide, rfl⟩
  | lsToken => exact ⟨"getLsTokenId", by decide, rfl⟩
  | lsTokenSupply => exact ⟨"getLsSupply", by decide, rfl⟩
  | virtualEgldReserve => exact ⟨"getVirtualEgldReserve", by decide, rfl⟩
  | rewardsReserve => exact ⟨"getRewardsReserve", by decide, rfl⟩
  | totalWithdrawnEgld => exact ⟨"getTotalWithdrawnEgld", by decide, rfl⟩
  | unstakeToken => exact ⟨"getUnstakeTokenId", by decide, rfl⟩
  | pendingEgld => exact ⟨"getPendingEGLDForDelegate", by decide, rfl⟩
  | pendingEgldForUnstake => exact ⟨"getPendingEGLDForUnDelegate", by decide, rfl⟩
  | pendingEgldForUnbond => exact ⟨"getPendingEgldForUnbond", by decide, rfl⟩
  | unstakeTokenNonce => exact ⟨"getUnstakeTokenNonce", by decide, rfl⟩
  | maxDelegationAddresses => exact ⟨"maxDelegationAddresses", by decide, rfl⟩
  | maxSelectedProviders => exact ⟨"maxSelectedProviders", by decide, rfl⟩
  | unbondPeriod => exact ⟨"unbondPeriod", by decide, rfl⟩
  | migrate => exact ⟨"migrate", by decide, rfl⟩
  | migratePending => exact ⟨"migratePending", by decide, rfl⟩
  | addRewards => exact ⟨"addRewards", by decide, rfl⟩
  | addMigrationScAddress => exact ⟨"setMigrationScAddress", by decide, rfl⟩
  | migrationScAddress => exact ⟨"getMigrationScAddress", by decide, rfl⟩
  | whitelistDelegationContract => exact ⟨"whitelistDelegationContract", by decide, rfl⟩
  | changeDelegationContractAdmin => exact ⟨"changeDelegationContractAdmin", by decide, rfl⟩
  | changeDelegationContractParams => exact ⟨"changeDelegationContractParams", by decide, rfl⟩

/-- **C100**, two endpoints: the client has no method for `claimFees` and `getFeesReserve`, and one for each of the other 55. -/
theorem C100_missing {n : String} (h : n ∈ exported) :
    (∃ m : Method, m.endpoint = ascii n.toList) ↔ n ≠ "claimFees" ∧ n ≠ "getFeesReserve" := by
  constructor
  · rintro ⟨m, hm⟩
    have : m.endpoint ≠ ascii "claimFees".toList ∧ m.endpoint ≠ ascii "getFeesReserve".toList := by
      have h := endpoint_name m
      have hall : endpoints.all (fun n => decide (ascii n.toList ≠ ascii "claimFees".toList ∧
        ascii n.toList ≠ ascii "getFeesReserve".toList)) = true := by decide +kernel
      obtain ⟨n, hn, he⟩ := h
      rw [he]
      exact of_decide_eq_true (List.all_eq_true.1 hall n hn)
    exact ⟨fun e => this.1 (by rw [hm, e]), fun e => this.2 (by rw [hm, e])⟩
  · rintro ⟨h1, h2⟩
    simp only [exported, List.mem_cons, List.not_mem_nil, or_false] at h
    rcases h with rfl | rfl | rfl | rfl | rfl | rfl | rfl | rfl | rfl | rfl | rfl | rfl | rfl | rfl | rfl | rfl | rfl | rfl | rfl | rfl | rfl | rfl | rfl | rfl | rfl | rfl | rfl | rfl | rfl | rfl | rfl | rfl | rfl | rfl | rfl | rfl | rfl | rfl | rfl | rfl | rfl | rfl | rfl | rfl | rfl | rfl | rfl | rfl | rfl | rfl | rfl | rfl | rfl | rfl | rfl | rfl | rfl
    · exact ⟨.delegate, rfl⟩
    · exact ⟨.unDelegate, rfl⟩
    · exact ⟨.withdraw, rfl⟩
    · exact ⟨.lsValueForPosition 0, rfl⟩
    · exact ⟨.egldPositionValue 0, rfl⟩
    · exact ⟨.exchangeRate, rfl⟩
    · exact ⟨.stakedAmount 0, rfl⟩
    · exact ⟨.unstakedAmount 0, rfl⟩
    · exact ⟨.registerLsToken [] [] 0, rfl⟩
    · exact ⟨.registerUnstakeToken [] [] 0, rfl⟩
    · exact ⟨.setStateActive, rfl⟩
    · exact ⟨.setStateInactive, rfl⟩
    · exact ⟨.setAccumulatorContract 0, rfl⟩
    · exact ⟨.setFees 0, rfl⟩
    · exact ⟨.setMinimumRounds 0, rfl⟩
    · exact ⟨.setMaxAddresses 0, rfl⟩
    · exact ⟨.setMaxSelectedProviders 0, rfl⟩
    · exact ⟨.setUnbondPeriod 0, rfl⟩
    · exact ⟨.setManagers [], rfl⟩
    · exact ⟨.removeManager 0, rfl⟩
    · exact ⟨.setScoringConfig ⟨0, 0, 0, 0, 0, 0, 0, 0, 0, 0⟩, rfl⟩
    · exact ⟨.delegatePending none, rfl⟩
    · exact ⟨.unDelegatePending none, rfl⟩
    · exact ⟨.withdrawPending 0, rfl⟩
    · exact ⟨.claimRewards, rfl⟩
    · exact absurd rfl h1
    · exact ⟨.delegationAddressesList, rfl⟩
    · exact ⟨.unDelegationAddressesList, rfl⟩
    · exact ⟨.delegationContractData 0, rfl⟩
    · exact ⟨.managers, rfl⟩
    · exact ⟨.scoringConfig, rfl⟩
    · exact ⟨.fees, rfl⟩
    · exact ⟨.accumulatorContract, rfl⟩
    · exact ⟨.roundsPerEpoch, rfl⟩
    · exact ⟨.minimumRounds, rfl⟩
    · exact ⟨.state, rfl⟩
    · exact ⟨.lsToken, rfl⟩
    · exact ⟨.lsTokenSupply, rfl⟩
    · exact ⟨.virtualEgldReserve, rfl⟩
    · exact absurd rfl h2
    · exact ⟨.totalWithdrawnEgld, rfl⟩
    · exact ⟨.unstakeToken, rfl⟩
    · exact ⟨.pendingEgld, rfl⟩
    · exact ⟨.pendingEgldForUnstake, rfl⟩
    · exact ⟨.pendingEgldForUnbond, rfl⟩
    · exact ⟨.unstakeTokenNonce 0, rfl⟩
    · exact ⟨.maxDelegationAddresses, rfl⟩
    · exact ⟨.maxSelectedProviders, rfl⟩
    · exact ⟨.unbondPeriod, rfl⟩
    · exact ⟨.migrate 0 0, rfl⟩
    · exact ⟨.migratePending, rfl⟩
    · exact ⟨.addRewards, rfl⟩
    · exact ⟨.addMigrationScAddress 0, rfl⟩
    · exact ⟨.migrationScAddress, rfl⟩
    · exact ⟨.whitelistDelegationContract 0 0 0 0 0 0, rfl⟩
    · exact ⟨.changeDelegationContractAdmin 0 0, rfl⟩
    · exact ⟨.changeDelegationContractParams 0 0 0 0 0 true, rfl⟩

/-- **C100** is false of the published client in each of its three parts. -/
theorem C100_false : (¬ ∀ n ∈ exported, ∃ m : Method, m.endpoint = ascii n.toList) ∧
    (¬ ∀ (c : Addr) (v : Nat) (ps : List Payment) (k : Bool) (m : Method), Typed m → Pays ps m →
      parse (request c v ps k m) = .ok (wanted c v ps m)) ∧
    (¬ ∀ (s : Stored) (st : Store) (c a : Addr) (d : ProviderData), Keeps s st → Sizes st → st.data.get none a = some d →
      ∃ i, ask s c (.delegationContractData a) = some (.info i)) ∧ ¬ ClientFits := by
  have h1 : ¬ ∀ n ∈ exported, ∃ m : Method, m.endpoint = ascii n.toList := fun h =>
    ((C100_missing (n := "claimFees") (by decide)).1 (h _ (by decide))).1 rfl
  refine ⟨h1, fun h => ?_, fun h => ?_, fun h => h1 h.1⟩
  · have e := h 1 0 [] true .delegateRewards trivial rfl
    have hc := C100_stale (m := .delegateRewards) trivial fresh 1 0 [] true
    unfold call at hc
    rw [e] at hc
    cases hc
  · obtain ⟨s, hk⟩ := C99_kept (st := redeemed.st) (by decide +kernel) (by decide +kernel) (by decide +kernel) (by decide +kernel)
      (by decide +kernel) (by decide +kernel)
    have hf : Sizes redeemed.st := sizes_small (by decide +kernel)
    cases hd : redeemed.st.data.get none 21 with
    | none => exact absurd hd (by decide +kernel)
    | some d =>
      obtain ⟨i, hi⟩ := h s _ 7 21 d hk hf hd
      rw [(C100_record hk hf 7 hd).2] at hi
      cases hi

private theorem one_count {d : Bytes → Option Reading} {out : List Bytes} {r : Reading} (h : one d out = some r) : out.length = 1 := by
  match out with
  | [] => cases h
  | [_] => rfl
  | _ :: _ :: _ => cases h

private theorem allSome_length {α : Type} : ∀ {l : List (Option α)} {k : List α}, allSome l = some k → k.length = l.length
  | [], _, h => by cases h; rfl
  | none :: _, _, h => by cases h
  | some a :: l, k, h => by
    have h' : (allSome l).map (a :: ·) = some k := h
    obtain ⟨k', hk, rfl⟩ := Option.map_eq_some_iff.1 h'
    rw [List.length_cons, List.length_cons, allSome_length hk]

/-- **C100.** The client never drops a result: what it reads is one value from one result, or as many addresses as there are results. -/
theorem C100_count {m : Method} {out : List Bytes} {r : Reading} (h : m.read out = some r) :
    out.length = 1 ∨ ∃ l, r = .addrs l ∧ l.length = out.length := by
  cases m <;> first
    | exact .inl (one_count h)
    | (cases h; done)
    | (obtain ⟨l, hl, rfl⟩ := Option.map_eq_some_iff.1 h
       exact .inr ⟨l, rfl, (allSome_length hl).trans (List.length_map ..)⟩)

example : Method.fees.read [[5]] = some (.nat 5) ∧ Method.fees.read [[5], [6]] = none ∧ Method.managers.read [] = some (.addrs []) :=
  ⟨rfl, rfl, rfl⟩

/-- Through the client: a deposit, a batch of a chosen amount, the list of providers and what one of them holds. -/
example : parse (request 11 (E 2) [] true .delegate) = .ok (some (.delegate 11 (E 2))) ∧
    parse (request 11 (E 2) [] true (.delegatePending (some 7))) = .ok (some (.delegatePending 11 (some 7))) ∧
    ∃ s, Keeps s redeemed.st ∧ ask s 7 .delegationAddressesList = some (.addrs [21, 22]) ∧
      ask s 7 (.stakedAmount 21) = some (.nat 38672954215174376577) ∧ ask s 7 (.stakedAmount 23) = none := by
  refine ⟨C100_requests_partial 11 (E 2) [] true (m := .delegate) (fun h => h) trivial rfl,
    C100_requests_partial 11 (E 2) [] true (m := .delegatePending (some 7)) (fun h => h) trivial rfl, ?_⟩
  obtain ⟨s, hk⟩ := C99_kept (st := redeemed.st) (by decide +kernel) (by decide +kernel) (by decide +kernel) (by decide +kernel)
    (by decide +kernel) (by decide +kernel)
  have hf : Sizes redeemed.st := sizes_small (by decide +kernel)
  refine ⟨s, hk, ?_, ?_, ?_⟩
  · exact (C100_answers_partial hk hf 7 (m := .delegationAddressesList) trivial trivial).trans (by decide +kernel)
  · exact (C100_answers_partial hk hf 7 (m := .stakedAmount 21) trivial (show (21 : Nat) < 2 ^ 256 by decide)).trans (by decide +kernel)
  · exact (C100_answers_partial hk hf 7 (m := .stakedAmount 23) trivial (show (23 : Nat) < 2 ^ 256 by decide)).trans (by decide +kernel)

end LS
