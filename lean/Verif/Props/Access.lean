import Verif.Props.Callbacks
import Verif.Proofs.AccessLemmas

/-! Access control, configuration, provider registry: C25, C26, C27, C30, C31, C34, C43. -/

namespace LS
open Spec Demo

/-- The address that sends a transaction, where it matters. -/
def callerOf : Op → Option Addr
  | .delegate c _ | .unDelegate c _ _ | .withdraw c _ _ | .delegatePending c _ | .unDelegatePending c _ | .withdrawPending c _
  | .claimRewards c | .claimFees c _ | .whitelist c _ _ _ _ _ _ _ | .changeAdmin c _ _ | .changeParams c _ _ _ _ _ _
  | .migrate c _ _ | .migratePending c _ | .addRewards c _ | .setMigrationSc c _ | .registerLsToken c _
  | .registerUnstakeToken c _ | .owner c _ | .setScoringConfig c _ | .changeOwner c _ => some c
  | _ => none

/-- The owner or a manager. -/
def IsManagerOf (w : World) (c : Addr) : Prop := c ∈ w.st.managers ∨ c = w.owner

theorem isManager_iff {w : World} {c : Addr} : isManager w c = true ↔ IsManagerOf w c := by
  unfold isManager IsManagerOf
  rw [Bool.or_eq_true, List.contains_iff_mem, beq_iff_eq]

/-- Who may send a transaction. -/
def Authorized (w : World) : Op → Prop
  | .delegatePending c _ | .unDelegatePending c _ | .withdrawPending c _ | .claimRewards c | .whitelist c _ _ _ _ _ _ _
  | .changeAdmin c _ _ | .setScoringConfig c _ => IsManagerOf w c
  | .owner c _ | .setMigrationSc c _ | .registerLsToken c _ | .registerUnstakeToken c _ | .changeOwner c _ => c = w.owner
  | .changeParams c p _ _ _ _ _ => IsManagerOf w c ∨ ∃ d, provider w p = some d ∧ d.admin = c
  | .migrate c _ _ | .migratePending c _ => w.st.migrationSc = some c
  | _ => True

/-- **C25**, who may call what. -/
theorem C25_privileged_calls {w w' : World} {op : Op} (h : step w op = .ok w') : Authorized w op := by
  cases op with
  | delegatePending c o => obtain ⟨_, _, hm, _⟩ := delegatePending_ok h; exact isManager_iff.1 hm
  | unDelegatePending c o => obtain ⟨_, _, hm, _⟩ := unDelegatePending_ok h; exact isManager_iff.1 hm
  | withdrawPending c q => obtain ⟨_, _, hm, _⟩ := withdrawPending_ok h; exact isManager_iff.1 hm
  | claimRewards c => obtain ⟨_, _, hm, _⟩ := claimRewards_ok h; exact isManager_iff.1 hm
  | whitelist c v q ad ts cap n apy => obtain ⟨_, hm, _⟩ := whitelist_ok h; exact isManager_iff.1 hm
  | changeAdmin c q a => obtain ⟨_, hm, _⟩ := changeAdmin_ok.1 h; exact isManager_iff.1 hm
  | changeParams c q ts cap n apy e =>
    obtain ⟨_, _, d, hd, hm, _⟩ := changeParams_ok.1 h
    rcases hm with hm | hm
    · exact .inr ⟨d, hd, hm⟩
    · exact .inl (isManager_iff.1 hm)
  | migrate c v o => obtain ⟨_, hm, _⟩ := migrate_ok.1 h; exact hm
  | migratePending c v => obtain ⟨_, hm, _⟩ := migratePending_ok.1 h; exact hm
  | setMigrationSc c a => obtain ⟨_, hm, _⟩ := setMigrationSc_ok.1 h; exact hm
  | registerLsToken c v => obtain ⟨_, hm, _⟩ := registerLsToken_ok.1 h; exact hm
  | registerUnstakeToken c v => obtain ⟨_, hm, _⟩ := registerUnstakeToken_ok.1 h; exact hm
  | owner c cmd => obtain ⟨_, hm, _⟩ := ownerCmd_ok.1 h; exact hm
  | changeOwner c d => obtain ⟨_, hm, _⟩ := changeOwner_ok.1 h; exact hm
  | setScoringConfig c cfg => obtain ⟨_, hm, _⟩ := setScoringConfig_ok.1 h; exact isManager_iff.1 hm
  | _ => trivial

/-- Somebody without any role. -/
def Outsider (w : World) (c : Addr) : Prop :=
  ¬ IsManagerOf w c ∧ w.st.migrationSc ≠ some c ∧ ∀ p d, provider w p = some d → d.admin ≠ c

/-- The calls open to everybody. -/
def OpenCall : Op → Prop
  | .delegate .. | .unDelegate .. | .withdraw .. | .addRewards .. | .claimFees .. => True
  | _ => False

/-- **C25**, the rest: somebody without any role changes storage only through the five open calls.  (Callbacks have no caller
of this kind; they are sent by the VM.) -/
theorem C25_outsiders {w w' : World} {op : Op} {c : Addr} (h : step w op = .ok w') (hc : callerOf op = some c)
    (ho : Outsider w c) : OpenCall op := by
  have ha := C25_privileged_calls h
  obtain ⟨h1, h2, h3⟩ := ho
  have h4 : c ≠ w.owner := fun h => h1 (.inr h)
  cases op <;> simp only [callerOf, Option.some.injEq, reduceCtorEq] at hc <;> subst hc
  case changeParams =>
    rcases ha with ha | ⟨d, hd, ha⟩
    · exact absurd ha h1
    · exact absurd ha (h3 _ d hd)
  all_goals first
    | exact trivial
    | exact absurd ha h1
    | exact absurd ha h4
    | exact absurd ha h2

/-- **C25**, calls without a caller (views, upgrades, transfers of others, time) change no storage; only the two kinds of
answers, callbacks and issued tokens, can. -/
theorem C25_neutral {w w' : World} {op : Op} (h : step w op = .ok w') (hc : callerOf op = none)
    (hd : ∀ i o, op ≠ .deliver i o) (hi : ∀ i o, op ≠ .issued i o) : w'.st = w.st := by
  cases op <;> simp only [callerOf, reduceCtorEq] at hc
  case upgrade => simp only [step, Except.ok.injEq] at h; subst h; rfl
  case viewLsValue =>
    simp only [step, bind_ok, Prod.exists, Except.ok.injEq] at h
    obtain ⟨e, w1, h1, rfl⟩ := h
    obtain ⟨_, _, rfl⟩ := viewLsValue_ok.1 h1
    rfl
  case viewEgldPosition =>
    simp only [step, bind_ok, Prod.exists, Except.ok.injEq] at h
    obtain ⟨e, w1, h1, rfl⟩ := h
    obtain ⟨_, _, rfl⟩ := viewEgldPosition_ok.1 h1
    rfl
  case deliver i o => exact absurd rfl (hd i o)
  case issued i o => exact absurd rfl (hi i o)
  case transferLs => obtain ⟨_, _, m, _, rfl⟩ := transferLs_ok.1 h; rfl
  case transferNft => obtain ⟨_, _, m, _, rfl⟩ := transferNft_ok.1 h; rfl
  case fund => obtain ⟨_, rfl⟩ := fund_ok.1 h; rfl
  case advance => obtain ⟨_, rfl⟩ := advance_ok.1 h; rfl
  case transferEgld => obtain ⟨_, _, m, _, rfl⟩ := transferEgld_ok.1 h; rfl
  case giveEgld => obtain ⟨_, _, m, _, rfl⟩ := giveEgld_ok.1 h; rfl
  case giveLs => obtain ⟨_, _, m, _, rfl⟩ := giveLs_ok.1 h; rfl
  case giveUnstake => obtain ⟨_, _, m, _, rfl⟩ := giveUnstake_ok.1 h; rfl
  case burnLs => obtain ⟨_, m, _, rfl⟩ := holderBurnLs_ok.1 h; rfl
  case burnUnstake => obtain ⟨_, m, _, rfl⟩ := holderBurnNft_ok.1 h; rfl
  case starve => obtain ⟨f, _, rfl⟩ := starve_ok h; rfl

/-- User 13 has no role in `settled`; provider admin 41 may change the parameters of 21 but not those of 22. -/
example : isManager settled 13 = false ∧ works settled (.delegate 13 (E 5)) = true ∧ works settled (.claimRewards 13) = false ∧
    works settled (.claimRewards 1) = true ∧ works settled (.changeParams 41 21 0 0 10 800 true) = true ∧
    works settled (.changeParams 41 22 0 0 10 800 true) = false :=
  ⟨by decide +kernel, by decide +kernel, by decide +kernel, by decide +kernel, by decide +kernel, by decide +kernel⟩

/-- The calls stopped by a pause. -/
def Pausable : Op → Prop
  | .delegate .. | .unDelegate .. | .withdraw .. | .delegatePending .. | .unDelegatePending .. | .withdrawPending ..
  | .claimRewards .. => True
  | _ => False

/-- **C26.** While the contract is inactive the pausable calls fail, whoever makes them. -/
theorem C26_paused {w : World} {op : Op} (hr : Reachable w) (hi : w.st.state = .inactive) (hp : Pausable op) :
    ¬ ∃ w', step w op = .ok w' := by
  have hr0 : RegOk w.st.lsToken w.st.unstakeToken w.st.delegList w.st.undelegList w.st.data w.flights w.dead :=
    reachable_regInv hr
  rintro ⟨w', h⟩
  have key : w.st.state = .active → False := fun ha => by rw [hi] at ha; cases ha
  cases op with
  | delegate c v => obtain ⟨_, _, ha, _⟩ := delegate_ok.1 h; exact key ha
  | unDelegate c v ps => obtain ⟨_, _, ha, _⟩ := unDelegate_ok h; exact key ha
  | withdraw c v ps => obtain ⟨_, _, ha, _⟩ := withdraw_ok hr0.tok h; exact key ha
  | delegatePending c o => obtain ⟨_, ha, _⟩ := delegatePending_ok h; exact key ha
  | unDelegatePending c o => obtain ⟨_, ha, _⟩ := unDelegatePending_ok h; exact key ha
  | withdrawPending c q => obtain ⟨_, ha, _⟩ := withdrawPending_ok h; exact key ha
  | claimRewards c => obtain ⟨_, ha, _⟩ := claimRewards_ok h; exact key ha
  | _ => exact hp

/-- Pausing works at any time, and the paused contract still answers the owner and callbacks. -/
example : works settled (.owner 1 .stateInactive) = true ∧ (exec settled (.owner 1 .stateInactive)).st.state = .inactive ∧
    works settled (.delegate 11 (E 5)) = true ∧ works (exec settled (.owner 1 .stateInactive)) (.owner 1 .stateActive) = true ∧
    works (exec staked (.owner 1 .stateInactive)) (.deliver 0 (.ok 0 0)) = true :=
  ⟨by decide +kernel, by decide +kernel, by decide +kernel, by decide +kernel, by decide +kernel⟩

/-- **C27.** Every configuration item stays the same unless the transaction is its setter, sent by the owner (the scoring
configuration: by a manager or the owner), and then it has the value given there. -/
theorem C27_configuration {w w' : World} {op : Op} (hr : Reachable w) (h : step w op = .ok w') :
    (w'.st.feeRate = w.st.feeRate ∨ op = .owner w.owner (.fees w'.st.feeRate)) ∧
    (w'.st.accumulator = w.st.accumulator ∨ op = .owner w.owner (.accumulator w'.st.accumulator)) ∧
    (w'.st.unbondPeriod = w.st.unbondPeriod ∨ op = .owner w.owner (.unbondPeriod w'.st.unbondPeriod)) ∧
    (w'.st.minimumRounds = w.st.minimumRounds ∨ op = .owner w.owner (.minimumRounds w'.st.minimumRounds)) ∧
    (w'.st.maxDelegationAddresses = w.st.maxDelegationAddresses ∨
      op = .owner w.owner (.maxAddresses w'.st.maxDelegationAddresses)) ∧
    (w'.st.maxSelectedProviders = w.st.maxSelectedProviders ∨ op = .owner w.owner (.maxSelected w'.st.maxSelectedProviders)) ∧
    (w'.st.state = w.st.state ∨ (w'.st.state = .active ∧ op = .owner w.owner .stateActive) ∨
      (w'.st.state = .inactive ∧ op = .owner w.owner .stateInactive)) ∧
    (w'.st.managers = w.st.managers ∨
      (∃ l, op = .owner w.owner (.addManagers l) ∧ ∀ a, a ∈ w'.st.managers ↔ a ∈ w.st.managers ∨ a ∈ l) ∨
      (∃ m, op = .owner w.owner (.removeManager m) ∧ ∀ a, a ∈ w'.st.managers ↔ a ∈ w.st.managers ∧ a ≠ m)) ∧
    (w'.st.migrationSc = w.st.migrationSc ∨ ∃ a, op = .setMigrationSc w.owner a ∧ w'.st.migrationSc = some a) ∧
    (w'.st.lsToken = w.st.lsToken ∨
      ∃ i u v id, op = .issued i (some id) ∧ w.issues[i]? = some ⟨.ls, u, v⟩ ∧ AskedByOwner w ⟨.ls, u, v⟩ ∧ w.st.lsToken = none ∧ w'.st.lsToken = some id) ∧
    (w'.st.unstakeToken = w.st.unstakeToken ∨
      ∃ i u v id, op = .issued i (some id) ∧ w.issues[i]? = some ⟨.unstake, u, v⟩ ∧ AskedByOwner w ⟨.unstake, u, v⟩ ∧ w.st.unstakeToken = none ∧
        w'.st.unstakeToken = some id) ∧
    (w'.st.scoring = w.st.scoring ∨ ∃ c cfg, op = .setScoringConfig c cfg ∧ IsManagerOf w c ∧ w'.st.scoring = some cfg) ∧
    w'.st.roundsPerEpoch = w.st.roundsPerEpoch ∧ (w'.owner = w.owner ∨ op = .changeOwner w.owner w'.owner) ∧ w'.self = w.self := by
  have hf := frame_step op (reachable_regInv hr) (reachable_issInv hr) h
  have hrest : (w'.st.migrationSc = w.st.migrationSc ∨ ∃ a, op = .setMigrationSc w.owner a ∧ w'.st.migrationSc = some a) ∧
    (w'.st.lsToken = w.st.lsToken ∨
      ∃ i u v id, op = .issued i (some id) ∧ w.issues[i]? = some ⟨.ls, u, v⟩ ∧ AskedByOwner w ⟨.ls, u, v⟩ ∧ w.st.lsToken = none ∧ w'.st.lsToken = some id) ∧
    (w'.st.unstakeToken = w.st.unstakeToken ∨
      ∃ i u v id, op = .issued i (some id) ∧ w.issues[i]? = some ⟨.unstake, u, v⟩ ∧ AskedByOwner w ⟨.unstake, u, v⟩ ∧ w.st.unstakeToken = none ∧
        w'.st.unstakeToken = some id) ∧
    (w'.st.scoring = w.st.scoring ∨ ∃ c cfg, op = .setScoringConfig c cfg ∧ IsManagerOf w c ∧ w'.st.scoring = some cfg) := by
    refine ⟨?_, ?_, ?_, ?_⟩
    · rcases hf.mig with h | ⟨a, h1, h2⟩
      · exact .inl h
      · exact .inr ⟨a, h1, by rw [h2]⟩
    · rcases hf.lsT with h | ⟨i, u, v, id, h1, h2, h3, h4⟩
      · exact .inl h
      · exact .inr ⟨i, u, v, id, h1, h2, reachable_asked hr (List.mem_of_getElem? h2), h3, by rw [h4]⟩
    · rcases hf.usT with h | ⟨i, u, v, id, h1, h2, h3, h4⟩
      · exact .inl h
      · exact .inr ⟨i, u, v, id, h1, h2, reachable_asked hr (List.mem_of_getElem? h2), h3, by rw [h4]⟩
    · rcases hf.scor with h | ⟨c, cfg, h1, h2, h3⟩
      · exact .inl h
      · exact .inr ⟨c, cfg, h1, isManager_iff.1 h2, by rw [h3]⟩
  obtain ⟨r1, r2, r3, r4⟩ := hrest
  rcases hf.cfg with hc | ⟨cmd, hop, hc⟩
  · have e1 : w'.st.feeRate = w.st.feeRate := congrArg Config.feeRate hc
    have e2 : w'.st.accumulator = w.st.accumulator := congrArg Config.accumulator hc
    have e3 : w'.st.unbondPeriod = w.st.unbondPeriod := congrArg Config.unbondPeriod hc
    have e4 : w'.st.minimumRounds = w.st.minimumRounds := congrArg Config.minimumRounds hc
    have e5 : w'.st.maxDelegationAddresses = w.st.maxDelegationAddresses := congrArg Config.maxDelegationAddresses hc
    have e6 : w'.st.maxSelectedProviders = w.st.maxSelectedProviders := congrArg Config.maxSelectedProviders hc
    have e7 : w'.st.state = w.st.state := congrArg Config.state hc
    have e8 : w'.st.managers = w.st.managers := congrArg Config.managers hc
    have e9 : w'.st.roundsPerEpoch = w.st.roundsPerEpoch := congrArg Config.roundsPerEpoch hc
    exact ⟨.inl e1, .inl e2, .inl e3, .inl e4, .inl e5, .inl e6, .inl e7, .inl e8, r1, r2, r3, r4, e9, hf.owner, hf.self⟩
  · have hmg := reachable_managers hr
    subst hop
    have ho := hf.owner
    have hs := hf.self
    clear hf h
    generalize w'.st = st' at *
    cases cmd <;> simp only [applyOwnerCmd, bind_ok, req_ok, exists_const, Except.ok.injEq] at hc
    case maxAddresses =>
      obtain ⟨_, rfl⟩ := hc
      exact ⟨.inl rfl, .inl rfl, .inl rfl, .inl rfl, .inr rfl, .inl rfl, .inl rfl, .inl rfl, r1, r2, r3, r4, rfl, ho, hs⟩
    case maxSelected =>
      obtain ⟨_, rfl⟩ := hc
      exact ⟨.inl rfl, .inl rfl, .inl rfl, .inl rfl, .inl rfl, .inr rfl, .inl rfl, .inl rfl, r1, r2, r3, r4, rfl, ho, hs⟩
    case stateActive =>
      subst hc
      exact ⟨.inl rfl, .inl rfl, .inl rfl, .inl rfl, .inl rfl, .inl rfl, .inr (.inl ⟨rfl, rfl⟩), .inl rfl, r1, r2, r3, r4, rfl, ho, hs⟩
    case stateInactive =>
      subst hc
      exact ⟨.inl rfl, .inl rfl, .inl rfl, .inl rfl, .inl rfl, .inl rfl, .inr (.inr ⟨rfl, rfl⟩), .inl rfl, r1, r2, r3, r4, rfl, ho, hs⟩
    case accumulator =>
      subst hc
      exact ⟨.inl rfl, .inr rfl, .inl rfl, .inl rfl, .inl rfl, .inl rfl, .inl rfl, .inl rfl, r1, r2, r3, r4, rfl, ho, hs⟩
    case fees =>
      subst hc
      exact ⟨.inr rfl, .inl rfl, .inl rfl, .inl rfl, .inl rfl, .inl rfl, .inl rfl, .inl rfl, r1, r2, r3, r4, rfl, ho, hs⟩
    case minimumRounds =>
      subst hc
      exact ⟨.inl rfl, .inl rfl, .inl rfl, .inr rfl, .inl rfl, .inl rfl, .inl rfl, .inl rfl, r1, r2, r3, r4, rfl, ho, hs⟩
    case unbondPeriod =>
      subst hc
      exact ⟨.inl rfl, .inl rfl, .inr rfl, .inl rfl, .inl rfl, .inl rfl, .inl rfl, .inl rfl, r1, r2, r3, r4, rfl, ho, hs⟩
    case addManagers l =>
      subst hc
      exact ⟨.inl rfl, .inl rfl, .inl rfl, .inl rfl, .inl rfl, .inl rfl, .inl rfl, .inr (.inl ⟨l, rfl, fun a => mem_foldInsert⟩),
        r1, r2, r3, r4, rfl, ho, hs⟩
    case removeManager m =>
      subst hc
      exact ⟨.inl rfl, .inl rfl, .inl rfl, .inl rfl, .inl rfl, .inl rfl, .inl rfl, .inr (.inr ⟨m, rfl, fun a => mem_swapRemove hmg⟩),
        r1, r2, r3, r4, rfl, ho, hs⟩

example : works settled (.owner 1 (.fees 700)) = true ∧ (exec settled (.owner 1 (.fees 700))).st.feeRate = 700 ∧
    works settled (.owner 11 (.fees 700)) = false ∧ (run settled [.owner 1 (.addManagers [11, 12, 13]), .owner 1 (.removeManager 11)]).st.managers = [13, 12] :=
  ⟨by decide +kernel, by decide +kernel, by decide +kernel, by decide +kernel⟩

/-- **C30 is false of the code**: the limit is compared with `<=`, so there is one provider more than the limit. -/
theorem C30_false : ∃ w, Reachable w ∧ w.st.maxDelegationAddresses < w.st.delegList.length :=
  ⟨run active [.owner 1 (.maxAddresses 1), .whitelist 1 (E 1) 21 41 0 0 10 800, .deliver 0 (.ok 0 0),
    .whitelist 1 (E 1) 22 42 0 0 10 800, .deliver 0 (.ok 0 0)], reachable_run active_reachable _, by decide +kernel⟩

/-- First delegations of new providers that have not been answered. -/
def underWay (w : World) : Nat := (w.flights.filter fun | .whitelist .. => true | _ => false).length

/-- A provider is whitelisted only while fewer than `k` whitelistings are under way, and the limit is not lowered. -/
def FewAtATime (k : Nat) (w : World) (op : Op) (w' : World) : Prop :=
  (∀ c v p ad ts cap n apy, op = .whitelist c v p ad ts cap n apy → underWay w < k) ∧
  w.st.maxDelegationAddresses ≤ w'.st.maxDelegationAddresses

/-- **C30, what does hold.**  The full claim is refuted by `C30_false` and `C30_unbounded`.  If at most `k` whitelistings are under way at
a time and the limit is never lowered, there are at most `k` providers more than the limit, those under way included. -/
theorem C30_partial {k : Nat} {w : World} (hr : ReachableBy (FewAtATime k) w) :
    w.st.delegList.length + underWay w ≤ w.st.maxDelegationAddresses + k := by
  have e : ∀ w : World, underWay w = wlCount w.flights := by
    intro w
    exact List.countP_eq_length_filter.symm
  rw [e]
  obtain ⟨w0, h0, ht⟩ := hr
  refine listBound ⟨w0, h0, trace_mono ?_ ht⟩
  rintro a op b ⟨h1, h2⟩
  exact ⟨fun c v p ad ts cap n apy hop => by rw [← e]; exact h1 c v p ad ts cap n apy hop, h2⟩

/-- **C30**, at the time of whitelisting. -/
theorem C30_whitelist_partial {w w' : World} {c : Addr} {v : Nat} {p ad : Addr} {ts cap : Nat} {n apy : UInt64}
    (h : step w (.whitelist c v p ad ts cap n apy) = .ok w') : w.st.delegList.length ≤ w.st.maxDelegationAddresses := by
  obtain ⟨_, _, h2, _⟩ := whitelist_ok h; exact h2

example : works providers (.whitelist 1 (E 1) 23 43 0 0 10 800) = true ∧ providers.flights = [] ∧
    providers.st.delegList.length = 2 ∧ providers.st.maxDelegationAddresses = 100 :=
  ⟨by decide +kernel, by decide +kernel, by decide +kernel, by decide +kernel⟩

/-- **C31**, consistency of the lists. -/
theorem C31_lists_consistent {w : World} (hr : Reachable w) :
    w.st.delegList.Nodup ∧ w.st.undelegList.Nodup ∧ (∀ p, p ∈ w.st.delegList ↔ p ∈ w.st.undelegList) ∧
    ∀ p ∈ w.st.delegList, ∃ d, provider w p = some d ∧ (d.cap = 0 ∨ d.totalStaked ≤ d.cap) := by
  have hr0 : RegOk w.st.lsToken w.st.unstakeToken w.st.delegList w.st.undelegList w.st.data w.flights w.dead :=
    reachable_regInv hr
  refine ⟨hr0.nd1, hr0.nd2, hr0.same, fun p hp => ?_⟩
  obtain ⟨d, hd⟩ := Option.ne_none_iff_exists'.1 (hr0.recd p hp)
  exact ⟨d, hd, (reachable_capOk hr p d hd).symm⟩

/-- **C31**, permanence. -/
theorem C31_never_removed {w w' : World} (hr : Reachable w) (hl : Later w w') {p : Addr} (hp : p ∈ w.st.delegList) :
    p ∈ w'.st.delegList ∧ p ∈ w'.st.undelegList ∧ ∃ d, provider w' p = some d := by
  have hr' := reachable_trace hr hl
  have key : p ∈ w'.st.delegList := by
    induction hl with
    | nil => exact hp
    | @snoc w1 w2 op ht hs _ ih =>
      have hr1 := reachable_trace hr ht
      cases lstep (reachable_regInv hr1) hs with
      | same h => exact (h p).2 (ih hr1)
      | joined i g r q x u hop hf ht hl => rw [hl, mem_setInsert]; exact .inl (ih hr1)
  obtain ⟨_, _, h3, h4⟩ := C31_lists_consistent hr'
  obtain ⟨d, hd, _⟩ := h4 p key
  exact ⟨key, (h3 p).1 key, d, hd⟩

example : Reachable settled ∧ settled.st.delegList = [21, 22] ∧ settled.st.undelegList = [21, 22] :=
  ⟨settled_reachable, by decide +kernel, by decide +kernel⟩

/-- **C34 is false of the code**: the weights are added as 64-bit numbers. -/
theorem C34_false : ∃ (w w' : World) (cfg : ScoringConfig), Reachable w ∧ step w (.setScoringConfig w.owner cfg) = .ok w' ∧
    w'.st.scoring = some cfg ∧ cfg.stakeWeight.toNat + cfg.apyWeight.toNat + cfg.nodesWeight.toNat ≠ 100 := by
  refine ⟨fresh, exec fresh (.setScoringConfig 1 { ScoringConfig.default with
      stakeWeight := 9223372036854775808, apyWeight := 9223372036854775808, nodesWeight := 100 }), { ScoringConfig.default with
      stakeWeight := 9223372036854775808, apyWeight := 9223372036854775808, nodesWeight := 100 }, .init fresh_isInit, ?_, ?_, ?_⟩
  · exact step_exec (by decide +kernel)
  · decide +kernel
  · decide +kernel

/-- **C34, what does hold.**  The full claim is refuted by `C34_false`.  The stored weights add up to 100 modulo 2^64; in
particular to 100 when none of them exceeds 2^62. -/
theorem C34_partial {w w' : World} {c : Addr} {cfg : ScoringConfig} (h : step w (.setScoringConfig c cfg) = .ok w') :
    w'.st.scoring = some cfg ∧ (cfg.stakeWeight.toNat + cfg.apyWeight.toNat + cfg.nodesWeight.toNat) % 2 ^ 64 = 100 ∧
    (cfg.stakeWeight.toNat ≤ 2 ^ 62 → cfg.apyWeight.toNat ≤ 2 ^ 62 → cfg.nodesWeight.toNat ≤ 2 ^ 62 →
      cfg.stakeWeight.toNat + cfg.apyWeight.toNat + cfg.nodesWeight.toNat = 100) := by
  obtain ⟨_, _, h1, rfl⟩ := setScoringConfig_ok.1 h
  have h2 : (cfg.stakeWeight.toNat + cfg.apyWeight.toNat + cfg.nodesWeight.toNat) % 2 ^ 64 = 100 := by
    have := congrArg UInt64.toNat h1
    rw [UInt64.toNat_add, UInt64.toNat_add] at this
    have h100 : (100 : UInt64).toNat = 100 := rfl
    rw [h100] at this
    omega
  exact ⟨rfl, h2, by omega⟩

example : works fresh (.setScoringConfig 1 ScoringConfig.default) = true ∧ ScoringConfig.default.stakeWeight.toNat ≤ 2 ^ 62 :=
  ⟨by decide +kernel, by decide⟩

/-- **C43.** `changeDelegationContractParams` changes the declared parameters of the named provider and nothing else. -/
theorem C43_changeParams {w w' : World} {c p : Addr} {ts cap : Nat} {n apy : UInt64} {e : Bool}
    (h : step w (.changeParams c p ts cap n apy e) = .ok w') :
    (∃ d, provider w p = some d ∧
      provider w' p = some { d with totalStaked := ts, cap := cap, nrNodes := n, apy := apy, eligible := e }) ∧
    (cap = 0 ∨ ts ≤ cap) ∧ (∀ q, q ≠ p → provider w' q = provider w q) ∧
    w' = { w with st := { w.st with data := w'.st.data } } := by
  obtain ⟨_, hcap, d, hd, _, rfl⟩ := changeParams_ok.1 h
  have hg : ∀ q, (w.st.data.set p (some { d with totalStaked := ts, cap := cap, nrNodes := n, apy := apy, eligible := e })).get none q = _ :=
    fun q => Map.get_set ..
  refine ⟨⟨d, hd, ?_⟩, hcap.symm, fun q hq => ?_, rfl⟩
  · have := hg p
    rw [if_pos rfl] at this
    exact this
  · have := hg q
    rw [if_neg hq.symm] at this
    exact this

/-- **C43**, `changeDelegationContractAdmin`. -/
theorem C43_changeAdmin {w w' : World} {c p a : Addr} (h : step w (.changeAdmin c p a) = .ok w') :
    (∃ d, provider w p = some d ∧ provider w' p = some { d with admin := a }) ∧
    (∀ q, q ≠ p → provider w' q = provider w q) ∧ w' = { w with st := { w.st with data := w'.st.data } } := by
  obtain ⟨_, _, d, hd, rfl⟩ := changeAdmin_ok.1 h
  have hg : ∀ q, (w.st.data.set p (some { d with admin := a })).get none q = _ := fun q => Map.get_set ..
  refine ⟨⟨d, hd, ?_⟩, fun q hq => ?_, rfl⟩
  · have := hg p
    rw [if_pos rfl] at this
    exact this
  · have := hg q
    rw [if_neg hq.symm] at this
    exact this

example : works staked (.changeParams 41 21 (E 7) (E 900) 3 1 false) = true ∧ works staked (.changeAdmin 1 21 77) = true ∧
    works staked (.changeAdmin 41 21 77) = false := ⟨by decide +kernel, by decide +kernel, by decide +kernel⟩

end LS
