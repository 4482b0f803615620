import Verif.Spec.Observe

/-! What a transaction may change: the parts of the state, and for every transaction the parts it is for. -/

namespace LS.Spec

/-- The parts of the state, down to single accounts, providers, positions and epochs. -/
inductive Part
  -- the contract and what is a contract; its owner; the clock; the pause switch
  | identity | owner | clock | switch
  -- the two token slots and the issues not answered yet
  | lsSlot | unstakeSlot | issuing
  -- the figures of the pool
  | supply | reserve | fees | withdrawable | pending | queue | unbonding
  -- settings
  | feeRate | accumulator | roundsPerEpoch | minimumRounds | maxAddresses | maxSelected | unbondPeriod | scoring | managers
  | migrationSc
  -- the two orders in which providers are served
  | delegOrder | undelegOrder
  -- the record of a provider: does it exist, who may change it, what it declares, may it receive, and the four figures
  | listed (p : Addr) | admin (p : Addr) | terms (p : Addr) | eligible (p : Addr)
  | staked (p : Addr) | unstaked (p : Addr) | inFlightStake (p : Addr) | inFlightUnstake (p : Addr)
  -- positions: which nonce new positions of a maturity join, what is written on a nonce, the last nonce
  | registry (epoch : UInt64) | attributes (n : Nat) | lastNonce
  -- balances
  | egld (a : Addr) | ls (a : Addr) | unstakes (n : Nat) (a : Addr)
  -- calls on their way, callbacks that failed, events, and the migration counters (not part of the contract)
  | calls | failed | events | migrated | burnt
  deriving DecidableEq, Repr

/-- The terms a provider declares: total stake, cap, number of nodes, rate of return. -/
def termsOf (d : ProviderData) : Nat × Nat × UInt64 × UInt64 := (d.totalStaked, d.cap, d.nrNodes, d.apy)

/-- A part is the same in two worlds. -/
def Same (w w' : World) : Part → Prop
  | .identity => w'.self = w.self ∧ w'.contracts = w.contracts
  | .owner => w'.owner = w.owner
  | .clock => w'.epoch = w.epoch
  | .switch => w'.st.state = w.st.state
  | .lsSlot => w'.st.lsToken = w.st.lsToken ∧ w'.st.lsPending = w.st.lsPending
  | .unstakeSlot => w'.st.unstakeToken = w.st.unstakeToken ∧ w'.st.unstakePending = w.st.unstakePending
  | .issuing => w'.issues = w.issues
  | .supply => Spec.supply w' = Spec.supply w
  | .reserve => Spec.reserve w' = Spec.reserve w
  | .fees => feesReserve w' = feesReserve w
  | .withdrawable => Spec.withdrawable w' = Spec.withdrawable w
  | .pending => pendingEgld w' = pendingEgld w
  | .queue => toUndelegate w' = toUndelegate w
  | .unbonding => Spec.unbonding w' = Spec.unbonding w
  | .feeRate => w'.st.feeRate = w.st.feeRate
  | .accumulator => w'.st.accumulator = w.st.accumulator
  | .roundsPerEpoch => w'.st.roundsPerEpoch = w.st.roundsPerEpoch
  | .minimumRounds => w'.st.minimumRounds = w.st.minimumRounds
  | .maxAddresses => w'.st.maxDelegationAddresses = w.st.maxDelegationAddresses
  | .maxSelected => w'.st.maxSelectedProviders = w.st.maxSelectedProviders
  | .unbondPeriod => w'.st.unbondPeriod = w.st.unbondPeriod
  | .scoring => w'.st.scoring = w.st.scoring
  | .managers => w'.st.managers = w.st.managers
  | .migrationSc => w'.st.migrationSc = w.st.migrationSc
  | .delegOrder => w'.st.delegList = w.st.delegList
  | .undelegOrder => w'.st.undelegList = w.st.undelegList
  | .listed p => (provider w' p).isSome = (provider w p).isSome
  | .admin p => (provider w' p).map (·.admin) = (provider w p).map (·.admin)
  | .terms p => (provider w' p).map termsOf = (provider w p).map termsOf
  | .eligible p => (provider w' p).map (·.eligible) = (provider w p).map (·.eligible)
  | .staked p => figure (·.staked) w' p = figure (·.staked) w p
  | .unstaked p => figure (·.unstaked) w' p = figure (·.unstaked) w p
  | .inFlightStake p => figure (·.pStake) w' p = figure (·.pStake) w p
  | .inFlightUnstake p => figure (·.pUnstake) w' p = figure (·.pUnstake) w p
  | .registry e => w'.st.unstakeNonce.get 0 e = w.st.unstakeNonce.get 0 e
  | .attributes n => w'.attrs.get none n = w.attrs.get none n
  | .lastNonce => w'.lastNonce = w.lastNonce
  | .egld a => egldOf w' a = egldOf w a
  | .ls a => lsOf w' a = lsOf w a
  | .unstakes n a => unstakeOf w' n a = unstakeOf w n a
  | .calls => w'.flights = w.flights
  | .failed => w'.dead = w.dead
  | .events => w'.events = w.events
  | .migrated => w'.migratedVirtual = w.migratedVirtual ∧ w'.migratedPending = w.migratedPending
  | .burnt => w'.burntLs = w.burntLs ∧ w'.burntUnstake = w.burntUnstake

instance (w w' : World) (x : Part) : Decidable (Same w w' x) := by cases x <;> unfold Same <;> infer_instance

/-- A position created by a redemption: the nonce registered for the maturity when there is one; otherwise a new nonce, which is
registered, and the previous nonce may be retired (the contract's own unit burned, its maturity unregistered). -/
def positionParts (w : World) (c : Addr) : List Part :=
  let maturity := w.epoch + w.st.unbondPeriod
  let n := w.st.unstakeNonce.get 0 maturity
  if n ≠ 0 then [.unstakes n c]
  else [.unstakes (w.lastNonce + 1) c, .unstakes (w.lastNonce + 1) w.self, .unstakes w.lastNonce w.self,
        .attributes (w.lastNonce + 1), .lastNonce, .registry maturity] ++ (maturityOf w w.lastNonce).toList.map .registry

/-- What the answer to a call may change. -/
def callbackParts (w : World) : Flight → Outcome → List Part
  | .delegate p _, .ok _ _ => [.calls, .egld w.self, .staked p, .inFlightStake p]
  | .delegate p _, .err => [.calls, .egld w.self, .pending, .inFlightStake p, .eligible p, .events]
  | .undelegate p _, .ok _ _ =>
    [.calls, .egld w.self, .failed, .unbonding, .staked p, .unstaked p, .inFlightUnstake p, .events]
  | .undelegate p _, .err => [.calls, .queue, .inFlightUnstake p, .events]
  | .withdraw p, .ok _ _ => [.calls, .egld w.self, .failed, .withdrawable, .unbonding, .unstaked p, .events]
  | .withdraw _, .err => [.calls]
  | .claim _, .ok _ _ => [.calls, .egld w.self, .failed, .fees, .pending, .reserve, .events]
  | .claim _, .err => [.calls]
  | .whitelist p _ u, .ok _ _ =>
    [.calls, .egld w.self, .failed, .staked p, .delegOrder, .undelegOrder, .supply, .reserve, .ls u, .events]
  | .whitelist p _ u, .err =>
    if w.st.lsToken = none then [.calls, .egld w.self, .failed] else [.calls, .egld u, .listed p, .admin p, .terms p, .eligible p]

/-- The part behind a setter of the owner. -/
def settingOf : OwnerCmd → Part
  | .stateActive => .switch
  | .stateInactive => .switch
  | .accumulator _ => .accumulator
  | .fees _ => .feeRate
  | .minimumRounds _ => .minimumRounds
  | .maxAddresses _ => .maxAddresses
  | .maxSelected _ => .maxSelected
  | .unbondPeriod _ => .unbondPeriod
  | .addManagers _ => .managers
  | .removeManager _ => .managers

/-- What a transaction is for: everything it may change. -/
def touched (w : World) : Op → List Part
  | .delegate c _ => [.egld c, .egld w.self, .ls c, .supply, .reserve, .pending, .queue, .withdrawable, .events]
  | .unDelegate c _ _ =>
    [.egld c, .egld w.self, .ls c, .supply, .reserve, .pending, .queue, .events] ++ positionParts w c
  | .withdraw c _ ps => [.egld c, .egld w.self, .withdrawable, .events] ++ ps.map (fun p => .unstakes p.nonce c)
  | .upgrade => []
  | .delegatePending _ _ => [.egld w.self, .pending, .delegOrder, .calls, .events] ++ w.st.delegList.map .inFlightStake
  | .unDelegatePending _ _ => [.queue, .undelegOrder, .calls, .events] ++ w.st.undelegList.map .inFlightUnstake
  | .withdrawPending _ _ => [.calls]
  | .claimRewards _ => [.calls]
  | .claimFees _ _ => [.egld w.self, .egld w.st.accumulator, .fees]
  | .whitelist c _ p _ _ _ _ _ => [.egld c, .calls, .listed p, .admin p, .terms p, .eligible p]
  | .changeAdmin _ p _ => [.admin p]
  | .changeParams _ p _ _ _ _ _ => [.terms p, .eligible p]
  | .migrate c _ _ => [.ls c, .supply, .reserve, .events, .migrated]
  | .migratePending c _ => [.egld c, .egld w.self, .pending, .events, .migrated]
  | .addRewards c _ => [.egld c, .egld w.self, .pending, .reserve, .events]
  | .setMigrationSc _ _ => [.migrationSc]
  | .registerLsToken c _ => [.egld c, .lsSlot, .issuing]
  | .registerUnstakeToken c _ => [.egld c, .unstakeSlot, .issuing]
  | .owner _ cmd => [settingOf cmd]
  | .setScoringConfig _ _ => [.scoring]
  | .viewLsValue _ => []
  | .viewEgldPosition _ => []
  | .deliver i o =>
    match w.flights[i]? with
    | some f => callbackParts w f o
    | none => []
  | .issued i o =>
    match w.issues[i]? with
    | some ⟨.ls, c, _⟩ => [.issuing, .lsSlot] ++ (if o = none then [.egld c] else [])
    | some ⟨.unstake, c, _⟩ => [.issuing, .unstakeSlot] ++ (if o = none then [.egld c] else [])
    | none => []
  | .transferLs a b _ => [.ls a, .ls b]
  | .transferNft a b n _ => [.unstakes n a, .unstakes n b]
  | .fund a _ => [.egld a]
  | .advance _ => [.clock]
  | .changeOwner _ _ => [.owner]
  | .transferEgld a b _ => [.egld a, .egld b]
  | .giveEgld a _ => [.egld a, .egld w.self]
  | .giveLs a _ => [.ls a, .ls w.self]
  | .giveUnstake a n _ => [.unstakes n a, .unstakes n w.self, .burnt]
  | .burnLs a _ => [.ls a, .burnt]
  | .burnUnstake a n _ => [.unstakes n a, .burnt]
  | .starve _ _ => [.calls, .egld w.self, .failed]

end LS.Spec
