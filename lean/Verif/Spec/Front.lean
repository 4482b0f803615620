import Verif.Spec.Parts

/-! What users deal with, and what is behind it: the providers. -/

namespace LS.Spec

/-- The part belongs to the dealings with providers: the two orders, the records, calls on their way and callbacks that failed. -/
def behind : Part → Bool
  | .delegOrder | .undelegOrder | .calls | .failed => true
  | .listed _ | .admin _ | .terms _ | .eligible _ => true
  | .staked _ | .unstaked _ | .inFlightStake _ | .inFlightUnstake _ => true
  | _ => false

/-- Two worlds are the same apart from the dealings with providers. -/
def SameFront (w v : World) : Prop := ∀ x, behind x = false → Same w v x

/-- The part is not the balance of an account outside `A`. -/
def within (A : Addr → Prop) : Part → Prop
  | .egld a | .ls a | .unstakes _ a => A a
  | _ => True

/-- Two worlds are the same apart from the balances of accounts outside `A`. -/
def SameWithin (A : Addr → Prop) (w v : World) : Prop := ∀ x, within A x → Same w v x

/-- Parts that no transaction reads: the two settings for the time between batches, which the code stores and never uses, and what is only
recorded. -/
def unread : Part → Bool
  | .roundsPerEpoch | .minimumRounds | .failed | .events | .migrated | .burnt => true
  | _ => false

/-- Two worlds are the same apart from the parts that are never read. -/
def SameRead (w v : World) : Prop := ∀ x, unread x = false → Same w v x

/-- Settings: what the owner, a manager or the deployment chooses. -/
def setting : Part → Bool
  | .feeRate | .accumulator | .roundsPerEpoch | .minimumRounds | .maxAddresses | .maxSelected => true
  | .unbondPeriod | .scoring | .managers | .migrationSc => true
  | _ => false

/-- The settings a transaction depends on.  The list of managers matters to managers who are not the owner; the unbond period to
redemptions; the fee rate to the answer of a call for rewards; the accumulator to `claimFees`; the scoring configuration and the
number of providers at a time to the two batches; the number of providers in all to the listing of one more; the migration contract
to migrations. -/
def consults (w : World) : Op → Part → Bool
  | .unDelegate _ _ _, .unbondPeriod => true
  | .claimFees _ _, .accumulator => true
  | .migrate _ _ _, .migrationSc | .migratePending _ _, .migrationSc => true
  | .delegatePending _ _, .maxSelected | .delegatePending _ _, .scoring => true
  | .unDelegatePending _ _, .maxSelected | .unDelegatePending _ _, .scoring => true
  | .whitelist _ _ _ _ _ _ _ _, .maxAddresses => true
  | .delegatePending c _, .managers | .unDelegatePending c _, .managers | .withdrawPending c _, .managers => c != w.owner
  | .claimRewards c, .managers | .setScoringConfig c _, .managers => c != w.owner
  | .whitelist c _ _ _ _ _ _ _, .managers | .changeAdmin c _ _, .managers => c != w.owner
  | .changeParams c p _ _ _ _ _, .managers => c != w.owner && (provider w p).map (·.admin) != some c
  | .deliver i (.ok _ _), .feeRate => match w.flights[i]? with | some (.claim _) => true | _ => false
  | _, _ => false

/-- Two worlds are the same apart from some settings. -/
def SameApart (X : Part → Prop) (w v : World) : Prop := ∀ x, ¬X x → Same w v x

/-- The account that a transaction takes EGLD or tokens from, if it is not the contract. -/
def payer : Op → Option Addr
  | .delegate c _ | .unDelegate c _ _ | .withdraw c _ _ | .migratePending c _ | .addRewards c _ => some c
  | .registerLsToken c _ | .registerUnstakeToken c _ | .whitelist c _ _ _ _ _ _ _ => some c
  | .transferLs c _ _ | .transferNft c _ _ _ | .transferEgld c _ _ => some c
  | .burnLs c _ | .burnUnstake c _ _ | .giveEgld c _ | .giveLs c _ | .giveUnstake c _ _ => some c
  | _ => none

/-- Transactions that are not dealings with providers: neither the manager's batches, nor the list of providers, nor answers of providers. -/
def frontOp : Op → Bool
  | .delegatePending _ _ | .unDelegatePending _ _ | .withdrawPending _ _ | .claimRewards _ => false
  | .whitelist _ _ _ _ _ _ _ _ | .changeAdmin _ _ _ | .changeParams _ _ _ _ _ _ _ => false
  | .deliver _ _ | .starve _ _ => false
  | _ => true

/-- The answer brings no EGLD, neither from the callee nor back from a call that failed. -/
def bringsNothing : Flight → Outcome → Bool
  | _, .ok egld _ => egld == 0
  | .delegate _ _, .err | .whitelist _ _ _, .err => false
  | _, .err => true

/-- Dealings with providers that users do not notice: asking for withdrawals and rewards; a change of a provider's admin, terms or
eligibility; the answer of a provider that accepts a delegation; a withdrawal that brings nothing; a call for rewards that fails or brings
nothing; and any answer that brings no EGLD and finds no gas left for its callback. -/
def quiet (w : World) : Op → Bool
  | .withdrawPending _ _ | .claimRewards _ | .changeAdmin _ _ _ | .changeParams _ _ _ _ _ _ _ => true
  | .deliver i o =>
    match w.flights[i]?, o with
    | some (.delegate _ _), .ok egld _ => egld == 0
    | some (.withdraw _), o => bringsNothing (.withdraw 0) o
    | some (.claim _), .ok egld reported => egld == 0 && reported == 0
    | some (.claim _), .err => true
    | _, _ => false
  | .starve i o =>
    match w.flights[i]? with
    | some f => bringsNothing f o
    | none => false
  | _ => false

/-- A history with quiet dealings with providers at any point; the list has the other transactions, successful or not, in order. -/
inductive Backstage : World → List Op → World → Prop
  | nil {w : World} : Backstage w [] w
  | front {w w' : World} {ops : List Op} (op : Op) :
      frontOp op = true → Backstage (exec w op) ops w' → Backstage w (op :: ops) w'
  | back {w w' : World} {ops : List Op} (op : Op) :
      quiet w op = true → Backstage (exec w op) ops w' → Backstage w ops w'

end LS.Spec
