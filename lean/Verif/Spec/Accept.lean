import Verif.Spec.Losing

/-! When each transaction is accepted, stated from balances, views, configuration and stored records alone. -/

namespace LS.Spec

/-- A delegation of `amount` looks at provider `p`: fewer open providers come before it in the rotation than the batch addresses. -/
def LooksAt (w : World) (amount : Nat) (p : Addr) : Prop :=
  ∃ l1 l2, w.st.delegList = l1 ++ p :: l2 ∧ (l1.filter (openTo w)).length < howMany w amount w.st.delegList.length

/-- An un-delegation of `amount` looks at provider `p`: those before it in the rotation that hold stake are fewer than allowed,
and are too few, or not expected to give all of it. -/
def LooksBackAt (w : World) (amount : Nat) (p : Addr) : Prop :=
  ∃ l1 l2, w.st.undelegList = l1 ++ p :: l2 ∧
    (l1.filter fun q => decide (0 < netStake w q)).length < w.st.maxSelectedProviders ∧
    ((l1.filter fun q => decide (0 < netStake w q)).length < howMany w amount w.st.undelegList.length ∨
      expectedOf w amount (l1.filter fun q => decide (0 < netStake w q)) < amount)

/-- The record of `p` exists and no more is asked back from it than it has. -/
def NotOverdrawn (w : World) (p : Addr) : Prop :=
  ∃ d, provider w p = some d ∧ d.pUnstake ≤ d.staked + d.pStake

/-- The record of `p` exists and, if it is eligible, no more is asked back from it than it has and its cap covers its stake. -/
def FitRecord (w : World) (p : Addr) : Prop :=
  ∃ d, provider w p = some d ∧ (d.eligible = true → d.pUnstake ≤ d.staked + d.pStake ∧ (d.cap = 0 ∨ netStake w p ≤ d.cap))

/-- The provider can be scored: its figures do not sit in a range of the configuration that has no width. -/
def Scorable (w : World) (cfg : ScoringConfig) (p : Addr) : Prop :=
  ∀ d, provider w p = some d →
    ¬ (d.nrNodes = cfg.minNodes ∧ d.nrNodes = cfg.maxNodes) ∧ ¬ (d.apy = cfg.minApy ∧ d.apy = cfg.maxApy)

/-- A delegation of `amount` can be shared out: those looked at are in order, some are open, and these can be scored. -/
def CanShareOut (w : World) (amount : Nat) : Prop :=
  ∃ cfg, w.st.scoring = some cfg ∧ (∀ p, LooksAt w amount p → FitRecord w p) ∧ (∃ p, LooksAt w amount p ∧ openTo w p = true) ∧
    ∀ p, LooksAt w amount p → openTo w p = true → Scorable w cfg p

/-- An un-delegation of `amount` can be collected: those looked at are not overdrawn, some hold stake, and these hold at least
one EGLD and can be scored. -/
def CanCollect (w : World) (amount : Nat) : Prop :=
  ∃ cfg, w.st.scoring = some cfg ∧ (∀ p, LooksBackAt w amount p → NotOverdrawn w p) ∧
    (∃ p, LooksBackAt w amount p ∧ 0 < netStake w p) ∧
    ∀ p, LooksBackAt w amount p → 0 < netStake w p → oneEgld ≤ netStake w p ∧ Scorable w cfg p

/-- `c` is a manager or the owner, and not the contract itself. -/
def Manager (w : World) (c : Addr) : Prop := c ≠ w.self ∧ (c ∈ w.st.managers ∨ c = w.owner)

/-- The contract is active and its LS token is issued. -/
def Running (w : World) : Prop := w.st.state = .active ∧ w.st.lsToken ≠ none

/-- The migration contract: configured, not the zero address, and a contract. -/
def Migrator (w : World) (c : Addr) : Prop := c ≠ w.self ∧ w.st.migrationSc = some c ∧ c ≠ 0 ∧ c ∈ w.contracts

/-- When a transaction is accepted. -/
def Accepted (w : World) : Op → Prop
  | .delegate c v => c ≠ w.self ∧ Running w ∧ 0 < v ∧ v ≤ egldOf w c ∧ 0 < lsFor (supply w) (reserve w) v ∧
      ∀ i u, IsSplit (toUndelegate w) v i u → 0 < u → oneEgld ≤ pendingEgld w + u
  | .unDelegate c v ps => c ≠ w.self ∧ Running w ∧ v = 0 ∧ ∃ t l, ps = [⟨t, 0, l⟩] ∧ w.st.lsToken = some t ∧ 0 < l ∧
      l ≤ lsOf w c ∧ 0 < egldFor (supply w) (reserve w) l ∧
      ∀ i u, IsSplit (pendingEgld w) (egldFor (supply w) (reserve w) l) i u → 0 < u →
        oneEgld ≤ toUndelegate w + u ∧ w.st.unstakeToken ≠ none
  | .withdraw c v ps => c ≠ w.self ∧ Running w ∧ w.st.unstakeToken ≠ none ∧ (v = 0 ∨ ps = []) ∧ v ≤ egldOf w c ∧
      (∀ p ∈ ps, w.st.unstakeToken = some p.token ∧ 0 < p.amount ∧ ∃ e, maturityOf w p.nonce = some e ∧ e ≤ w.epoch) ∧
      (∀ n, paidWith n ps ≤ unstakeOf w n c) ∧ (∀ ps1 p ps2, ps = ps1 ++ p :: ps2 → totalPaid ps1 < withdrawable w)
  | .upgrade => True
  | .delegatePending c o => Manager w c ∧ Running w ∧ ValidBatch (pendingEgld w) o ∧ CanShareOut w (batchAsked (pendingEgld w) o)
  | .unDelegatePending c o => Manager w c ∧ Running w ∧ ValidBatch (toUndelegate w) o ∧
      CanCollect w (batchAsked (toUndelegate w) o)
  | .withdrawPending c p => Manager w c ∧ Running w ∧ provider w p ≠ none
  | .claimRewards c => Manager w c ∧ Running w ∧ w.st.delegList ≠ []
  | .claimFees c ok => c ≠ w.self ∧ w.st.lsToken ≠ none ∧ 0 < feesReserve w ∧ w.st.accumulator ≠ w.self ∧ ok = true
  | .whitelist c v p _ ts cap _ _ => Manager w c ∧ w.st.delegList.length ≤ w.st.maxDelegationAddresses ∧
      w.st.undelegList.length ≤ w.st.maxDelegationAddresses ∧ provider w p = none ∧ (ts ≤ cap ∨ cap = 0) ∧ oneEgld ≤ v ∧
      v ≤ egldOf w c
  | .changeAdmin c p _ => Manager w c ∧ provider w p ≠ none
  | .changeParams c p ts cap _ _ _ => c ≠ w.self ∧ (ts ≤ cap ∨ cap = 0) ∧
      ∃ d, provider w p = some d ∧ (d.admin = c ∨ c ∈ w.st.managers ∨ c = w.owner)
  | .migrate c v _ => Migrator w c ∧ w.st.lsToken ≠ none ∧ 0 < lsFor (supply w) (reserve w) v
  | .migratePending c v => Migrator w c ∧ w.st.lsToken ≠ none ∧ v ≤ egldOf w c
  | .addRewards c v => c ≠ w.self ∧ w.st.lsToken ≠ none ∧ v ≤ egldOf w c
  | .setMigrationSc c a => c ≠ w.self ∧ c = w.owner ∧ a ∈ w.contracts
  | .registerLsToken c v => c ≠ w.self ∧ c = w.owner ∧ w.st.lsToken = none ∧ w.st.lsPending = false ∧ v ≤ egldOf w c
  | .registerUnstakeToken c v => c ≠ w.self ∧ c = w.owner ∧ w.st.unstakeToken = none ∧ w.st.unstakePending = false ∧
      v ≤ egldOf w c
  | .owner c (.maxAddresses n) => c ≠ w.self ∧ c = w.owner ∧ 1 ≤ n
  | .owner c (.maxSelected n) => c ≠ w.self ∧ c = w.owner ∧ 1 ≤ n
  | .owner c _ => c ≠ w.self ∧ c = w.owner
  | .setScoringConfig c cfg => Manager w c ∧
      (cfg.stakeWeight.toNat + cfg.apyWeight.toNat + cfg.nodesWeight.toNat) % 2 ^ 64 = 100
  | .viewLsValue l => w.st.lsToken ≠ none ∧ l ≤ supply w ∧ 0 < egldFor (supply w) (reserve w) l
  | .viewEgldPosition e => w.st.lsToken ≠ none ∧ 0 < lsFor (supply w) (reserve w) e
  | .deliver i _ => i < w.flights.length
  | .issued i o => ∃ x, w.issues[i]? = some x ∧
      (o = none ∨ (if x.kind = .ls then w.st.unstakeToken else w.st.lsToken) ≠ o)
  | .transferLs src dst v => src ≠ w.self ∧ dst ≠ w.self ∧ v ≤ lsOf w src
  | .transferNft src dst n v => src ≠ w.self ∧ dst ≠ w.self ∧ v ≤ unstakeOf w n src
  | .fund a _ => a ≠ w.self
  | .advance e => w.epoch ≤ e
  | .changeOwner c _ => c ≠ w.self ∧ c = w.owner
  | .transferEgld src dst v => src ≠ w.self ∧ dst ≠ w.self ∧ v ≤ egldOf w src
  | .giveEgld src v => src ≠ w.self ∧ src ∈ w.contracts ∧ v ≤ egldOf w src
  | .giveLs src v => src ≠ w.self ∧ src ∈ w.contracts ∧ v ≤ lsOf w src
  | .giveUnstake src n v => src ≠ w.self ∧ src ∈ w.contracts ∧ v ≤ unstakeOf w n src
  | .burnLs a v => a ≠ w.self ∧ v ≤ lsOf w a
  | .burnUnstake a n v => a ≠ w.self ∧ v ≤ unstakeOf w n a
  | .starve i _ => i < w.flights.length

end LS.Spec
