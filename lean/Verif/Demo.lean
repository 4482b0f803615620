import Verif.Spec.Observe

/-! Concrete reachable worlds, used beside the theorems to show that their hypotheses are met by real executions. -/

namespace LS.Demo

/-- Whether a transaction succeeds. -/
def works (w : World) (op : Op) : Bool := match step w op with | .ok _ => true | .error _ => false

theorem works_iff {w : World} {op : Op} : works w op = true ↔ ∃ w', step w op = .ok w' := by
  unfold works; cases step w op <;> simp

theorem step_exec {w : World} {op : Op} (h : works w op = true) : step w op = .ok (exec w op) := by
  unfold works at h; unfold exec; cases hs : step w op <;> simp_all

/-- EGLD in units of 10^18. -/
def E (n : Nat) : Nat := n * 1000000000000000000

/-- A fresh deployment: contract 1000, owner 1, accumulator 2, migration contract 3, users 11-13 with 1000 EGLD each. -/
def fresh : World :=
  { self := 1000, owner := 1, contracts := [2, 3], epoch := 0,
    st := {
      state := .inactive, lsToken := none, lsPending := false, unstakeToken := none, unstakePending := false,
      r := { lsSupply := 0, reserve := 0, fees := 0, withdrawn := 0, pending := 0, toUnstake := 0, toUnbond := 0 },
      feeRate := 400, accumulator := 2, roundsPerEpoch := 14400, minimumRounds := 1400,
      maxDelegationAddresses := 100, maxSelectedProviders := 25, unbondPeriod := 10,
      scoring := none, managers := [], migrationSc := none, delegList := [], undelegList := [], data := [],
      unstakeNonce := [] },
    egld := [(1, E 1000), (3, E 1000), (11, E 1000), (12, E 1000), (13, E 1000)], ls := [], nft := [], attrs := [],
    lastNonce := 0, flights := [], dead := [], issues := [], events := [], migratedVirtual := 0, migratedPending := 0,
    burntLs := 0, burntUnstake := 0 }

theorem fresh_isInit : IsInit fresh :=
  ⟨1000, 1, [2, 3], 0, [(1, E 1000), (3, E 1000), (11, E 1000), (12, E 1000), (13, E 1000)], 2, 400, 14400, 1400, 25, 100,
    10, rfl⟩

theorem reachable_exec {w : World} (h : Reachable w) (op : Op) : Reachable (exec w op) := by
  unfold exec; cases hs : step w op with
  | ok w' => exact .step op h hs
  | error _ => exact h

theorem reachable_run {w : World} (h : Reachable w) (ops : List Op) : Reachable (run w ops) := by
  induction ops generalizing w with
  | nil => exact h
  | cons op ops ih => exact ih (reachable_exec h op)

/-- Tokens issued, contract active, scoring set. -/
def active : World := run fresh [
  .registerLsToken 1 0, .issued 0 (some 500), .registerUnstakeToken 1 0, .issued 0 (some 501), .owner 1 .stateActive,
  .setScoringConfig 1 ScoringConfig.default]

/-- Two providers (21 with a cap of 1500, 22 without), each with its first EGLD. -/
def providers : World := run active [
  .whitelist 1 (E 1) 21 41 (E 1000) (E 1500) 10 800, .deliver 0 (.ok 0 0),
  .whitelist 1 (E 1) 22 42 (E 1000) 0 20 900, .deliver 0 (.ok 0 0)]

/-- Users 11 and 12 deposited 100 and 50 EGLD. -/
def deposited : World := run providers [.delegate 11 (E 100), .delegate 12 (E 50)]

/-- The deposits are delegated (both delegations answered), rewards of 7 EGLD arrived, so an LS token is worth more than
one EGLD. -/
def staked : World := run deposited [
  .delegatePending 1 none, .deliver 0 (.ok 0 0), .deliver 0 (.ok 0 0),
  .claimRewards 1, .deliver 0 (.ok (E 7) (E 7)), .delegatePending 1 none]

/-- As `staked`, with the second batch answered. -/
def settled : World := run staked [.deliver 0 (.ok 0 0), .deliver 0 (.ok 0 0), .advance 50]

/-- User 11 redeemed 40 LS tokens into unstake tokens (nonce 1), not yet sent to providers. -/
def redeemed : World := run settled [.unDelegate 11 0 [⟨500, 0, E 40⟩]]

/-- The redemption was sent to the providers and answered; both returned the EGLD at epoch 60. -/
def returned : World := run redeemed [
  .unDelegatePending 1 none, .deliver 0 (.ok 0 0), .deliver 0 (.ok 0 0), .advance 60, .withdrawPending 1 21,
  .withdrawPending 1 22]

/-- Only provider 21 returned its EGLD so far. -/
def halfReady : World := run returned [.deliver 0 (.ok 38672954215174376577 0)]

/-- Both providers returned their EGLD: user 11 can withdraw. -/
def ready : World := run halfReady [.deliver 0 (.ok 3095466837457202370 0)]

theorem reach (ops : List Op) : Reachable (run fresh ops) := reachable_run (.init fresh_isInit) ops

theorem active_reachable : Reachable active := reach _
theorem providers_reachable : Reachable providers := reachable_run active_reachable _
theorem deposited_reachable : Reachable deposited := reachable_run providers_reachable _
theorem staked_reachable : Reachable staked := reachable_run deposited_reachable _
theorem settled_reachable : Reachable settled := reachable_run staked_reachable _
theorem redeemed_reachable : Reachable redeemed := reachable_run settled_reachable _
theorem returned_reachable : Reachable returned := reachable_run redeemed_reachable _
theorem halfReady_reachable : Reachable halfReady := reachable_run returned_reachable _
theorem ready_reachable : Reachable ready := reachable_run halfReady_reachable _

end LS.Demo
