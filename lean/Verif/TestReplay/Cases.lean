import Verif.TestReplay.Harness

/-! The repository's own tests, replayed on the model.  Generated by tools/replay.py from liquid-staking/tests/*.rs.
These are tests of the model's fidelity, not proofs of properties. -/

namespace LS.Replay

/-- liquid-staking/tests/test.rs:74-219 `liquid_staking_multiple_operations` -/
example : passes 400 [
    .deploy 101 1000000000000000000 1000000000000000000000 1100000000000000000000 15 7000,
    .deploy 102 1000000000000000000 1000000000000000000000 1100000000000000000000 30 6300,
    .deploy 103 1000000000000000000 1000000000000000000000 1100000000000000000000 50 6600,
    .deploy 104 1000000000000000000 1000000000000000000000 0 3 11000,
    .deploy 105 1000000000000000000 1000000000000000000000 0 3 11000,
    .ok (.changeParams 1 105 1000000000000000000000 1000000000000000000000 3 11000 false),
    .ok (.fund 11 1000000000000000000000),
    .ok (.fund 12 1000000000000000000000),
    .ok (.fund 13 1000000000000000000000),
    .ok (.delegate 11 100000000000000000000),
    .ok (.delegatePending 1 none),
    .ok (.delegate 11 200000000000000000000),
    .ok (.delegatePending 1 none),
    .ok (.delegate 12 500000000000000000000),
    .ok (.delegatePending 1 none),
    .ok (.changeParams 1 102 1080000000000000000000 0 6 13000 true),
    .ok (.delegate 13 600000000000000000000),
    .ok (.delegatePending 1 none),
    .ok (.changeParams 1 102 1080000000000000000000 0 3 8000 true),
    .ok (.changeParams 1 103 1030000000000000000000 1100000000000000000000 3 9000 true),
    .lsIs 11 300000000000000000000,
    .lsIs 12 500000000000000000000,
    .lsIs 13 600000000000000000000,
    .ok (.advance 10),
    .ok (.claimRewards 1),
    .egldIs 1000 3849315068493150683] = true := by decide +kernel

/-- liquid-staking/tests/test.rs:221-264 `liquid_staking_multiple_withdraw_test` -/
example : passes 400 [
    .deploy 101 1000000000000000000 1000000000000000000000 1500000000000000000000 0 0,
    .ok (.fund 11 100000000000000000000),
    .ok (.fund 12 100000000000000000000),
    .ok (.fund 13 100000000000000000000),
    .ok (.delegate 11 50000000000000000000),
    .ok (.delegate 12 40000000000000000000),
    .ok (.delegate 13 40000000000000000000),
    .storage 131000000000000000000 131000000000000000000 0 0 130000000000000000000 0,
    .ok (.delegatePending 1 none),
    .ok (.advance 50),
    .ok (.unDelegate 11 0 [⟨500, 0, 20000000000000000000⟩]),
    .nftIs 11 1 20000000000000000000 none,
    .ok (.unDelegate 11 0 [⟨500, 0, 20000000000000000000⟩]),
    .nftIs 11 1 40000000000000000000 none,
    .ok (.unDelegate 12 0 [⟨500, 0, 20000000000000000000⟩]),
    .ok (.unDelegate 13 0 [⟨500, 0, 20000000000000000000⟩]),
    .storage 51000000000000000000 51000000000000000000 0 0 0 80000000000000000000,
    .ok (.unDelegatePending 1 none),
    .ok (.advance 60),
    .ok (.withdrawPending 1 101),
    .storage 51000000000000000000 51000000000000000000 0 80000000000000000000 0 0,
    .ok (.withdraw 11 0 [⟨501, 1, 20000000000000000000⟩]),
    .lsIs 11 10000000000000000000,
    .egldIs 11 70000000000000000000,
    .lsIs 12 20000000000000000000,
    .egldIs 12 60000000000000000000,
    .lsIs 13 20000000000000000000,
    .egldIs 13 60000000000000000000,
    .storage 51000000000000000000 51000000000000000000 0 60000000000000000000 0 0] = true := by decide +kernel

/-- liquid-staking/tests/test.rs:425-450 `claim_rewards_multiple_times_test` -/
example : passes 400 [
    .deploy 101 1000000000000000000 1000000000000000000000 1500000000000000000000 0 0,
    .ok (.fund 11 100000000000000000000),
    .ok (.delegate 11 100000000000000000000),
    .ok (.delegatePending 1 none),
    .ok (.advance 50),
    .ok (.claimRewards 1),
    .ok (.advance 100),
    .ok (.claimRewards 1)] = true := by decide +kernel

/-- liquid-staking/tests/test.rs:452-466 `add_liquidity_no_valid_delegation_contract_error_test` -/
example : passes 400 [
    .ok (.fund 11 100000000000000000000),
    .ok (.delegate 11 100000000000000000000),
    .fails (.delegatePending 1 none) .noDelegationContracts] = true := by decide +kernel

/-- liquid-staking/tests/delegate_test.rs:16-40 `liquid_staking_add_liquidity_test` -/
example : passes 400 [
    .deploy 101 1000000000000000000 1000000000000000000000 1500000000000000000000 0 0,
    .ok (.fund 11 100000000000000000000),
    .ok (.delegate 11 100000000000000000000),
    .storage 101000000000000000000 101000000000000000000 0 0 100000000000000000000 0,
    .lsIs 11 100000000000000000000] = true := by decide +kernel

/-- liquid-staking/tests/delegate_test.rs:42-141 `liquid_staking_add_liquidity_pending_redemption_partial_test` -/
example : passes 400 [
    .deploy 101 1000000000000000000 1000000000000000000000 1500000000000000000000 0 0,
    .ok (.fund 11 100000000000000000000),
    .ok (.fund 12 100000000000000000000),
    .ok (.delegate 11 100000000000000000000),
    .ok (.advance 50),
    .storage 101000000000000000000 101000000000000000000 0 0 100000000000000000000 0,
    .ok (.delegatePending 1 (some 1000000000000000000)),
    .ok (.delegatePending 1 none),
    .storage 101000000000000000000 101000000000000000000 0 0 0 0,
    .ok (.unDelegate 11 0 [⟨500, 0, 90000000000000000000⟩]),
    .storage 11000000000000000000 11000000000000000000 0 0 0 90000000000000000000,
    .lsIs 11 10000000000000000000,
    .nftIs 11 1 90000000000000000000 (some ⟨50, 60⟩),
    .egldIs 11 0,
    .ok (.delegate 12 100000000000000000000),
    .storage 111000000000000000000 111000000000000000000 0 90000000000000000000 10000000000000000000 0] = true := by decide +kernel

/-- liquid-staking/tests/delegate_test.rs:143-237 `liquid_staking_add_liquidity_pending_redemption_full_test` -/
example : passes 400 [
    .deploy 101 1000000000000000000 1000000000000000000000 1500000000000000000000 0 0,
    .ok (.fund 11 100000000000000000000),
    .ok (.fund 12 100000000000000000000),
    .ok (.delegate 11 100000000000000000000),
    .ok (.advance 50),
    .storage 101000000000000000000 101000000000000000000 0 0 100000000000000000000 0,
    .ok (.delegatePending 1 none),
    .storage 101000000000000000000 101000000000000000000 0 0 0 0,
    .ok (.unDelegate 11 0 [⟨500, 0, 90000000000000000000⟩]),
    .storage 11000000000000000000 11000000000000000000 0 0 0 90000000000000000000,
    .lsIs 11 10000000000000000000,
    .nftIs 11 1 90000000000000000000 (some ⟨50, 60⟩),
    .egldIs 11 0,
    .ok (.delegate 12 90000000000000000000),
    .storage 101000000000000000000 101000000000000000000 0 90000000000000000000 0 0] = true := by decide +kernel

/-- liquid-staking/tests/delegate_test.rs:239-269 `liquid_staking_add_liquidity_exp17_test` -/
example : passes 400 [
    .deploy 101 1000000000000000000 1000000000000000000000 1500000000000000000000 0 0,
    .ok (.fund 11 10000000000000000000),
    .ok (.fund 12 1000000000000000000),
    .ok (.delegate 11 1000000000000000000),
    .ok (.delegate 12 500000000000000000),
    .pending 1500000000000000000,
    .lsIs 11 1000000000000000000,
    .lsIs 12 500000000000000000] = true := by decide +kernel

/-- liquid-staking/tests/delegate_test.rs:271-291 `liquid_staking_add_liquidity_exp17_error_test` -/
example : passes 400 [
    .deploy 101 1000000000000000000 1000000000000000000000 1500000000000000000000 0 0,
    .ok (.fund 11 10000000000000000000),
    .ok (.fund 12 1000000000000000000),
    .ok (.delegate 11 3000000000000000000),
    .ok (.delegatePending 1 none),
    .ok (.unDelegate 11 0 [⟨500, 0, 1500000000000000000⟩]),
    .fails (.delegate 12 600000000000000000) .insufficientPendingEgld] = true := by decide +kernel

/-- liquid-staking/tests/delegate_test.rs:293-305 `liquid_staking_add_liquidity_inactive_contract_error_test` -/
example : passes 400 [
    .deploy 101 1000000000000000000 1000000000000000000000 1500000000000000000000 0 0,
    .ok (.fund 11 100000000000000000000),
    .ok (.owner 1 .stateInactive),
    .fails (.delegate 11 100000000000000000000) .notActive] = true := by decide +kernel

/-- liquid-staking/tests/delegate_test.rs:307-323 `liquid_staking_delegate_custom_amount_pending_error_test` -/
example : passes 400 [
    .deploy 101 1000000000000000000 1000000000000000000000 1500000000000000000000 0 0,
    .ok (.fund 11 10000000000000000000),
    .ok (.delegate 11 3000000000000000000),
    .fails (.delegatePending 1 (some 4000000000000000000)) .insufficientPendingEgld] = true := by decide +kernel

/-- liquid-staking/tests/delegate_test.rs:325-341 `liquid_staking_delegate_custom_amount_under_min_pending_error_test` -/
example : passes 400 [
    .deploy 101 1000000000000000000 1000000000000000000000 1500000000000000000000 0 0,
    .ok (.fund 11 10000000000000000000),
    .ok (.delegate 11 3000000000000000000),
    .fails (.delegatePending 1 (some 500000000000000000)) .insufficientPendingEgld] = true := by decide +kernel

/-- liquid-staking/tests/delegate_test.rs:343-359 `liquid_staking_delegate_custom_amount_left_over_pending_error_test` -/
example : passes 400 [
    .deploy 101 1000000000000000000 1000000000000000000000 1500000000000000000000 0 0,
    .ok (.fund 11 10000000000000000000),
    .ok (.delegate 11 3000000000000000000),
    .fails (.delegatePending 1 (some 2500000000000000000)) .insufficientPendingEgld] = true := by decide +kernel

/-- liquid-staking/tests/delegate_test.rs:361-373 `liquid_staking_delegate_custom_amount_full_pending_test` -/
example : passes 400 [
    .deploy 101 1000000000000000000 1000000000000000000000 1500000000000000000000 0 0,
    .ok (.fund 11 10000000000000000000),
    .ok (.delegate 11 3000000000000000000),
    .ok (.delegatePending 1 (some 3000000000000000000))] = true := by decide +kernel

/-- liquid-staking/tests/delegate_test.rs:389-400 `liquid_staking_add_liquidity_not_enough_pending_egld_error_test` -/
example : passes 400 [
    .deploy 101 1000000000000000000 1000000000000000000000 1500000000000000000000 0 0,
    .ok (.fund 11 10000000000000000000),
    .fails (.delegate 11 100000000000000000) .insufficientPendingEgld] = true := by decide +kernel

/-- liquid-staking/tests/delegate_test.rs:402-437 `liquid_staking_add_liquidity_partial_pending_redemption_test` -/
example : passes 400 [
    .deploy 101 1000000000000000000 1000000000000000000000 1500000000000000000000 0 0,
    .ok (.fund 11 10000000000000000000),
    .ok (.delegate 11 5000000000000000000),
    .storage 6000000000000000000 6000000000000000000 0 0 5000000000000000000 0,
    .ok (.delegatePending 1 none),
    .storage 6000000000000000000 6000000000000000000 0 0 0 0,
    .ok (.unDelegate 11 0 [⟨500, 0, 2000000000000000000⟩]),
    .storage 4000000000000000000 4000000000000000000 0 0 0 2000000000000000000,
    .lsIs 11 3000000000000000000,
    .ok (.delegate 11 1500000000000000000),
    .pending 1000000000000000000,
    .withdrawn 500000000000000000,
    .lsIs 11 4500000000000000000] = true := by decide +kernel

/-- liquid-staking/tests/delegate_test.rs:439-463 `liquid_staking_add_liquidity_fallback_test` -/
example : passes 400 [
    .deploy 101 1000000000000000000 1000000000000000000000 1500000000000000000000 0 0,
    .ok (.fund 11 10000000000000000000),
    .ok (.delegate 11 5000000000000000000),
    .ok (.delegatePending 1 none),
    .storage 6000000000000000000 6000000000000000000 0 0 0 0,
    .ok (.unDelegate 11 0 [⟨500, 0, 1000000000000000000⟩]),
    .ok (.delegate 11 1500000000000000000),
    .pending 1500000000000000000] = true := by decide +kernel

/-- liquid-staking/tests/unDelegate_test.rs:19-46 `undelegate_can_fully_instant_redeem` -/
example : passes 400 [
    .deploy 101 1000000000000000000 1000000000000000000000 1500000000000000000000 0 0,
    .ok (.fund 11 100000000000000000000),
    .ok (.delegate 11 100000000000000000000),
    .storage 101000000000000000000 101000000000000000000 0 0 100000000000000000000 0,
    .ok (.unDelegate 11 0 [⟨500, 0, 90000000000000000000⟩]),
    .storage 11000000000000000000 11000000000000000000 0 0 10000000000000000000 0,
    .lsIs 11 10000000000000000000,
    .egldIs 11 90000000000000000000] = true := by decide +kernel

/-- liquid-staking/tests/unDelegate_test.rs:52-102 `undelegate_partially_instant_test` -/
example : passes 400 [
    .deploy 101 1000000000000000000 1000000000000000000000 1500000000000000000000 0 0,
    .ok (.fund 11 100000000000000000000),
    .ok (.fund 12 200000000000000000000),
    .ok (.delegate 11 100000000000000000000),
    .ok (.advance 50),
    .storage 101000000000000000000 101000000000000000000 0 0 100000000000000000000 0,
    .ok (.delegatePending 1 none),
    .ok (.delegate 12 90500000000000000000),
    .ok (.unDelegate 11 0 [⟨500, 0, 90000000000000000000⟩]),
    .pending 1500000000000000000,
    .toUnstake 1000000000000000000,
    .lsIs 11 10000000000000000000,
    .nftIs 11 1 1000000000000000000 (some ⟨50, 60⟩),
    .egldIs 11 89000000000000000000] = true := by decide +kernel

/-- liquid-staking/tests/unDelegate_test.rs:104-163 `clean_old_unbond_epochs_test` -/
example : passes 400 [
    .deploy 101 1000000000000000000 1000000000000000000000 1500000000000000000000 0 0,
    .ok (.fund 11 100000000000000000000),
    .ok (.fund 12 200000000000000000000),
    .ok (.delegate 11 100000000000000000000),
    .ok (.advance 50),
    .ok (.delegatePending 1 none),
    .ok (.delegate 12 90500000000000000000),
    .ok (.unDelegate 11 0 [⟨500, 0, 90000000000000000000⟩]),
    .pending 1500000000000000000,
    .toUnstake 1000000000000000000,
    .lsIs 11 10000000000000000000,
    .nftIs 11 1 1000000000000000000 (some ⟨50, 60⟩),
    .egldIs 11 89000000000000000000,
    .ok (.advance 51),
    .ok (.unDelegate 12 0 [⟨500, 0, 90500000000000000000⟩]),
    .nftIs 12 2 89000000000000000000 (some ⟨51, 61⟩)] = true := by decide +kernel

/-- liquid-staking/tests/unDelegate_test.rs:169-227 `calculate_partial_undelegate_fallback_test` -/
example : passes 400 [
    .deploy 101 1000000000000000000 1000000000000000000000 1500000000000000000000 0 0,
    .ok (.fund 11 100000000000000000000),
    .ok (.delegate 11 100000000000000000000),
    .ok (.advance 50),
    .storage 101000000000000000000 101000000000000000000 0 0 100000000000000000000 0,
    .ok (.delegatePending 1 none),
    .storage 101000000000000000000 101000000000000000000 0 0 0 0,
    .ok (.fund 12 2000000000000000000),
    .ok (.delegate 12 1500000000000000000),
    .pending 1500000000000000000,
    .ok (.unDelegate 11 0 [⟨500, 0, 2000000000000000000⟩]),
    .pending 1000000000000000000,
    .toUnstake 1500000000000000000,
    .lsIs 11 98000000000000000000,
    .nftIs 11 1 1500000000000000000 (some ⟨50, 60⟩),
    .egldIs 11 500000000000000000] = true := by decide +kernel

/-- liquid-staking/tests/unDelegate_test.rs:233-283 `undelegate_can_fully_pending_redeem` -/
example : passes 400 [
    .deploy 101 1000000000000000000 1000000000000000000000 1500000000000000000000 0 0,
    .deploy 102 1000000000000000000 1000000000000000000000 1500000000000000000000 0 0,
    .ok (.fund 11 100000000000000000000),
    .ok (.fund 12 30000000000000000000),
    .ok (.delegate 11 100000000000000000000),
    .ok (.advance 50),
    .ok (.delegatePending 1 none),
    .provIs 101 51000000000000000000 0,
    .provIs 102 51000000000000000000 0,
    .ok (.delegate 12 30000000000000000000),
    .ok (.unDelegate 11 0 [⟨500, 0, 90000000000000000000⟩]),
    .lsIs 11 10000000000000000000,
    .nftIs 11 1 60000000000000000000 (some ⟨50, 60⟩),
    .egldIs 11 30000000000000000000] = true := by decide +kernel

/-- liquid-staking/tests/unDelegate_test.rs:314-348 `undelegate_small_amount_error_test` -/
example : passes 400 [
    .deploy 101 1000000000000000000 1000000000000000000000 1500000000000000000000 0 0,
    .ok (.fund 11 2000000000000000000),
    .ok (.fund 12 2000000000000000000),
    .ok (.delegate 11 2000000000000000000),
    .ok (.advance 50),
    .ok (.delegatePending 1 none),
    .ok (.delegate 12 1200000000000000000),
    .fails (.unDelegate 11 0 [⟨500, 0, 300000000000000000⟩]) .insufficientUnstakePendingEgld] = true := by decide +kernel

/-- liquid-staking/tests/unDelegate_test.rs:350-369 `liquid_staking_un_delegate_custom_amount_under_min_pending_error_test` -/
example : passes 400 [
    .deploy 101 1000000000000000000 1000000000000000000000 1500000000000000000000 0 0,
    .ok (.fund 11 10000000000000000000),
    .ok (.delegate 11 3000000000000000000),
    .ok (.delegatePending 1 none),
    .ok (.unDelegate 11 0 [⟨500, 0, 3000000000000000000⟩]),
    .fails (.unDelegatePending 1 (some 500000000000000000)) .insufficientPendingEgld] = true := by decide +kernel

/-- liquid-staking/tests/unDelegate_test.rs:371-390 `liquid_staking_un_delegate_custom_amount_pending_error_test` -/
example : passes 400 [
    .deploy 101 1000000000000000000 1000000000000000000000 1500000000000000000000 0 0,
    .ok (.fund 11 10000000000000000000),
    .ok (.delegate 11 3000000000000000000),
    .ok (.delegatePending 1 none),
    .ok (.unDelegate 11 0 [⟨500, 0, 3000000000000000000⟩]),
    .fails (.unDelegatePending 1 (some 4000000000000000000)) .insufficientPendingEgld] = true := by decide +kernel

/-- liquid-staking/tests/unDelegate_test.rs:392-410 `liquid_staking_un_delegate_custom_amount_left_over_pending_error_test` -/
example : passes 400 [
    .deploy 101 1000000000000000000 1000000000000000000000 1500000000000000000000 0 0,
    .ok (.fund 11 10000000000000000000),
    .ok (.delegate 11 3000000000000000000),
    .ok (.delegatePending 1 none),
    .ok (.unDelegate 11 0 [⟨500, 0, 3000000000000000000⟩]),
    .fails (.unDelegatePending 1 (some 2500000000000000000)) .insufficientPendingEgld] = true := by decide +kernel

/-- liquid-staking/tests/unDelegate_test.rs:412-427 `liquid_staking_un_delegate_custom_amount_full_pending_test` -/
example : passes 400 [
    .deploy 101 1000000000000000000 1000000000000000000000 1500000000000000000000 0 0,
    .ok (.fund 11 10000000000000000000),
    .ok (.delegate 11 3000000000000000000),
    .ok (.delegatePending 1 none),
    .ok (.unDelegate 11 0 [⟨500, 0, 3000000000000000000⟩]),
    .ok (.unDelegatePending 1 (some 3000000000000000000))] = true := by decide +kernel

/-- liquid-staking/tests/unDelegate_test.rs:429-475 `undelegate_remaining_amount_distribution_test` -/
example : passes 400 [
    .deploy 101 1000000000000000000 1000000000000000000000 1200000000000000000000 4 8000,
    .deploy 102 1000000000000000000 1000000000000000000000 1050000000000000000000 5 9000,
    .ok (.fund 11 100000000000000000000),
    .ok (.delegate 11 100000000000000000000),
    .ok (.delegatePending 1 none),
    .ok (.unDelegate 11 0 [⟨500, 0, 98000000000000000000⟩]),
    .ok (.advance 50),
    .ok (.unDelegatePending 1 none),
    .nftIs 11 1 98000000000000000000 (some ⟨0, 10⟩)] = true := by decide +kernel

/-- liquid-staking/tests/unDelegate_test.rs:477-542 `undelegate_left_over_amount_condition_test` -/
example : passes 400 [
    .deploy 101 1000000000000000000 1000000000000000000000 1200000000000000000000 4 8000,
    .deploy 102 1000000000000000000 1000000000000000000000 1200000000000000000000 5 9000,
    .deploy 103 1000000000000000000 1000000000000000000000 1200000000000000000000 6 10000,
    .ok (.fund 11 153000000000000000000),
    .ok (.delegate 11 153000000000000000000),
    .ok (.delegatePending 1 none),
    .ok (.unDelegate 11 0 [⟨500, 0, 150000000000000000000⟩]),
    .ok (.advance 50),
    .ok (.unDelegatePending 1 none),
    .nftIs 11 1 150000000000000000000 (some ⟨0, 10⟩)] = true := by decide +kernel

/-- liquid-staking/tests/unDelegate_test.rs:544-599 `undelegate_left_over_min_egld_condition_test` -/
example : passes 400 [
    .deploy 101 1000000000000000000 1000000000000000000000 1200000000000000000000 4 12000,
    .deploy 102 1000000000000000000 1000000000000000000000 1200000000000000000000 5 8000,
    .deploy 103 1000000000000000000 1000000000000000000000 1200000000000000000000 6 10000,
    .ok (.fund 11 60000000000000000000),
    .ok (.delegate 11 60000000000000000000),
    .ok (.delegatePending 1 none),
    .ok (.unDelegate 11 0 [⟨500, 0, 57000000000000000000⟩]),
    .ok (.advance 50),
    .ok (.unDelegatePending 1 none)] = true := by decide +kernel

/-- liquid-staking/tests/unDelegate_test.rs:601-641 `undelegate_remaining_amount_over_provider_limit_test` -/
example : passes 400 [
    .deploy 101 1000000000000000000 1000000000000000000000 0 0 8000,
    .deploy 102 1000000000000000000 1000000000000000000000 0 1 8100,
    .deploy 103 1000000000000000000 1000000000000000000000 0 2 8200,
    .deploy 104 1000000000000000000 1000000000000000000000 0 3 8300,
    .deploy 105 1000000000000000000 1000000000000000000000 0 4 8400,
    .deploy 106 1000000000000000000 1000000000000000000000 0 5 8500,
    .deploy 107 1000000000000000000 1000000000000000000000 0 6 8600,
    .deploy 108 1000000000000000000 1000000000000000000000 0 7 8700,
    .deploy 109 1000000000000000000 1000000000000000000000 0 8 8800,
    .deploy 110 1000000000000000000 1000000000000000000000 0 9 8900,
    .deploy 111 1000000000000000000 1000000000000000000000 0 10 9000,
    .deploy 112 1000000000000000000 1000000000000000000000 0 11 9100,
    .deploy 113 1000000000000000000 1000000000000000000000 0 12 9200,
    .deploy 114 1000000000000000000 1000000000000000000000 0 13 9300,
    .deploy 115 1000000000000000000 1000000000000000000000 0 14 9400,
    .deploy 116 1000000000000000000 1000000000000000000000 0 15 9500,
    .deploy 117 1000000000000000000 1000000000000000000000 0 16 9600,
    .deploy 118 1000000000000000000 1000000000000000000000 0 17 9700,
    .deploy 119 1000000000000000000 1000000000000000000000 0 18 9800,
    .deploy 120 1000000000000000000 1000000000000000000000 0 19 9900,
    .deploy 121 1000000000000000000 1000000000000000000000 0 20 10000,
    .deploy 122 1000000000000000000 1000000000000000000000 0 21 10100,
    .deploy 123 1000000000000000000 1000000000000000000000 0 22 10200,
    .deploy 124 1000000000000000000 1000000000000000000000 0 23 10300,
    .deploy 125 1000000000000000000 1000000000000000000000 0 24 10400,
    .deploy 126 1000000000000000000 1000000000000000000000 0 25 10500,
    .deploy 127 1000000000000000000 1000000000000000000000 0 26 10600,
    .deploy 128 1000000000000000000 1000000000000000000000 0 27 10700,
    .deploy 129 1000000000000000000 1000000000000000000000 0 28 10800,
    .deploy 130 1000000000000000000 1000000000000000000000 0 29 10900,
    .deploy 131 1000000000000000000 1000000000000000000000 0 30 11000,
    .deploy 132 1000000000000000000 1000000000000000000000 0 31 11100,
    .deploy 133 1000000000000000000 1000000000000000000000 0 32 11200,
    .deploy 134 1000000000000000000 1000000000000000000000 0 33 11300,
    .deploy 135 1000000000000000000 1000000000000000000000 0 34 11400,
    .deploy 136 1000000000000000000 1000000000000000000000 0 35 11500,
    .deploy 137 1000000000000000000 1000000000000000000000 0 36 11600,
    .deploy 138 1000000000000000000 1000000000000000000000 0 37 11700,
    .deploy 139 1000000000000000000 1000000000000000000000 0 38 11800,
    .deploy 140 1000000000000000000 1000000000000000000000 0 39 11900,
    .deploy 141 1000000000000000000 1000000000000000000000 0 40 12000,
    .deploy 142 1000000000000000000 1000000000000000000000 0 41 12100,
    .deploy 143 1000000000000000000 1000000000000000000000 0 42 12200,
    .deploy 144 1000000000000000000 1000000000000000000000 0 43 12300,
    .deploy 145 1000000000000000000 1000000000000000000000 0 44 12400,
    .deploy 146 1000000000000000000 1000000000000000000000 0 45 12500,
    .deploy 147 1000000000000000000 1000000000000000000000 0 46 12600,
    .deploy 148 1000000000000000000 1000000000000000000000 0 47 12700,
    .deploy 149 1000000000000000000 1000000000000000000000 0 48 12800,
    .deploy 150 1000000000000000000 1000000000000000000000 0 49 12900,
    .deploy 151 1000000000000000000 1000000000000000000000 0 50 13000,
    .deploy 152 1000000000000000000 1000000000000000000000 0 51 13100,
    .deploy 153 1000000000000000000 1000000000000000000000 0 52 13200,
    .deploy 154 1000000000000000000 1000000000000000000000 0 53 13300,
    .deploy 155 1000000000000000000 1000000000000000000000 0 54 13400,
    .deploy 156 1000000000000000000 1000000000000000000000 0 55 13500,
    .deploy 157 1000000000000000000 1000000000000000000000 0 56 13600,
    .deploy 158 1000000000000000000 1000000000000000000000 0 57 13700,
    .deploy 159 1000000000000000000 1000000000000000000000 0 58 13800,
    .deploy 160 1000000000000000000 1000000000000000000000 0 59 13900,
    .ok (.fund 11 200000000000000000000000),
    .ok (.delegate 11 20000000000000000000000),
    .ok (.delegatePending 1 none),
    .ok (.delegate 11 20000000000000000000000),
    .ok (.delegatePending 1 none),
    .ok (.delegate 11 20000000000000000000000),
    .ok (.delegatePending 1 none),
    .ok (.delegate 11 20000000000000000000000),
    .ok (.delegatePending 1 none),
    .ok (.delegate 11 20000000000000000000000),
    .ok (.delegatePending 1 none),
    .ok (.unDelegate 11 0 [⟨500, 0, 50000000000000000000000⟩]),
    .ok (.advance 50),
    .ok (.unDelegatePending 1 none)] = true := by decide +kernel

/-- liquid-staking/tests/unDelegate_test.rs:643-666 `delegate_remaining_amount_over_provider_limit_test` -/
example : passes 400 [
    .deploy 101 1000000000000000000 0 100000000000000000000 1 9000,
    .deploy 102 1000000000000000000 0 100000000000000000000 1 9000,
    .deploy 103 1000000000000000000 0 100000000000000000000 1 9000,
    .deploy 104 1000000000000000000 0 100000000000000000000 1 9000,
    .deploy 105 1000000000000000000 0 100000000000000000000 1 9000,
    .deploy 106 1000000000000000000 0 100000000000000000000 1 9000,
    .deploy 107 1000000000000000000 0 100000000000000000000 1 9000,
    .deploy 108 1000000000000000000 0 100000000000000000000 1 9000,
    .deploy 109 1000000000000000000 0 100000000000000000000 1 9000,
    .deploy 110 1000000000000000000 0 100000000000000000000 1 9000,
    .deploy 111 1000000000000000000 0 100000000000000000000 1 9000,
    .deploy 112 1000000000000000000 0 100000000000000000000 1 9000,
    .deploy 113 1000000000000000000 0 100000000000000000000 1 9000,
    .deploy 114 1000000000000000000 0 100000000000000000000 1 9000,
    .deploy 115 1000000000000000000 0 100000000000000000000 1 9000,
    .deploy 116 1000000000000000000 0 100000000000000000000 1 9000,
    .deploy 117 1000000000000000000 0 100000000000000000000 1 9000,
    .deploy 118 1000000000000000000 0 100000000000000000000 1 9000,
    .deploy 119 1000000000000000000 0 100000000000000000000 1 9000,
    .deploy 120 1000000000000000000 0 100000000000000000000 1 9000,
    .deploy 121 1000000000000000000 0 100000000000000000000 1 9000,
    .deploy 122 1000000000000000000 0 100000000000000000000 1 9000,
    .deploy 123 1000000000000000000 0 100000000000000000000 1 9000,
    .deploy 124 1000000000000000000 0 100000000000000000000 1 9000,
    .deploy 125 1000000000000000000 0 100000000000000000000 1 9000,
    .deploy 126 1000000000000000000 0 100000000000000000000 1 9000,
    .deploy 127 1000000000000000000 0 100000000000000000000 1 9000,
    .deploy 128 1000000000000000000 0 100000000000000000000 1 9000,
    .deploy 129 1000000000000000000 0 100000000000000000000 1 9000,
    .deploy 130 1000000000000000000 0 100000000000000000000 1 9000,
    .deploy 131 1000000000000000000 0 100000000000000000000 1 9000,
    .deploy 132 1000000000000000000 0 100000000000000000000 1 9000,
    .deploy 133 1000000000000000000 0 100000000000000000000 1 9000,
    .deploy 134 1000000000000000000 0 100000000000000000000 1 9000,
    .deploy 135 1000000000000000000 0 100000000000000000000 1 9000,
    .deploy 136 1000000000000000000 0 100000000000000000000 1 9000,
    .deploy 137 1000000000000000000 0 100000000000000000000 1 9000,
    .deploy 138 1000000000000000000 0 100000000000000000000 1 9000,
    .deploy 139 1000000000000000000 0 100000000000000000000 1 9000,
    .deploy 140 1000000000000000000 0 100000000000000000000 1 9000,
    .deploy 141 1000000000000000000 0 100000000000000000000 1 9000,
    .deploy 142 1000000000000000000 0 100000000000000000000 1 9000,
    .deploy 143 1000000000000000000 0 100000000000000000000 1 9000,
    .deploy 144 1000000000000000000 0 100000000000000000000 1 9000,
    .deploy 145 1000000000000000000 0 100000000000000000000 1 9000,
    .deploy 146 1000000000000000000 0 100000000000000000000 1 9000,
    .deploy 147 1000000000000000000 0 100000000000000000000 1 9000,
    .deploy 148 1000000000000000000 0 100000000000000000000 1 9000,
    .deploy 149 1000000000000000000 0 100000000000000000000 1 9000,
    .deploy 150 1000000000000000000 0 100000000000000000000 1 9000,
    .deploy 151 1000000000000000000 0 100000000000000000000 1 9000,
    .deploy 152 1000000000000000000 0 10000000000000000000 1 9000,
    .deploy 153 1000000000000000000 0 10000000000000000000 1 9000,
    .deploy 154 1000000000000000000 0 10000000000000000000 1 9000,
    .deploy 155 1000000000000000000 0 10000000000000000000 1 9000,
    .deploy 156 1000000000000000000 0 10000000000000000000 1 9000,
    .deploy 157 1000000000000000000 0 10000000000000000000 1 9000,
    .deploy 158 1000000000000000000 0 10000000000000000000 1 9000,
    .deploy 159 1000000000000000000 0 10000000000000000000 1 9000,
    .deploy 160 1000000000000000000 0 10000000000000000000 1 9000,
    .ok (.fund 11 5000000000000000000000000),
    .ok (.delegate 11 2500000000000000000000000),
    .ok (.delegatePending 1 none)] = true := by decide +kernel

/-- liquid-staking/tests/unDelegate_test.rs:668-707 `full_un_delegate_test` -/
example : passes 400 [
    .deploy 101 1000000000000000000 0 0 42 985,
    .deploy 102 1000000000000000000 0 0 20 702,
    .deploy 103 1000000000000000000 0 0 84 524,
    .deploy 104 1000000000000000000 0 0 10 920,
    .deploy 105 1000000000000000000 0 0 69 548,
    .deploy 106 1000000000000000000 0 0 47 798,
    .deploy 107 1000000000000000000 0 0 8 965,
    .deploy 108 1000000000000000000 0 0 65 609,
    .deploy 109 1000000000000000000 0 0 5 544,
    .deploy 110 1000000000000000000 0 0 56 714,
    .deploy 111 1000000000000000000 0 0 9 623,
    .deploy 112 1000000000000000000 0 0 12 782,
    .deploy 113 1000000000000000000 0 0 55 530,
    .deploy 114 1000000000000000000 0 0 73 563,
    .deploy 115 1000000000000000000 0 0 29 822,
    .deploy 116 1000000000000000000 0 0 81 798,
    .deploy 117 1000000000000000000 0 0 8 795,
    .deploy 118 1000000000000000000 0 0 75 703,
    .deploy 119 1000000000000000000 0 0 7 999,
    .deploy 120 1000000000000000000 0 0 29 523,
    .deploy 121 1000000000000000000 0 0 72 939,
    .deploy 122 1000000000000000000 0 0 18 648,
    .deploy 123 1000000000000000000 0 0 54 573,
    .deploy 124 1000000000000000000 0 0 70 560,
    .deploy 125 1000000000000000000 0 0 74 657,
    .deploy 126 1000000000000000000 0 0 72 917,
    .deploy 127 1000000000000000000 0 0 88 592,
    .deploy 128 1000000000000000000 0 0 14 797,
    .deploy 129 1000000000000000000 0 0 74 827,
    .deploy 130 1000000000000000000 0 0 25 690,
    .deploy 131 1000000000000000000 0 0 13 780,
    .deploy 132 1000000000000000000 0 0 92 532,
    .deploy 133 1000000000000000000 0 0 73 530,
    .deploy 134 1000000000000000000 0 0 80 605,
    .deploy 135 1000000000000000000 0 0 64 848,
    .deploy 136 1000000000000000000 0 0 69 718,
    .deploy 137 1000000000000000000 0 0 100 660,
    .deploy 138 1000000000000000000 0 0 60 799,
    .deploy 139 1000000000000000000 0 0 59 685,
    .deploy 140 1000000000000000000 0 0 39 627,
    .deploy 141 1000000000000000000 0 0 24 857,
    .deploy 142 1000000000000000000 0 0 100 624,
    .deploy 143 1000000000000000000 0 0 11 794,
    .deploy 144 1000000000000000000 0 0 39 768,
    .deploy 145 1000000000000000000 0 0 64 948,
    .deploy 146 1000000000000000000 0 0 44 873,
    .deploy 147 1000000000000000000 0 0 58 647,
    .deploy 148 1000000000000000000 0 0 78 537,
    .deploy 149 1000000000000000000 0 0 16 762,
    .deploy 150 1000000000000000000 0 0 54 584,
    .deploy 151 1000000000000000000 0 0 97 675,
    .deploy 152 1000000000000000000 0 0 20 977,
    .deploy 153 1000000000000000000 0 0 63 715,
    .deploy 154 1000000000000000000 0 0 6 992,
    .deploy 155 1000000000000000000 0 0 86 539,
    .deploy 156 1000000000000000000 0 0 98 785,
    .deploy 157 1000000000000000000 0 0 74 904,
    .deploy 158 1000000000000000000 0 0 41 674,
    .deploy 159 1000000000000000000 0 0 89 679,
    .deploy 160 1000000000000000000 0 0 77 754,
    .ok (.fund 11 60000000000000000000000),
    .ok (.delegate 11 20000000000000000000000),
    .ok (.delegatePending 1 none),
    .ok (.delegate 11 20000000000000000000000),
    .ok (.delegatePending 1 none),
    .ok (.delegate 11 20000000000000000000000),
    .ok (.delegatePending 1 none),
    .ok (.unDelegate 11 0 [⟨500, 0, 60000000000000000000000⟩]),
    .ok (.unDelegatePending 1 none),
    .ok (.unDelegatePending 1 none),
    .ok (.unDelegatePending 1 none),
    .toUnstake 0] = true := by decide +kernel

/-- liquid-staking/tests/unDelegate_test.rs:709-758 `test_scoring_config_distribution` -/
example : passes 400 [
    .deploy 101 1000000000000000000 0 0 42 985,
    .deploy 102 1000000000000000000 0 0 20 702,
    .deploy 103 1000000000000000000 0 0 84 524,
    .deploy 104 1000000000000000000 0 0 10 920,
    .deploy 105 1000000000000000000 0 0 69 548,
    .deploy 106 1000000000000000000 0 0 47 798,
    .deploy 107 1000000000000000000 0 0 8 965,
    .deploy 108 1000000000000000000 0 0 65 609,
    .deploy 109 1000000000000000000 0 0 5 544,
    .deploy 110 1000000000000000000 0 0 56 714,
    .deploy 111 1000000000000000000 0 0 9 623,
    .deploy 112 1000000000000000000 0 0 12 782,
    .deploy 113 1000000000000000000 0 0 55 530,
    .deploy 114 1000000000000000000 0 0 73 563,
    .deploy 115 1000000000000000000 0 0 29 822,
    .deploy 116 1000000000000000000 0 0 81 798,
    .deploy 117 1000000000000000000 0 0 8 795,
    .deploy 118 1000000000000000000 0 0 75 703,
    .deploy 119 1000000000000000000 0 0 7 999,
    .deploy 120 1000000000000000000 0 0 29 523,
    .deploy 121 1000000000000000000 0 0 72 939,
    .deploy 122 1000000000000000000 0 0 18 648,
    .deploy 123 1000000000000000000 0 0 54 573,
    .deploy 124 1000000000000000000 0 0 70 560,
    .deploy 125 1000000000000000000 0 0 74 657,
    .deploy 126 1000000000000000000 0 0 72 917,
    .deploy 127 1000000000000000000 0 0 88 592,
    .deploy 128 1000000000000000000 0 0 14 797,
    .deploy 129 1000000000000000000 0 0 74 827,
    .deploy 130 1000000000000000000 0 0 25 690,
    .deploy 131 1000000000000000000 0 0 13 780,
    .deploy 132 1000000000000000000 0 0 92 532,
    .deploy 133 1000000000000000000 0 0 73 530,
    .deploy 134 1000000000000000000 0 0 80 605,
    .deploy 135 1000000000000000000 0 0 64 848,
    .deploy 136 1000000000000000000 0 0 69 718,
    .deploy 137 1000000000000000000 0 0 100 660,
    .deploy 138 1000000000000000000 0 0 60 799,
    .deploy 139 1000000000000000000 0 0 59 685,
    .deploy 140 1000000000000000000 0 0 39 627,
    .deploy 141 1000000000000000000 0 0 24 857,
    .deploy 142 1000000000000000000 0 0 100 624,
    .deploy 143 1000000000000000000 0 0 11 794,
    .deploy 144 1000000000000000000 0 0 39 768,
    .deploy 145 1000000000000000000 0 0 64 948,
    .deploy 146 1000000000000000000 0 0 44 873,
    .deploy 147 1000000000000000000 0 0 58 647,
    .deploy 148 1000000000000000000 0 0 78 537,
    .deploy 149 1000000000000000000 0 0 16 762,
    .deploy 150 1000000000000000000 0 0 54 584,
    .deploy 151 1000000000000000000 0 0 97 675,
    .deploy 152 1000000000000000000 0 0 20 977,
    .deploy 153 1000000000000000000 0 0 63 715,
    .deploy 154 1000000000000000000 0 0 6 992,
    .deploy 155 1000000000000000000 0 0 86 539,
    .deploy 156 1000000000000000000 0 0 98 785,
    .deploy 157 1000000000000000000 0 0 74 904,
    .deploy 158 1000000000000000000 0 0 41 674,
    .deploy 159 1000000000000000000 0 0 89 679,
    .deploy 160 1000000000000000000 0 0 77 754,
    .ok (.fund 11 120000000000000000000000),
    .ok (.delegate 11 20000000000000000000000),
    .ok (.delegatePending 1 none),
    .ok (.delegate 11 20000000000000000000000),
    .ok (.delegatePending 1 none),
    .ok (.delegate 11 20000000000000000000000),
    .ok (.delegatePending 1 none),
    .deploy 161 1000000000000000000 0 0 75 908,
    .deploy 162 1000000000000000000 0 0 59 535,
    .deploy 163 1000000000000000000 0 0 12 983,
    .deploy 164 1000000000000000000 0 0 35 742,
    .deploy 165 1000000000000000000 0 0 90 840,
    .deploy 166 1000000000000000000 0 0 9 531,
    .deploy 167 1000000000000000000 0 0 94 859,
    .deploy 168 1000000000000000000 0 0 40 831,
    .deploy 169 1000000000000000000 0 0 74 848,
    .deploy 170 1000000000000000000 0 0 58 645,
    .ok (.delegate 11 20000000000000000000000),
    .ok (.delegatePending 1 none),
    .ok (.delegate 11 20000000000000000000000),
    .ok (.delegatePending 1 none),
    .ok (.delegate 11 20000000000000000000000),
    .ok (.delegatePending 1 none)] = true := by decide +kernel

/-- liquid-staking/tests/unDelegate_test.rs:760-799 `full_small_first_amount_un_delegate_test` -/
example : passes 400 [
    .deploy 101 1000000000000000000 0 0 42 985,
    .deploy 102 1000000000000000000 0 0 20 702,
    .deploy 103 1000000000000000000 0 0 84 524,
    .deploy 104 1000000000000000000 0 0 10 920,
    .deploy 105 1000000000000000000 0 0 69 548,
    .deploy 106 1000000000000000000 0 0 47 798,
    .deploy 107 1000000000000000000 0 0 8 965,
    .deploy 108 1000000000000000000 0 0 65 609,
    .deploy 109 1000000000000000000 0 0 5 544,
    .deploy 110 1000000000000000000 0 0 56 714,
    .deploy 111 1000000000000000000 0 0 9 623,
    .deploy 112 1000000000000000000 0 0 12 782,
    .deploy 113 1000000000000000000 0 0 55 530,
    .deploy 114 1000000000000000000 0 0 73 563,
    .deploy 115 1000000000000000000 0 0 29 822,
    .deploy 116 1000000000000000000 0 0 81 798,
    .deploy 117 1000000000000000000 0 0 8 795,
    .deploy 118 1000000000000000000 0 0 75 703,
    .deploy 119 1000000000000000000 0 0 7 999,
    .deploy 120 1000000000000000000 0 0 29 523,
    .deploy 121 1000000000000000000 0 0 72 939,
    .deploy 122 1000000000000000000 0 0 18 648,
    .deploy 123 1000000000000000000 0 0 54 573,
    .deploy 124 1000000000000000000 0 0 70 560,
    .deploy 125 1000000000000000000 0 0 74 657,
    .deploy 126 1000000000000000000 0 0 72 917,
    .deploy 127 1000000000000000000 0 0 88 592,
    .deploy 128 1000000000000000000 0 0 14 797,
    .deploy 129 1000000000000000000 0 0 74 827,
    .deploy 130 1000000000000000000 0 0 25 690,
    .deploy 131 1000000000000000000 0 0 13 780,
    .deploy 132 1000000000000000000 0 0 92 532,
    .deploy 133 1000000000000000000 0 0 73 530,
    .deploy 134 1000000000000000000 0 0 80 605,
    .deploy 135 1000000000000000000 0 0 64 848,
    .deploy 136 1000000000000000000 0 0 69 718,
    .deploy 137 1000000000000000000 0 0 100 660,
    .deploy 138 1000000000000000000 0 0 60 799,
    .deploy 139 1000000000000000000 0 0 59 685,
    .deploy 140 1000000000000000000 0 0 39 627,
    .deploy 141 1000000000000000000 0 0 24 857,
    .deploy 142 1000000000000000000 0 0 100 624,
    .deploy 143 1000000000000000000 0 0 11 794,
    .deploy 144 1000000000000000000 0 0 39 768,
    .deploy 145 1000000000000000000 0 0 64 948,
    .deploy 146 1000000000000000000 0 0 44 873,
    .deploy 147 1000000000000000000 0 0 58 647,
    .deploy 148 1000000000000000000 0 0 78 537,
    .deploy 149 1000000000000000000 0 0 16 762,
    .deploy 150 1000000000000000000 0 0 54 584,
    .deploy 151 1000000000000000000 0 0 97 675,
    .deploy 152 1000000000000000000 0 0 20 977,
    .deploy 153 1000000000000000000 0 0 63 715,
    .deploy 154 1000000000000000000 0 0 6 992,
    .deploy 155 1000000000000000000 0 0 86 539,
    .deploy 156 1000000000000000000 0 0 98 785,
    .deploy 157 1000000000000000000 0 0 74 904,
    .deploy 158 1000000000000000000 0 0 41 674,
    .deploy 159 1000000000000000000 0 0 89 679,
    .deploy 160 1000000000000000000 0 0 77 754,
    .ok (.fund 11 20000000000000000000),
    .ok (.delegate 11 5000000000000000000),
    .ok (.delegatePending 1 none),
    .ok (.delegate 11 1000000000000000000),
    .ok (.delegatePending 1 none),
    .ok (.unDelegate 11 0 [⟨500, 0, 1700000000000000000⟩]),
    .ok (.unDelegatePending 1 none),
    .ok (.unDelegate 11 0 [⟨500, 0, 1000000000000000000⟩]),
    .ok (.unDelegatePending 1 none),
    .ok (.unDelegate 11 0 [⟨500, 0, 1000000000000000000⟩]),
    .ok (.unDelegatePending 1 none),
    .toUnstake 0] = true := by decide +kernel

/-- liquid-staking/tests/unDelegate_test.rs:801-840 `full_over_2_first_amount_un_delegate_test` -/
example : passes 400 [
    .deploy 101 1000000000000000000 0 0 42 985,
    .deploy 102 1000000000000000000 0 0 20 702,
    .deploy 103 1000000000000000000 0 0 84 524,
    .deploy 104 1000000000000000000 0 0 10 920,
    .deploy 105 1000000000000000000 0 0 69 548,
    .deploy 106 1000000000000000000 0 0 47 798,
    .deploy 107 1000000000000000000 0 0 8 965,
    .deploy 108 1000000000000000000 0 0 65 609,
    .deploy 109 1000000000000000000 0 0 5 544,
    .deploy 110 1000000000000000000 0 0 56 714,
    .deploy 111 1000000000000000000 0 0 9 623,
    .deploy 112 1000000000000000000 0 0 12 782,
    .deploy 113 1000000000000000000 0 0 55 530,
    .deploy 114 1000000000000000000 0 0 73 563,
    .deploy 115 1000000000000000000 0 0 29 822,
    .deploy 116 1000000000000000000 0 0 81 798,
    .deploy 117 1000000000000000000 0 0 8 795,
    .deploy 118 1000000000000000000 0 0 75 703,
    .deploy 119 1000000000000000000 0 0 7 999,
    .deploy 120 1000000000000000000 0 0 29 523,
    .deploy 121 1000000000000000000 0 0 72 939,
    .deploy 122 1000000000000000000 0 0 18 648,
    .deploy 123 1000000000000000000 0 0 54 573,
    .deploy 124 1000000000000000000 0 0 70 560,
    .deploy 125 1000000000000000000 0 0 74 657,
    .deploy 126 1000000000000000000 0 0 72 917,
    .deploy 127 1000000000000000000 0 0 88 592,
    .deploy 128 1000000000000000000 0 0 14 797,
    .deploy 129 1000000000000000000 0 0 74 827,
    .deploy 130 1000000000000000000 0 0 25 690,
    .deploy 131 1000000000000000000 0 0 13 780,
    .deploy 132 1000000000000000000 0 0 92 532,
    .deploy 133 1000000000000000000 0 0 73 530,
    .deploy 134 1000000000000000000 0 0 80 605,
    .deploy 135 1000000000000000000 0 0 64 848,
    .deploy 136 1000000000000000000 0 0 69 718,
    .deploy 137 1000000000000000000 0 0 100 660,
    .deploy 138 1000000000000000000 0 0 60 799,
    .deploy 139 1000000000000000000 0 0 59 685,
    .deploy 140 1000000000000000000 0 0 39 627,
    .deploy 141 1000000000000000000 0 0 24 857,
    .deploy 142 1000000000000000000 0 0 100 624,
    .deploy 143 1000000000000000000 0 0 11 794,
    .deploy 144 1000000000000000000 0 0 39 768,
    .deploy 145 1000000000000000000 0 0 64 948,
    .deploy 146 1000000000000000000 0 0 44 873,
    .deploy 147 1000000000000000000 0 0 58 647,
    .deploy 148 1000000000000000000 0 0 78 537,
    .deploy 149 1000000000000000000 0 0 16 762,
    .deploy 150 1000000000000000000 0 0 54 584,
    .deploy 151 1000000000000000000 0 0 97 675,
    .deploy 152 1000000000000000000 0 0 20 977,
    .deploy 153 1000000000000000000 0 0 63 715,
    .deploy 154 1000000000000000000 0 0 6 992,
    .deploy 155 1000000000000000000 0 0 86 539,
    .deploy 156 1000000000000000000 0 0 98 785,
    .deploy 157 1000000000000000000 0 0 74 904,
    .deploy 158 1000000000000000000 0 0 41 674,
    .deploy 159 1000000000000000000 0 0 89 679,
    .deploy 160 1000000000000000000 0 0 77 754,
    .ok (.fund 11 20000000000000000000),
    .ok (.delegate 11 2100000000000000000),
    .ok (.delegatePending 1 none),
    .ok (.unDelegate 11 0 [⟨500, 0, 2100000000000000000⟩]),
    .ok (.unDelegatePending 1 none),
    .nftIs 11 1 2100000000000000000 (some ⟨0, 10⟩),
    .toUnstake 0] = true := by decide +kernel

/-- liquid-staking/tests/unbond_test.rs:20-81 `liquid_staking_unbond_success_test` -/
example : passes 400 [
    .deploy 101 1000000000000000000 1000000000000000000000 1500000000000000000000 0 0,
    .ok (.fund 11 100000000000000000000),
    .ok (.delegate 11 100000000000000000000),
    .ok (.delegatePending 1 none),
    .ok (.advance 50),
    .ok (.unDelegate 11 0 [⟨500, 0, 90000000000000000000⟩]),
    .nftIs 11 1 90000000000000000000 (some ⟨50, 60⟩),
    .storage 11000000000000000000 11000000000000000000 0 0 0 90000000000000000000,
    .ok (.unDelegatePending 1 none),
    .storage 11000000000000000000 11000000000000000000 0 0 0 0,
    .provIs 101 11000000000000000000 90000000000000000000,
    .ok (.advance 61),
    .ok (.withdrawPending 1 101),
    .provIs 101 11000000000000000000 0,
    .storage 11000000000000000000 11000000000000000000 0 90000000000000000000 0 0,
    .ok (.withdraw 11 0 [⟨501, 1, 90000000000000000000⟩]),
    .egldIs 11 90000000000000000000,
    .nftIs 11 1 0 none,
    .storage 11000000000000000000 11000000000000000000 0 0 0 0] = true := by decide +kernel

/-- liquid-staking/tests/unbond_test.rs:83-121 `liquid_staking_unbond_error_epoch_too_soon_test` -/
example : passes 400 [
    .deploy 101 1000000000000000000 1000000000000000000000 1500000000000000000000 0 0,
    .ok (.fund 11 100000000000000000000),
    .ok (.delegate 11 100000000000000000000),
    .ok (.delegatePending 1 none),
    .ok (.advance 50),
    .ok (.unDelegate 11 0 [⟨500, 0, 90000000000000000000⟩]),
    .ok (.unDelegatePending 1 none),
    .ok (.advance 55),
    .ok (.withdrawPending 1 101),
    .fails (.withdraw 11 0 [⟨501, 1, 90000000000000000000⟩]) .unstakePeriodNotPassed] = true := by decide +kernel

/-- liquid-staking/tests/unbond_test.rs:123-158 `liquid_staking_unbond_error_epoch_no_withdraw_pending_test` -/
example : passes 400 [
    .deploy 101 1000000000000000000 1000000000000000000000 1500000000000000000000 0 0,
    .ok (.fund 11 100000000000000000000),
    .ok (.delegate 11 100000000000000000000),
    .ok (.delegatePending 1 none),
    .ok (.advance 50),
    .ok (.unDelegate 11 0 [⟨500, 0, 90000000000000000000⟩]),
    .ok (.unDelegatePending 1 none),
    .ok (.advance 60),
    .fails (.withdraw 11 0 [⟨501, 1, 90000000000000000000⟩]) .insufficientUnbondedAmount] = true := by decide +kernel

/-- liquid-staking/tests/unbond_test.rs:160-220 `liquid_staking_unbond_partial_withdraw_pending_test` -/
example : passes 400 [
    .deploy 101 1000000000000000000 1000000000000000000000 1500000000000000000000 0 0,
    .ok (.fund 11 40000000000000000000),
    .ok (.fund 12 100000000000000000000),
    .ok (.delegate 11 40000000000000000000),
    .ok (.delegate 12 100000000000000000000),
    .ok (.delegatePending 1 none),
    .ok (.advance 50),
    .ok (.unDelegate 11 0 [⟨500, 0, 40000000000000000000⟩]),
    .ok (.unDelegatePending 1 none),
    .ok (.advance 51),
    .ok (.unDelegate 12 0 [⟨500, 0, 90000000000000000000⟩]),
    .ok (.advance 60),
    .ok (.withdrawPending 1 101),
    .ok (.advance 61),
    .ok (.withdraw 12 0 [⟨501, 2, 90000000000000000000⟩]),
    .nftIs 12 2 50000000000000000000 (some ⟨51, 61⟩),
    .fails (.withdraw 11 0 [⟨501, 1, 40000000000000000000⟩]) .insufficientUnbondedAmount] = true := by decide +kernel

/-- liquid-staking/tests/unbond_test.rs:222-256 `liquid_staking_unbond_error_not_active_test` -/
example : passes 400 [
    .deploy 101 1000000000000000000 1000000000000000000000 1500000000000000000000 0 0,
    .ok (.fund 11 100000000000000000000),
    .ok (.delegate 11 100000000000000000000),
    .ok (.delegatePending 1 none),
    .ok (.advance 50),
    .ok (.unDelegate 11 0 [⟨500, 0, 90000000000000000000⟩]),
    .ok (.unDelegatePending 1 none),
    .ok (.advance 60),
    .ok (.withdrawPending 1 101),
    .ok (.owner 1 .stateInactive),
    .fails (.withdraw 11 0 [⟨501, 1, 90000000000000000000⟩]) .notActive] = true := by decide +kernel

/-- liquid-staking/tests/unbond_test.rs:258-296 `liquid_staking_unbond_error_not_amount_sent_test` -/
example : passes 400 [
    .deploy 101 1000000000000000000 1000000000000000000000 1500000000000000000000 0 0,
    .ok (.fund 11 100000000000000000000),
    .ok (.delegate 11 100000000000000000000),
    .ok (.delegatePending 1 none),
    .ok (.advance 50),
    .ok (.unDelegate 11 0 [⟨500, 0, 90000000000000000000⟩]),
    .ok (.unDelegatePending 1 none),
    .ok (.advance 60),
    .ok (.withdrawPending 1 101),
    .fails (.withdraw 11 0 [⟨501, 1, 0⟩]) .badPaymentAmount] = true := by decide +kernel

/-- liquid-staking/tests/unbond_test.rs:298-334 `liquid_staking_unbond_error_bad_token_test` -/
example : passes 400 [
    .deploy 101 1000000000000000000 1000000000000000000000 1500000000000000000000 0 0,
    .ok (.fund 11 100000000000000000000),
    .ok (.delegate 11 100000000000000000000),
    .ok (.delegatePending 1 none),
    .ok (.advance 50),
    .ok (.unDelegate 11 0 [⟨500, 0, 90000000000000000000⟩]),
    .ok (.unDelegatePending 1 none),
    .ok (.advance 60),
    .ok (.withdrawPending 1 101),
    .fails (.withdraw 11 0 [⟨666, 0, 100000000000000000000⟩]) .badPaymentToken] = true := by decide +kernel

end LS.Replay
