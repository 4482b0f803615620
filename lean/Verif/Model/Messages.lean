import Verif.Model.Step

/-! The messages of refusals: liquid-staking/src/errors/mod.rs. -/

namespace LS

/-- The text given with an error, liquid-staking/src/errors/mod.rs:1-51; `none` for those signalled by the framework or the VM, whose
texts are not part of the repository.  Messages that no line of the contract uses (ERROR_CLAIM_START, ERROR_OLD_CLAIM_START,
ERROR_RECOMPUTE_RESERVES, ERROR_CLAIM_EPOCH, ERROR_INSUFFICIENT_UNSTAKE_AMOUNT, ERROR_FIRST_DELEGATION_NODE,
ERROR_MINIMUM_ROUNDS_NOT_PASSED) have no error in the model. -/
def text : Err → Option String
  | .notActive => some "Not active"
  | .lsTokenNotIssued => some "LS token not issued"
  | .unstakePeriodNotPassed => some "The unstake period has not passed"
  | .badPaymentToken => some "Bad payment token"
  | .badPaymentAmount => some "Insufficient delegated amount"
  | .insufficientPendingEgld => some "Insufficient pending EGLD"
  | .insufficientUnstakePendingEgld => some "Insufficient unstake pending EGLD"
  | .insufficientUnbondedAmount => some "Insufficient incoming withdraw amount"
  | .insufficientLiquidity => some "Insufficient liquidity minted"
  | .insufficientLiqBurned => some "Insufficient liquidity burned"
  | .notEnoughLp => some "Not enough LP token supply"
  | .badDelegationAddress => some "No delegation contract available"
  | .noDelegationContracts => some "There are no delegation contracts whitelisted"
  | .alreadyWhitelisted => some "Delegation contract already whitelisted"
  | .notWhitelisted => some "Delegation contract is not whitelisted"
  | .delegationCap => some "Delegation cap must be higher than the total staked amount"
  | .onlyDelegationAdmin => some "Only the admin of the delegation contract can change the status"
  | .maxDelegationAddresses => some "Maximum number of delegation addresses reached"
  | .maxUnDelegationAddresses => some "Maximum number of un delegation addresses reached"
  | .maxSelectedProviders => some "Max selected providers must be greater than 0"
  | .maxChangedDelegationAddresses => some "Max delegation addresses must be greater than 0"
  | .minEgldToDelegate => some "Minimum EGLD to delegate must be greater than 1 EGLD"
  | .migrationScNotSet => some "Migration SC not set"
  | .migrationNotAllowed => some "Migration not allowed"
  | .notManager => some "Caller is not authorized as a manager"
  | .scoringConfigNotSet => some "Scoring configuration not set"
  | .weightsMustSumTo100 => some "Weights must sum to 100"
  | .insufficientFeesReserve => some "Insufficient fees reserve"
  | .notPayable | .negativeSub | .divByZero | .unwrapNone | .decode | .onlyOwner | .invalidTokenId | .insufficientFunds
  | .badEsdtCount | .badValue | .nftNotOwned | .callerIsSelf | .tokenAlreadySet | .calleeFailed | .noSuchFlight | .badEpoch => none

end LS
