{
 "claims": [
  {
   "property": "C01",
   "status": "proved",
   "theorems": [
    "LS.C01_delegate_mints_pro_rata"
   ],
   "note": ""
  },
  {
   "property": "C02",
   "status": "proved",
   "theorems": [
    "LS.C02_unDelegate_pays_pro_rata"
   ],
   "note": ""
  },
  {
   "property": "C03",
   "status": "proved",
   "theorems": [
    "LS.C03_rate_never_falls",
    "LS.C03_quote_never_falls"
   ],
   "note": ""
  },
  {
   "property": "C04",
   "status": "proved",
   "theorems": [
    "LS.C04_round_trip"
   ],
   "note": ""
  },
  {
   "property": "C05",
   "status": "proved",
   "theorems": [
    "LS.C05_supply_is_total",
    "LS.C05_unburnt"
   ],
   "note": ""
  },
  {
   "property": "C06",
   "status": "proved",
   "theorems": [
    "LS.C06_reserve_positive"
   ],
   "note": ""
  },
  {
   "property": "C07",
   "status": "proved",
   "theorems": [
    "LS.C07_unstake_tokens_covered"
   ],
   "note": ""
  },
  {
   "property": "C08",
   "status": "proved",
   "theorems": [
    "LS.C08_reserve_backed",
    "LS.C08_reserve_backed_no_migration"
   ],
   "note": ""
  },
  {
   "property": "C09",
   "status": "proved",
   "theorems": [
    "LS.C09_solvent",
    "LS.C09_no_shortfall"
   ],
   "note": ""
  },
  {
   "property": "C10",
   "status": "proved",
   "theorems": [
    "LS.C10_only_matured",
    "LS.C10_immature_fails"
   ],
   "note": ""
  },
  {
   "property": "C100",
   "status": "partial",
   "theorems": [
    "LS.C100_requests_partial",
    "LS.C100_answers_partial",
    "LS.C100_count",
    "LS.C100_deploys",
    "LS.C100_record",
    "LS.C100_stale",
    "LS.C100_missing",
    "LS.C100_false"
   ],
   "note": "False of the code: two stale methods, two endpoints without a method, and a record type that lacks two fields. Everything else is proved."
  },
  {
   "property": "C101",
   "status": "proved",
   "theorems": [
    "LS.C101_read",
    "LS.C101_distinct",
    "LS.C101_pool"
   ],
   "note": "The reader is written separately from the encoder. Block number, time and the bytes of the token identifier are parameters."
  },
  {
   "property": "C102",
   "status": "proved",
   "theorems": [
    "LS.C102_fits",
    "LS.C102_views",
    "LS.C102_determined"
   ],
   "note": "Removes the assumptions on sizes from C83, C99 and C100 for states reached by bytes."
  },
  {
   "property": "C103",
   "status": "partial",
   "theorems": [
    "LS.C103_false",
    "LS.C103_count",
    "LS.C103_blocked",
    "LS.C103_delegations",
    "LS.C103_partial"
   ],
   "note": "The claim is false of the code (C103_false): only the lower 32 bits of the limit count for un-delegation, so with a multiple of 2^32 or from 2^64 on nobody can ask back anything (C103_blocked, for all states and amounts). C103_partial: once a limit below 2^32 is set, whatever it was before, every valid batch works in histories without failed delegations."
  },
  {
   "property": "C104",
   "status": "partial",
   "theorems": [
    "LS.C104_false",
    "LS.C104_partial",
    "LS.C104_silent",
    "LS.C104_texts"
   ],
   "note": "The claim is false of the code (C104_false): the messages for a limit of zero are exchanged between the two setters, and with a limit of which the machine keeps 0 (C103) the contract says no provider is available although one has stake. All other refusals are proved to tell the truth. Errors of the framework and the chain carry no message of the contract and are not covered; one of them stands where a message was meant (C104_silent)."
  },
  {
   "property": "C105",
   "status": "proved",
   "theorems": [
    "LS.C105_step",
    "LS.C105_history",
    "LS.C105_all",
    "LS.C105_entries"
   ],
   "note": "LS tokens that come with a whitelisting are counted as a deposit of the EGLD the whitelisting had taken; a whitelisting whose callback failed gives nothing back."
  },
  {
   "property": "C106",
   "status": "partial",
   "theorems": [
    "LS.C106_false",
    "LS.C106_partial",
    "LS.C106_step",
    "LS.C106_history",
    "LS.C106_history_exists",
    "LS.C106_bytes"
   ],
   "note": "The claim is false of the code (C106_false): addRewards emits only a general event, so the EGLD it adds to the reserve appears in no amount. C106_partial: without addRewards the log adds up. C106_step and C106_history give the exact account for all transactions and histories, with addRewards counted in."
  },
  {
   "property": "C107",
   "status": "partial",
   "theorems": [
    "LS.C107_false",
    "LS.C107_theft",
    "LS.C107_covered_iff",
    "LS.C107_partial"
   ],
   "note": "The claim is false of the code (C107_false): migrate credits LS tokens for an amount it only names, and the owner chooses who may call it. C107_theft: out of every state with an active contract the owner and any contract can take all pending EGLD, with supply and rate unchanged. C107_partial: without migrate the reserve is always covered; C107_covered_iff says exactly when it is."
  },
  {
   "property": "C108",
   "status": "proved",
   "theorems": [
    "LS.C108_step",
    "LS.C108_history",
    "LS.C108_history_exists",
    "LS.C108_at_most",
    "LS.C108_at_least"
   ],
   "note": ""
  },
  {
   "property": "C109",
   "status": "proved",
   "theorems": [
    "LS.C109_step",
    "LS.C109_history",
    "LS.C109_history_exists",
    "LS.C109_in_order"
   ],
   "note": ""
  },
  {
   "property": "C11",
   "status": "proved",
   "theorems": [
    "LS.C11_withdraw_one_to_one"
   ],
   "note": ""
  },
  {
   "property": "C110",
   "status": "proved",
   "theorems": [
    "LS.C110_step",
    "LS.C110_history",
    "LS.C110_principle",
    "LS.C110_backing",
    "LS.C110_rate",
    "LS.C110_solvent"
   ],
   "note": ""
  },
  {
   "property": "C111",
   "status": "proved",
   "theorems": [
    "LS.C111_dealings",
    "LS.C111_does_not_pay"
   ],
   "note": "The case with no LS tokens in other hands is C61_profit, where the attack pays."
  },
  {
   "property": "C112",
   "status": "partial",
   "theorems": [
    "LS.C112_false",
    "LS.C112_needs",
    "LS.C112_batches_fit",
    "LS.C112_owner_can",
    "LS.C112_never_again",
    "LS.C112_claim_fits_partial",
    "LS.C112_claim_kept_partial"
   ],
   "note": "The claim is false of the code for claimRewards (C112_false): at 600 million gas 238 providers are too many, and as providers are never removed rewards can never be claimed again (C112_never_again). Everything else is proved; C112_claim_fits_partial and C112_claim_kept_partial say when claims fit. Only the gas set aside for the contract's own calls is modelled, so what fits here may still lack the gas to run; what does not fit here fails."
  },
  {
   "property": "C113",
   "status": "partial",
   "theorems": [
    "LS.C113_false",
    "LS.C113_jump",
    "LS.C113_delay",
    "LS.C113_in_order_partial",
    "LS.C113_as_announced_partial"
   ],
   "note": "The claim is false of the code: the period in force when a redemption arrives decides, and the owner can set any period in front of it (C113_false, C113_delay: for every state and redemption). C113_jump: with the period at zero a later redemption takes the EGLD that had come back for an earlier one. C113_in_order_partial: the order is kept as long as the period is not lowered. C113_as_announced_partial: the period announced is the period waited, unless the owner changes it in between."
  },
  {
   "property": "C114",
   "status": "partial",
   "theorems": [
    "LS.C114_false",
    "LS.C114_blocked",
    "LS.C114_nothing",
    "LS.C114_cure",
    "LS.C114_partial"
   ],
   "note": "The claim is false of the code: claimRewards always names every listed provider, in one call that fails as a whole (C114_false). C114_blocked: for every listed provider that cannot pay, through every history in which it is not helped; C114_nothing: the failure changes nothing in the contract; C114_cure: paying in what is missing is enough. C114_partial: when all can pay, all rewards arrive."
  },
  {
   "property": "C115",
   "status": "partial",
   "theorems": [
    "LS.C115_false",
    "LS.C115_waits",
    "LS.C115_in_all",
    "LS.C115_partial"
   ],
   "note": "The claim is false of the code: maturity is a date, the EGLD has to come from a deposit or from a provider, and only managers send for it (C115_false). C115_waits: for every state with nothing withdrawable and every history without deposit or collection, of any length. C115_in_all: what withdrawals pay is bounded by what came in. C115_partial: with enough withdrawable every matured token is paid in full."
  },
  {
   "property": "C116",
   "status": "proved",
   "theorems": [
    "LS.C116_stays_closed",
    "LS.C116_refusal_closes",
    "LS.C116_reopen"
   ],
   "note": "Delegations already on their way to the provider may still arrive; stake and delegations in flight together do not grow."
  },
  {
   "property": "C117",
   "status": "proved",
   "theorems": [
    "LS.C117_apart",
    "LS.C117_history",
    "LS.C117_free",
    "LS.C117_exact"
   ],
   "note": "Spec.consults is the table of settings each transaction consults; C117_exact shows that no entry of it is superfluous."
  },
  {
   "property": "C118",
   "status": "proved",
   "theorems": [
    "LS.C118_renamed",
    "LS.C118_history",
    "LS.C118_reachable",
    "LS.C118_peers",
    "LS.C118_equal"
   ],
   "note": "The two addresses that the code writes out - the zero address, tested for by the migration, and the delegation manager, recorded in events - keep their names."
  },
  {
   "property": "C119",
   "status": "proved",
   "theorems": [
    "LS.C119_step",
    "LS.C119_history",
    "LS.C119_all",
    "LS.C119_same",
    "LS.C119_account",
    "LS.C119_idle",
    "LS.C119_others",
    "LS.C119_covered"
   ],
   "note": "When EGLD joins the pool for the first stake of a provider, and when rewards are credited, is up to the provider and the delegation manager: these answers are deeds, and so is the payment of fees to the accumulator. Whether a redemption is paid at once or with unstake tokens is not a deed: both count the same here; how long unstake tokens have to wait is the subject of C113 to C115."
  },
  {
   "property": "C12",
   "status": "proved",
   "theorems": [
    "LS.C12_maturity_fixed",
    "LS.C12_stays_matured"
   ],
   "note": ""
  },
  {
   "property": "C120",
   "status": "proved",
   "theorems": [
    "LS.C120_later",
    "LS.C120_history",
    "LS.C120_deployed",
    "LS.C120_same",
    "LS.C120_maturity"
   ],
   "note": "Time is the block epoch; rounds and timestamps are not read by the code (require_min_rounds_passed is empty)."
  },
  {
   "property": "C121",
   "status": "proved",
   "theorems": [
    "LS.C121_step",
    "LS.C121_history",
    "LS.C121_history_exists",
    "LS.C121_promises",
    "LS.C121_covered",
    "LS.C121_closed"
   ],
   "note": "A whitelisting in flight is not entrusted: its EGLD belongs to the caller until the provider confirms. C121_covered needs honest reports of rewards, as C09."
  },
  {
   "property": "C122",
   "status": "proved",
   "theorems": [
    "LS.C122_no_taker",
    "LS.C122_agrees",
    "LS.C122_paid_iff",
    "LS.C122_redirect"
   ],
   "note": "A foreign accumulator is given by the calls it accepts; calls it makes back into the contract are the subject of C41. That a synchronous call of an account without code fails is the VM."
  },
  {
   "property": "C123",
   "status": "proved",
   "theorems": [
    "LS.C123_renamed",
    "LS.C123_history",
    "LS.C123_deployed",
    "LS.C123_same",
    "LS.C123_slots"
   ],
   "note": "Identifiers are abstract in the model. The one look the code takes at their bytes (is_valid_esdt_identifier in utils/un_delegation.rs) is passed by every identifier the protocol gives; renamings are to such identifiers."
  },
  {
   "property": "C13",
   "status": "proved",
   "theorems": [
    "LS.C13_registered_nonce",
    "LS.C13_one_unit",
    "LS.C13_topUp_never_fails",
    "LS.C13_users_never_burned"
   ],
   "note": ""
  },
  {
   "property": "C14",
   "status": "proved",
   "theorems": [
    "LS.C14_delegate_split",
    "LS.C14_unDelegate_split"
   ],
   "note": ""
  },
  {
   "property": "C15",
   "status": "proved",
   "theorems": [
    "LS.C15_deposit_accepted",
    "LS.C15_some_deposit_accepted",
    "LS.C15_deposit_iff"
   ],
   "note": ""
  },
  {
   "property": "C16",
   "status": "proved",
   "theorems": [
    "LS.C16_redemption_accepted",
    "LS.C16_redemption_iff"
   ],
   "note": ""
  },
  {
   "property": "C17",
   "status": "proved",
   "theorems": [
    "LS.C17_delegatePending_exact"
   ],
   "note": ""
  },
  {
   "property": "C18",
   "status": "proved",
   "theorems": [
    "LS.C18_delegation_targets"
   ],
   "note": "Assumes fewer than 2^32 whitelisted providers (the code casts the list length to a 32-bit usize)."
  },
  {
   "property": "C19",
   "status": "partial",
   "theorems": [
    "LS.C19_false",
    "LS.C19_partial",
    "LS.C19_twice_partial",
    "LS.C19_declared_partial"
   ],
   "note": "The claim is false of the code (C19_false: room is computed from the declared total, which no delegation updates). C19_partial: the per-batch bounds that do hold. C19_twice_partial: over any history in which the cap is not changed and no un-delegation there fails, the net stake stays below twice the cap (an example meets the bound; another shows 44 EGLD at a cap of 15 after a failed un-delegation). C19_declared_partial: within the cap, if the declared total counts the contract's own stake whenever a batch is sent."
  },
  {
   "property": "C20",
   "status": "proved",
   "theorems": [
    "LS.C20_unDelegatePending_exact"
   ],
   "note": ""
  },
  {
   "property": "C21",
   "status": "proved",
   "theorems": [
    "LS.C21_counters_in_flight",
    "LS.C21_delegations_in_flight"
   ],
   "note": ""
  },
  {
   "property": "C22",
   "status": "proved",
   "theorems": [
    "LS.C22_failed_delegation",
    "LS.C22_failed_undelegation"
   ],
   "note": ""
  },
  {
   "property": "C23",
   "status": "proved",
   "theorems": [
    "LS.C23_rewards_split",
    "LS.C23_rewards_lost"
   ],
   "note": ""
  },
  {
   "property": "C24",
   "status": "proved",
   "theorems": [
    "LS.C24_claimFees_exact",
    "LS.C24_claimFees_succeeds"
   ],
   "note": ""
  },
  {
   "property": "C25",
   "status": "proved",
   "theorems": [
    "LS.C25_privileged_calls",
    "LS.C25_outsiders",
    "LS.C25_neutral"
   ],
   "note": ""
  },
  {
   "property": "C26",
   "status": "proved",
   "theorems": [
    "LS.C26_paused"
   ],
   "note": ""
  },
  {
   "property": "C27",
   "status": "proved",
   "theorems": [
    "LS.C27_configuration"
   ],
   "note": ""
  },
  {
   "property": "C28",
   "status": "proved",
   "theorems": [
    "LS.C28_deposit_quote",
    "LS.C28_redemption_quote",
    "LS.C28_views_change_nothing"
   ],
   "note": ""
  },
  {
   "property": "C29",
   "status": "partial",
   "theorems": [
    "LS.C29_false",
    "LS.C29_joins_partial",
    "LS.C29_refund_partial",
    "LS.C29_once_partial",
    "LS.C29_limbo",
    "LS.C29_limbo_gas"
   ],
   "note": "The refund clause is false before the LS token is issued (C29_false: the callback panics, record and payment are stuck). The other clauses hold in every reachable state, the refund clause once the token is issued. C29_limbo says exactly when the callback fails, and that then, or when it finds no gas (C29_limbo_gas), the provider can never be listed or whitelisted again."
  },
  {
   "property": "C30",
   "status": "partial",
   "theorems": [
    "LS.C30_false",
    "LS.C30_unbounded",
    "LS.C30_partial",
    "LS.C30_tight",
    "LS.C30_whitelist_partial"
   ],
   "note": "The claim is false of the code (C30_false: the limit is compared with <=; C30_unbounded: for every limit any number of providers is reachable, since whitelistings under way are not counted). C30_partial: with at most k whitelistings under way at a time and a limit that is never lowered, at most k more than the limit; C30_tight: that many are reached, for every limit and every k."
  },
  {
   "property": "C31",
   "status": "proved",
   "theorems": [
    "LS.C31_lists_consistent",
    "LS.C31_never_removed"
   ],
   "note": ""
  },
  {
   "property": "C32",
   "status": "proved",
   "theorems": [
    "LS.C32_round_robin",
    "LS.C32_newcomer_last",
    "LS.C32_nothing_else"
   ],
   "note": ""
  },
  {
   "property": "C33",
   "status": "proved",
   "theorems": [
    "LS.C33_delegation_score",
    "LS.C33_undelegation_score",
    "LS.C33_scores",
    "LS.C33_normalised",
    "LS.C33_normalisation_fails",
    "LS.C33_delegation_order",
    "LS.C33_undelegation_order",
    "LS.C33_scoring_fails",
    "LS.C33_only_score",
    "LS.C33_zero_width_blocks"
   ],
   "note": ""
  },
  {
   "property": "C34",
   "status": "partial",
   "theorems": [
    "LS.C34_false",
    "LS.C34_partial",
    "LS.C34_exact_partial",
    "LS.C34_stored_partial",
    "LS.C34_each"
   ],
   "note": "The claim is false of the code (C34_false: weights are added modulo 2^64). C34_partial: the sum is 100 modulo 2^64, hence 100 without overflow. C34_exact_partial, C34_stored_partial, C34_each: the sums let pass, and ever in force, are exactly 100, 2^64 + 100 and 2^65 + 100."
  },
  {
   "property": "C35",
   "status": "partial",
   "theorems": [
    "LS.C35_false",
    "LS.C35_trapped",
    "LS.C35_anybody",
    "LS.C35_partial",
    "LS.bricked_forever"
   ],
   "note": "The claim is false of the code (C35_false: anybody can add rewards before the first deposit; C35_anybody: from every reachable state in which no LS tokens exist, by every account and with every amount). C35_partial: the only transactions that can brick the pool, and only while no LS tokens exist. C35_trapped: the reserve of such a pool never gets smaller and nobody ever owns a share of it."
  },
  {
   "property": "C36",
   "status": "partial",
   "theorems": [
    "LS.C36_false",
    "LS.C36_blocks",
    "LS.C36_in_turn",
    "LS.C36_lasts",
    "LS.C36_partial"
   ],
   "note": "The claim is false of the code (C36_false: a provider admin declares a cap below the stake already there; C36_in_turn: the admin of the provider at the front of the rotation can do so in every state with stake there; C36_lasts: only another declaration, a failed delegation to it or a fall of its stake ends the blockade). C36_partial: with consistent eligible providers and room at one of them, every valid batch succeeds. C87: managers can always lift the blockade."
  },
  {
   "property": "C37",
   "status": "partial",
   "theorems": [
    "LS.C37_false",
    "LS.C37_partial",
    "LS.C37_jams",
    "LS.C37_refusal",
    "LS.C37_lasts"
   ],
   "note": "The claim is false of the code (C37_false: a failed delegation can leave 0 < net < 1 EGLD at a provider, then every un-delegation batch fails; C37_refusal: in every state with suitable figures one refusal by the provider to be asked first does so; C37_lasts: only stake sent to it, or another refusal of its, ends the blockade). C37_partial: it holds in every history in which no delegation failed. C88: managers can always lift the blockade."
  },
  {
   "property": "C38",
   "status": "proved",
   "theorems": [
    "LS.C38_callbacks_succeed",
    "LS.C38_none_failed",
    "LS.C38_records_match",
    "LS.C38_order_needed",
    "LS.C38_gas_needed"
   ],
   "note": "Providers are modelled after delegation-mock; withdrawals are covered too. C38_order_needed, C38_gas_needed: without per-provider order, or with a callback out of gas, it fails."
  },
  {
   "property": "C39",
   "status": "proved",
   "theorems": [
    "LS.C39_migrate",
    "LS.C39_migratePending"
   ],
   "note": ""
  },
  {
   "property": "C40",
   "status": "proved",
   "theorems": [
    "LS.C40_events_report"
   ],
   "note": ""
  },
  {
   "property": "C41",
   "status": "partial",
   "theorems": [
    "LS.C41_false",
    "LS.C41_partial",
    "LS.C41_exact_partial",
    "LS.C41_quiet_partial",
    "LS.C41_drain",
    "LS.C41_deposit_lost",
    "LS.C41_unbacked"
   ],
   "note": "The claim is false of the code (C41_false: the reserve is zeroed in storage only after the synchronous call). C41_partial: exact payment when the accumulator does not touch this contract while being paid. C41_exact_partial: for every accumulator, the figures afterwards are those before the call with the fees cleared, the rest is what the accumulator left. C41_quiet_partial: transactions which neither change nor use the figures (transfers, settings, provider parameters and so on) made during the payment do no harm, the outcome is that of making them afterwards. C41_drain: in every state the fees can be taken exactly as often as the contract's EGLD lasts. C41_deposit_lost, C41_unbacked: a deposit made during the call mints tokens no figure knows of."
  },
  {
   "property": "C42",
   "status": "proved",
   "theorems": [
    "LS.C42_no_double_claim",
    "LS.C42_ledger_exists"
   ],
   "note": ""
  },
  {
   "property": "C43",
   "status": "proved",
   "theorems": [
    "LS.C43_changeParams",
    "LS.C43_changeAdmin"
   ],
   "note": ""
  },
  {
   "property": "C44",
   "status": "proved",
   "theorems": [
    "LS.C44_unbonding_total",
    "LS.C44_withdrawal_moves_exactly",
    "LS.C44_excess_stranded"
   ],
   "note": ""
  },
  {
   "property": "C45",
   "status": "proved",
   "theorems": [
    "LS.C45_complete",
    "LS.C45_fair_shares",
    "LS.C45_all_sent",
    "LS.C45_no_scores"
   ],
   "note": ""
  },
  {
   "property": "C46",
   "status": "proved",
   "theorems": [
    "LS.C46_calls",
    "LS.C46_targets",
    "LS.C46_claimRewards",
    "LS.C46_withdrawPending",
    "LS.C46_whitelist"
   ],
   "note": ""
  },
  {
   "property": "C47",
   "status": "proved",
   "theorems": [
    "LS.C47_setters",
    "LS.C47_setters_available",
    "LS.C47_scoring",
    "LS.C47_removed"
   ],
   "note": ""
  },
  {
   "property": "C48",
   "status": "proved",
   "theorems": [
    "LS.C48_exchange_rate",
    "LS.C48_rate_and_quotes",
    "LS.C48_at_least_one",
    "LS.C48_rate_never_falls",
    "LS.C48_provider_views"
   ],
   "note": ""
  },
  {
   "property": "C49",
   "status": "proved",
   "theorems": [
    "LS.C49_deployment",
    "LS.C49_before_setup"
   ],
   "note": ""
  },
  {
   "property": "C50",
   "status": "proved",
   "theorems": [
    "LS.C50_withdraw_iff"
   ],
   "note": ""
  },
  {
   "property": "C51",
   "status": "proved",
   "theorems": [
    "LS.C51_system_solvent",
    "LS.C51_network_solvent",
    "LS.C51_claims_needed"
   ],
   "note": "No order of requests and answers is assumed and callbacks may run out of gas. C51_claims_needed: with rewards reported but not sent it fails."
  },
  {
   "property": "C52",
   "status": "proved",
   "theorems": [
    "LS.C52_exit"
   ],
   "note": ""
  },
  {
   "property": "C53",
   "status": "partial",
   "theorems": [
    "LS.C53_partial",
    "LS.C53_modest_partial",
    "LS.C53_leave_some_partial",
    "LS.C53_origin",
    "LS.C53_dust_stays",
    "LS.C53_dust_step",
    "LS.C53_way_out",
    "LS.C53_false"
   ],
   "note": "False of the code: a batch which the chosen providers cannot serve completely returns its remainder to the queue, and that remainder can be below one EGLD (C53_false: half an EGLD stuck in the queue, a provider still holding one EGLD of stake and a matured holder who cannot be paid). C53_dust_stays: while it is dust every unDelegatePending fails. C53_partial proves the claim for all executions in which every un-delegation batch is served completely. C53_modest_partial: a rule for the managers that ensures it, asking for no more than one EGLD less than the provider whose turn it is holds. C53_origin: in every state dust comes only from a batch asked for the whole queue and served in part; hence C53_leave_some_partial, the simplest rule: never ask for the whole queue. C53_dust_step: dust never changes its amount, and exactly three things take it away; C53_way_out: a deposit of exactly the dust is always one of them."
  },
  {
   "property": "C54",
   "status": "proved",
   "theorems": [
    "LS.C54_givers",
    "LS.C54_complete",
    "LS.C54_first",
    "LS.C54_at_least",
    "LS.C54_at_most",
    "LS.C54_plenty",
    "LS.C54_no_scores"
   ],
   "note": "maxSelectedProviders is assumed below 2^32 (usize of the virtual machine). The bound by the proportional part assumes that the scores are not all zero; C54_no_scores says exactly what is asked from whom when they are."
  },
  {
   "property": "C55",
   "status": "proved",
   "theorems": [
    "LS.C55_flag_iff",
    "LS.C55_start_iff",
    "LS.C55_start",
    "LS.C55_one",
    "LS.C55_success",
    "LS.C55_failure",
    "LS.C55_answerable",
    "LS.C55_permanent"
   ],
   "note": "The callback is the framework's default_issue_and_set_roles_cb (DefaultIssueCallbacksModule, included in lib.rs), modelled from its documented behaviour since the framework's source is not in the repository. That the ESDT system contract never hands out an existing identifier is assumed (issued refuses the identifier of the other token)."
  },
  {
   "property": "C56",
   "status": "proved",
   "theorems": [
    "LS.C56_egld_conserved",
    "LS.C56_network_conserves",
    "LS.C56_sums"
   ],
   "note": ""
  },
  {
   "property": "C57",
   "status": "proved",
   "theorems": [
    "LS.C57_claim_pays_due",
    "LS.C57_rewards_end_to_end",
    "LS.C57_splitting"
   ],
   "note": "The end-to-end theorem assumes a fee rate of at most 10000; above it rewards are credited nowhere (C23_rewards_lost)."
  },
  {
   "property": "C58",
   "status": "proved",
   "theorems": [
    "LS.C58_network_exit",
    "LS.C58_funds_needed"
   ],
   "note": "C58_funds_needed: the hypothesis that the mocks hold what they owe is needed, because the repository's mock pays rewards out of delegated EGLD."
  },
  {
   "property": "C59",
   "status": "proved",
   "theorems": [
    "LS.C59_no_refusal",
    "LS.C59_records_match"
   ],
   "note": ""
  },
  {
   "property": "C60",
   "status": "proved",
   "theorems": [
    "LS.C60_others_take_nothing",
    "LS.C60_position_safe"
   ],
   "note": ""
  },
  {
   "property": "C61",
   "status": "partial",
   "theorems": [
    "LS.C61_false",
    "LS.C61_profit",
    "LS.C61_partial"
   ],
   "note": "False of the code: with one unit of LS token in existence and a gift, a deposit of 200 EGLD redeemed at once returns 150 (C61_false), and the 50 EGLD can be taken by whoever prepared it (C61_profit). C61_partial gives the exact bound on the loss: less than the value of one unit of LS token; hence 99.9% whenever one unit is worth at most a thousandth of the deposit. C111: the attack does not pay once others hold some units of LS token."
  },
  {
   "property": "C62",
   "status": "proved",
   "theorems": [
    "LS.C62_deposit_parts",
    "LS.C62_redemption_parts"
   ],
   "note": ""
  },
  {
   "property": "C63",
   "status": "proved",
   "theorems": [
    "LS.C63_no_profit",
    "LS.C63_sums"
   ],
   "note": ""
  },
  {
   "property": "C64",
   "status": "proved",
   "theorems": [
    "LS.C64_only_its_parts",
    "LS.C64_nothing"
   ],
   "note": ""
  },
  {
   "property": "C65",
   "status": "proved",
   "theorems": [
    "LS.C65_events_exact"
   ],
   "note": "Block nonce and timestamp of the events are not modelled."
  },
  {
   "property": "C66",
   "status": "proved",
   "theorems": [
    "LS.C66_log_has_figures",
    "LS.C66_revenue",
    "LS.C66_fees_announced"
   ],
   "note": ""
  },
  {
   "property": "C67",
   "status": "proved",
   "theorems": [
    "LS.C67_callback_fails_iff"
   ],
   "note": ""
  },
  {
   "property": "C68",
   "status": "proved",
   "theorems": [
    "LS.C68_position",
    "LS.C68_nothing_deferred",
    "LS.C68_one_nonce"
   ],
   "note": ""
  },
  {
   "property": "C69",
   "status": "proved",
   "theorems": [
    "LS.C69_accepted_iff"
   ],
   "note": "The three bounds below 2^32 keep the 32-bit list arithmetic of the selection from wrapping."
  },
  {
   "property": "C70",
   "status": "proved",
   "theorems": [
    "LS.C70_holder_exit",
    "LS.C70_queue_exit",
    "LS.C70_queue_stuck",
    "LS.C70_first_needed"
   ],
   "note": "C70_queue_stuck and C70_first_needed show that the condition on the first provider is needed: with two providers of 1.5 EGLD a redemption of 1.2 EGLD stays queued."
  },
  {
   "property": "C71",
   "status": "proved",
   "theorems": [
    "LS.C71_any_order",
    "LS.C71_reordered_answers",
    "LS.C71_own_order_matters",
    "LS.C71_first_order_matters"
   ],
   "note": "The last two theorems show that both exceptions in the statement are needed."
  },
  {
   "property": "C72",
   "status": "proved",
   "theorems": [
    "LS.C72_pro_rata",
    "LS.C72_all_of_it",
    "LS.C72_only_rewards",
    "LS.C72_history"
   ],
   "note": ""
  },
  {
   "property": "C73",
   "status": "proved",
   "theorems": [
    "LS.C73_handover",
    "LS.C73_after_handover",
    "LS.C73_appointed",
    "LS.C73_no_escalation"
   ],
   "note": "C73_handover states the protocol's ChangeOwnerAddress as modelled; the other three are about the contract."
  },
  {
   "property": "C74",
   "status": "proved",
   "theorems": [
    "LS.C74_burn_ls",
    "LS.C74_burn_unstakes",
    "LS.C74_counted",
    "LS.C74_ls_locked",
    "LS.C74_unstakes_locked"
   ],
   "note": "The first three describe the burn as modelled; the last two are about the contract."
  },
  {
   "property": "C75",
   "status": "proved",
   "theorems": [
    "LS.C75_ledger",
    "LS.C75_history",
    "LS.C75_history_exists",
    "LS.C75_locked",
    "LS.C75_exact",
    "LS.C75_ls",
    "LS.C75_no_ls"
   ],
   "note": ""
  },
  {
   "property": "C76",
   "status": "partial",
   "theorems": [
    "LS.C76_false",
    "LS.C76_partial",
    "LS.C76_open"
   ],
   "note": "False of the code: a deposit made while a claim is in flight and redeemed after its answer, in the same epoch and paid out at once, takes nine tenths of the reward (C76_false). C76_partial gives what such a deposit receives exactly, and bounds the gain by its share of the reward. C76_open shows that the attack is open to everybody in every state with a claim in flight, and yields the full share less two units of rounding."
  },
  {
   "property": "C77",
   "status": "proved",
   "theorems": [
    "LS.C77_share"
   ],
   "note": ""
  },
  {
   "property": "C78",
   "status": "proved",
   "theorems": [
    "LS.C78_starved",
    "LS.C78_for_ever"
   ],
   "note": "C78_starved describes the virtual machine as modelled; C78_for_ever is about the contract. The file has a case in which one callback without gas keeps a holder from being paid."
  },
  {
   "property": "C79",
   "status": "proved",
   "theorems": [
    "LS.C79_egld",
    "LS.C79_ls",
    "LS.C79_unstakes",
    "LS.C79_egld_locked",
    "LS.C79_ls_locked",
    "LS.C79_unstakes_locked"
   ],
   "note": "The first three describe the transfers as modelled; the last three are about the contract."
  },
  {
   "property": "C80",
   "status": "proved",
   "theorems": [
    "LS.C80_deposit_returns"
   ],
   "note": ""
  },
  {
   "property": "C81",
   "status": "proved",
   "theorems": [
    "LS.C81_sum_paid",
    "LS.C81_enough",
    "LS.C81_any_order",
    "LS.C81_no_priority"
   ],
   "note": "C81_no_priority is the case in which the order matters; C81_any_order is for an honest delegation manager."
  },
  {
   "property": "C82",
   "status": "proved",
   "theorems": [
    "LS.C82_keys_distinct",
    "LS.C82_write_read",
    "LS.C82_not_reserved"
   ],
   "note": "Names as in the storage_mapper attributes; the sub-keys of set mappers and callback closures are the framework's (not in the repository)."
  },
  {
   "property": "C83",
   "status": "proved",
   "theorems": [
    "LS.C83_numbers",
    "LS.C83_provider",
    "LS.C83_attrs",
    "LS.C83_scoring",
    "LS.C83_state",
    "LS.C83_determined",
    "LS.C83_write_record",
    "LS.C83_representable"
   ],
   "note": "Byte formats are the framework's. The token slots and the sets are left out of Represents."
  },
  {
   "property": "C84",
   "status": "proved",
   "theorems": [
    "LS.C84_front",
    "LS.C84_views",
    "LS.C84_behind",
    "LS.C84_quiet",
    "LS.C84_history"
   ],
   "note": ""
  },
  {
   "property": "C85",
   "status": "proved",
   "theorems": [
    "LS.C85_others",
    "LS.C85_history"
   ],
   "note": ""
  },
  {
   "property": "C86",
   "status": "proved",
   "theorems": [
    "LS.C86_unread",
    "LS.C86_history",
    "LS.C86_at_once"
   ],
   "note": "States what the code does; the README says once per day."
  },
  {
   "property": "C87",
   "status": "proved",
   "theorems": [
    "LS.C87_steer",
    "LS.C87_not_overdrawn"
   ],
   "note": "Fewer than 2^32 providers; figures given to the manager's whitelist endpoint honest, as in C69."
  },
  {
   "property": "C88",
   "status": "proved",
   "theorems": [
    "LS.C88_restore",
    "LS.C88_fund"
   ],
   "note": "As C87."
  },
  {
   "property": "C89",
   "status": "proved",
   "theorems": [
    "LS.C89_emptied"
   ],
   "note": "Repairs the states of C53_false and C70_first_needed."
  },
  {
   "property": "C90",
   "status": "proved",
   "theorems": [
    "LS.C90_rest",
    "LS.C90_all_paid"
   ],
   "note": "In the network with the repository's mocks."
  },
  {
   "property": "C91",
   "status": "proved",
   "theorems": [
    "LS.C91_turn",
    "LS.C91_turn_back",
    "LS.C91_worth",
    "LS.C91_worth_nothing"
   ],
   "note": ""
  },
  {
   "property": "C92",
   "status": "partial",
   "theorems": [
    "LS.C92_false",
    "LS.C92_others_partial",
    "LS.C92_limit_partial",
    "LS.C92_batch_partial",
    "LS.C92_reached"
   ],
   "note": "False of the code: the admin's figures are taken at face value."
  },
  {
   "property": "C93",
   "status": "proved",
   "theorems": [
    "LS.C93_covered",
    "LS.C93_conserved",
    "LS.C93_solvent",
    "LS.C93_no_return",
    "LS.C93_hollow"
   ],
   "note": "C93_hollow is the concrete history in which the reserve grows without EGLD and rewards are lost to the contract itself."
  },
  {
   "property": "C94",
   "status": "proved",
   "theorems": [
    "LS.C94_rate",
    "LS.C94_redemption",
    "LS.C94_deposit",
    "LS.C94_rewards_ahead"
   ],
   "note": "C94_rewards_ahead shows that the hypothesis on rewards is needed."
  },
  {
   "property": "C95",
   "status": "proved",
   "theorems": [
    "LS.C95_allowed",
    "LS.C95_whole",
    "LS.C95_strict",
    "LS.C95_order_needed"
   ],
   "note": "In the network with the repository's mocks, requests to each served in order. C95_order_needed shows the order is needed."
  },
  {
   "property": "C96",
   "status": "proved",
   "theorems": [
    "LS.C96_exported",
    "LS.C96_meaning",
    "LS.C96_reads",
    "LS.C96_call",
    "LS.C96_unambiguous",
    "LS.C96_payments",
    "LS.C96_expressible",
    "LS.C96_deploy",
    "LS.C96_histories",
    "LS.C96_by_name"
   ],
   "note": "The checks made before the body of an endpoint runs are the framework's and modelled from its documented behaviour; the table of names, payments and argument types is compared with the Rust text by tools/abi.py. The bodies of plain views are not run."
  },
  {
   "property": "C97",
   "status": "proved",
   "theorems": [
    "LS.C97_linked",
    "LS.C97_limit",
    "LS.C97_managers"
   ],
   "note": "The mappers are the framework's, modelled from its documented behaviour. C97_limit shows that the bound of 2^32 operations in C97_linked cannot be raised."
  },
  {
   "property": "C98",
   "status": "proved",
   "theorems": [
    "LS.C98_served",
    "LS.C98_callback",
    "LS.C98_lossless",
    "LS.C98_gas",
    "LS.C98_network"
   ],
   "note": "The other side is the repository's mocks. How the framework encodes arguments, keeps closures and reads results is part of the trusted base."
  },
  {
   "property": "C99",
   "status": "proved",
   "theorems": [
    "LS.C99_views",
    "LS.C99_whole",
    "LS.C99_kept"
   ],
   "note": "How the framework encodes results is part of the trusted base; the views of token identifiers are left out because their encoding is not in the repository."
  }
 ]
}