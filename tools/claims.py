c("C01", "proved", "C01_delegate_mints_pro_rata")
c("C02", "proved", "C02_unDelegate_pays_pro_rata")
c("C03", "proved", "C03_rate_never_falls C03_quote_never_falls")
c("C04", "proved", "C04_round_trip")
c("C05", "proved", "C05_supply_is_total C05_unburnt")
c("C06", "proved", "C06_reserve_positive")
c("C07", "proved", "C07_unstake_tokens_covered")
c("C08", "proved", "C08_reserve_backed C08_reserve_backed_no_migration")
c("C09", "proved", "C09_solvent C09_no_shortfall")
c("C10", "proved", "C10_only_matured C10_immature_fails")
c("C11", "proved", "C11_withdraw_one_to_one")
c("C12", "proved", "C12_maturity_fixed C12_stays_matured")
c("C13", "proved", "C13_registered_nonce C13_one_unit C13_topUp_never_fails C13_users_never_burned")
c("C14", "proved", "C14_delegate_split C14_unDelegate_split")
c("C15", "proved", "C15_deposit_accepted C15_some_deposit_accepted C15_deposit_iff")
c("C16", "proved", "C16_redemption_accepted C16_redemption_iff")
c("C28", "proved", "C28_deposit_quote C28_redemption_quote C28_views_change_nothing")
c("C35", "partial", "C35_false C35_trapped C35_anybody C35_partial bricked_forever", "The claim is false of the code (C35_false: anybody can add rewards before the first deposit; C35_anybody: from every reachable state in which no LS tokens exist, by every account and with every amount). C35_partial: the only transactions that can brick the pool, and only while no LS tokens exist. C35_trapped: the reserve of such a pool never gets smaller and nobody ever owns a share of it.")
c("C39", "proved", "C39_migrate C39_migratePending")
c("C42", "proved", "C42_no_double_claim C42_ledger_exists")
c("C44", "proved", "C44_unbonding_total C44_withdrawal_moves_exactly C44_excess_stranded")
c("C17", "proved", "C17_delegatePending_exact")
c("C18", "proved", "C18_delegation_targets", "Assumes fewer than 2^32 whitelisted providers (the code casts the list length to a 32-bit usize).")
c("C19", "partial", "C19_false C19_partial C19_twice_partial C19_declared_partial", "The claim is false of the code (C19_false: room is computed from the declared total, which no delegation updates). C19_partial: the per-batch bounds that do hold. C19_twice_partial: over any history in which the cap is not changed and no un-delegation there fails, the net stake stays below twice the cap (an example meets the bound; another shows 44 EGLD at a cap of 15 after a failed un-delegation). C19_declared_partial: within the cap, if the declared total counts the contract's own stake whenever a batch is sent.")
c("C20", "proved", "C20_unDelegatePending_exact")
c("C32", "proved", "C32_round_robin C32_newcomer_last C32_nothing_else")
c("C36", "partial", "C36_false C36_blocks C36_in_turn C36_lasts C36_partial", "The claim is false of the code (C36_false: a provider admin declares a cap below the stake already there; C36_in_turn: the admin of the provider at the front of the rotation can do so in every state with stake there; C36_lasts: only another declaration, a failed delegation to it or a fall of its stake ends the blockade). C36_partial: with consistent eligible providers and room at one of them, every valid batch succeeds. C87: managers can always lift the blockade.")
c("C37", "partial", "C37_false C37_partial C37_jams C37_refusal C37_lasts", "The claim is false of the code (C37_false: a failed delegation can leave 0 < net < 1 EGLD at a provider, then every un-delegation batch fails; C37_refusal: in every state with suitable figures one refusal by the provider to be asked first does so; C37_lasts: only stake sent to it, or another refusal of its, ends the blockade). C37_partial: it holds in every history in which no delegation failed. C88: managers can always lift the blockade.")
c("C21", "proved", "C21_counters_in_flight C21_delegations_in_flight")
c("C22", "proved", "C22_failed_delegation C22_failed_undelegation")
c("C23", "proved", "C23_rewards_split C23_rewards_lost")
c("C24", "proved", "C24_claimFees_exact C24_claimFees_succeeds")
c("C29", "partial", "C29_false C29_joins_partial C29_refund_partial C29_once_partial C29_limbo C29_limbo_gas", "The refund clause is false before the LS token is issued (C29_false: the callback panics, record and payment are stuck). The other clauses hold in every reachable state, the refund clause once the token is issued. C29_limbo says exactly when the callback fails, and that then, or when it finds no gas (C29_limbo_gas), the provider can never be listed or whitelisted again.")
c("C40", "proved", "C40_events_report")
c("C41", "partial", "C41_false C41_partial C41_exact_partial C41_quiet_partial C41_drain C41_deposit_lost C41_unbacked", "The claim is false of the code (C41_false: the reserve is zeroed in storage only after the synchronous call). C41_partial: exact payment when the accumulator does not touch this contract while being paid. C41_exact_partial: for every accumulator, the figures afterwards are those before the call with the fees cleared, the rest is what the accumulator left. C41_quiet_partial: transactions which neither change nor use the figures (transfers, settings, provider parameters and so on) made during the payment do no harm, the outcome is that of making them afterwards. C41_drain: in every state the fees can be taken exactly as often as the contract's EGLD lasts. C41_deposit_lost, C41_unbacked: a deposit made during the call mints tokens no figure knows of.")
c("C25", "proved", "C25_privileged_calls C25_outsiders C25_neutral")
c("C26", "proved", "C26_paused")
c("C27", "proved", "C27_configuration")
c("C30", "partial", "C30_false C30_unbounded C30_partial C30_tight C30_whitelist_partial", "The claim is false of the code (C30_false: the limit is compared with <=; C30_unbounded: for every limit any number of providers is reachable, since whitelistings under way are not counted). C30_partial: with at most k whitelistings under way at a time and a limit that is never lowered, at most k more than the limit; C30_tight: that many are reached, for every limit and every k.")
c("C31", "proved", "C31_lists_consistent C31_never_removed")
c("C34", "partial", "C34_false C34_partial C34_exact_partial C34_stored_partial C34_each", "The claim is false of the code (C34_false: weights are added modulo 2^64). C34_partial: the sum is 100 modulo 2^64, hence 100 without overflow. C34_exact_partial, C34_stored_partial, C34_each: the sums let pass, and ever in force, are exactly 100, 2^64 + 100 and 2^65 + 100.")
c("C43", "proved", "C43_changeParams C43_changeAdmin")
c("C33", "proved", "C33_delegation_score C33_undelegation_score C33_scores C33_normalised C33_normalisation_fails C33_delegation_order C33_undelegation_order C33_scoring_fails C33_only_score C33_zero_width_blocks")
c("C38", "proved", "C38_callbacks_succeed C38_none_failed C38_records_match C38_order_needed C38_gas_needed", "Providers are modelled after delegation-mock; withdrawals are covered too. C38_order_needed, C38_gas_needed: without per-provider order, or with a callback out of gas, it fails.")
c("C45", "proved", "C45_complete C45_fair_shares C45_all_sent C45_no_scores")
c("C46", "proved", "C46_calls C46_targets C46_claimRewards C46_withdrawPending C46_whitelist")
c("C47", "proved", "C47_setters C47_setters_available C47_scoring C47_removed")
c("C48", "proved", "C48_exchange_rate C48_rate_and_quotes C48_at_least_one C48_rate_never_falls C48_provider_views")
c("C49", "proved", "C49_deployment C49_before_setup")
c("C50", "proved", "C50_withdraw_iff")
c("C51", "proved", "C51_system_solvent C51_network_solvent C51_claims_needed", "No order of requests and answers is assumed and callbacks may run out of gas. C51_claims_needed: with rewards reported but not sent it fails.")
c("C52", "proved", "C52_exit")
c("C53", "partial", "C53_partial C53_modest_partial C53_leave_some_partial C53_origin C53_dust_stays C53_dust_step C53_way_out C53_false", "False of the code: a batch which the chosen providers cannot serve completely returns its remainder to the queue, and that remainder can be below one EGLD (C53_false: half an EGLD stuck in the queue, a provider still holding one EGLD of stake and a matured holder who cannot be paid). C53_dust_stays: while it is dust every unDelegatePending fails. C53_partial proves the claim for all executions in which every un-delegation batch is served completely. C53_modest_partial: a rule for the managers that ensures it, asking for no more than one EGLD less than the provider whose turn it is holds. C53_origin: in every state dust comes only from a batch asked for the whole queue and served in part; hence C53_leave_some_partial, the simplest rule: never ask for the whole queue. C53_dust_step: dust never changes its amount, and exactly three things take it away; C53_way_out: a deposit of exactly the dust is always one of them.")
c("C54", "proved", "C54_givers C54_complete C54_first C54_at_least C54_at_most C54_plenty C54_no_scores", "maxSelectedProviders is assumed below 2^32 (usize of the virtual machine). The bound by the proportional part assumes that the scores are not all zero; C54_no_scores says exactly what is asked from whom when they are.")
c("C55", "proved", "C55_flag_iff C55_start_iff C55_start C55_one C55_success C55_failure C55_answerable C55_permanent", "The callback is the framework's default_issue_and_set_roles_cb (DefaultIssueCallbacksModule, included in lib.rs), modelled from its documented behaviour since the framework's source is not in the repository. That the ESDT system contract never hands out an existing identifier is assumed (issued refuses the identifier of the other token).")
c("C56", "proved", "C56_egld_conserved C56_network_conserves C56_sums")
c("C57", "proved", "C57_claim_pays_due C57_rewards_end_to_end C57_splitting", "The end-to-end theorem assumes a fee rate of at most 10000; above it rewards are credited nowhere (C23_rewards_lost).")
c("C58", "proved", "C58_network_exit C58_funds_needed", "C58_funds_needed: the hypothesis that the mocks hold what they owe is needed, because the repository's mock pays rewards out of delegated EGLD.")
c("C59", "proved", "C59_no_refusal C59_records_match")
c("C60", "proved", "C60_others_take_nothing C60_position_safe")
c("C61", "partial", "C61_false C61_profit C61_partial", "False of the code: with one unit of LS token in existence and a gift, a deposit of 200 EGLD redeemed at once returns 150 (C61_false), and the 50 EGLD can be taken by whoever prepared it (C61_profit). C61_partial gives the exact bound on the loss: less than the value of one unit of LS token; hence 99.9% whenever one unit is worth at most a thousandth of the deposit. C111: the attack does not pay once others hold some units of LS token.")
c("C62", "proved", "C62_deposit_parts C62_redemption_parts")
c("C63", "proved", "C63_no_profit C63_sums")
c("C64", "proved", "C64_only_its_parts C64_nothing")
c("C65", "proved", "C65_events_exact", "Block nonce and timestamp of the events are not modelled.")
c("C66", "proved", "C66_log_has_figures C66_revenue C66_fees_announced")
c("C67", "proved", "C67_callback_fails_iff")
c("C68", "proved", "C68_position C68_nothing_deferred C68_one_nonce")
c("C69", "proved", "C69_accepted_iff", "The three bounds below 2^32 keep the 32-bit list arithmetic of the selection from wrapping.")
c("C70", "proved", "C70_holder_exit C70_queue_exit C70_queue_stuck C70_first_needed", "C70_queue_stuck and C70_first_needed show that the condition on the first provider is needed: with two providers of 1.5 EGLD a redemption of 1.2 EGLD stays queued.")
c("C71", "proved", "C71_any_order C71_reordered_answers C71_own_order_matters C71_first_order_matters", "The last two theorems show that both exceptions in the statement are needed.")
c("C72", "proved", "C72_pro_rata C72_all_of_it C72_only_rewards C72_history", "")
c("C73", "proved", "C73_handover C73_after_handover C73_appointed C73_no_escalation", "C73_handover states the protocol's ChangeOwnerAddress as modelled; the other three are about the contract.")
c("C74", "proved", "C74_burn_ls C74_burn_unstakes C74_counted C74_ls_locked C74_unstakes_locked", "The first three describe the burn as modelled; the last two are about the contract.")
c("C75", "proved", "C75_ledger C75_history C75_history_exists C75_locked C75_exact C75_ls C75_no_ls")
c("C76", "partial", "C76_false C76_partial C76_open", "False of the code: a deposit made while a claim is in flight and redeemed after its answer, in the same epoch and paid out at once, takes nine tenths of the reward (C76_false). C76_partial gives what such a deposit receives exactly, and bounds the gain by its share of the reward. C76_open shows that the attack is open to everybody in every state with a claim in flight, and yields the full share less two units of rounding.")
c("C77", "proved", "C77_share", "")
c("C78", "proved", "C78_starved C78_for_ever", "C78_starved describes the virtual machine as modelled; C78_for_ever is about the contract. The file has a case in which one callback without gas keeps a holder from being paid.")
c("C79", "proved", "C79_egld C79_ls C79_unstakes C79_egld_locked C79_ls_locked C79_unstakes_locked", "The first three describe the transfers as modelled; the last three are about the contract.")
c("C80", "proved", "C80_deposit_returns")
c("C81", "proved", "C81_sum_paid C81_enough C81_any_order C81_no_priority", "C81_no_priority is the case in which the order matters; C81_any_order is for an honest delegation manager.")
c("C82", "proved", "C82_keys_distinct C82_write_read C82_not_reserved", "Names as in the storage_mapper attributes; the sub-keys of set mappers and callback closures are the framework's (not in the repository).")
c("C83", "proved", "C83_numbers C83_provider C83_attrs C83_scoring C83_state C83_determined C83_write_record C83_representable", "Byte formats are the framework's. The token slots and the sets are left out of Represents.")
c("C84", "proved", "C84_front C84_views C84_behind C84_quiet C84_history", "")
c("C85", "proved", "C85_others C85_history", "")
c("C86", "proved", "C86_unread C86_history C86_at_once", "States what the code does; the README says once per day.")
c("C87", "proved", "C87_steer C87_not_overdrawn", "Fewer than 2^32 providers; figures given to the manager's whitelist endpoint honest, as in C69.")
c("C88", "proved", "C88_restore C88_fund", "As C87.")
c("C89", "proved", "C89_emptied", "Repairs the states of C53_false and C70_first_needed.")
c("C90", "proved", "C90_rest C90_all_paid", "In the network with the repository's mocks.")
c("C91", "proved", "C91_turn C91_turn_back C91_worth C91_worth_nothing", "")
c("C92", "partial", "C92_false C92_others_partial C92_limit_partial C92_batch_partial C92_reached", "False of the code: the admin's figures are taken at face value.")
c("C93", "proved", "C93_covered C93_conserved C93_solvent C93_no_return C93_hollow", "C93_hollow is the concrete history in which the reserve grows without EGLD and rewards are lost to the contract itself.")
c("C94", "proved", "C94_rate C94_redemption C94_deposit C94_rewards_ahead", "C94_rewards_ahead shows that the hypothesis on rewards is needed.")
c("C95", "proved", "C95_allowed C95_whole C95_strict C95_order_needed", "In the network with the repository's mocks, requests to each served in order. C95_order_needed shows the order is needed.")
c("C96", "proved", "C96_exported C96_meaning C96_reads C96_call C96_unambiguous C96_payments C96_expressible C96_deploy C96_histories C96_by_name", "The checks made before the body of an endpoint runs are the framework's and modelled from its documented behaviour; the table of names, payments and argument types is compared with the Rust text by tools/abi.py. The bodies of plain views are not run.")
c("C97", "proved", "C97_linked C97_limit C97_managers", "The mappers are the framework's, modelled from its documented behaviour. C97_limit shows that the bound of 2^32 operations in C97_linked cannot be raised.")
c("C98", "proved", "C98_served C98_callback C98_lossless C98_gas C98_network", "The other side is the repository's mocks. How the framework encodes arguments, keeps closures and reads results is part of the trusted base.")
c("C99", "proved", "C99_views C99_whole C99_kept", "How the framework encodes results is part of the trusted base; the views of token identifiers are left out because their encoding is not in the repository.")
c("C100", "partial", "C100_requests_partial C100_answers_partial C100_count C100_deploys C100_record C100_stale C100_missing C100_false", "False of the code: two stale methods, two endpoints without a method, and a record type that lacks two fields. Everything else is proved.")
c("C101", "proved", "C101_read C101_distinct C101_pool", "The reader is written separately from the encoder. Block number, time and the bytes of the token identifier are parameters.")
c("C102", "proved", "C102_fits C102_views C102_determined", "Removes the assumptions on sizes from C83, C99 and C100 for states reached by bytes.")
c("C103", "partial", "C103_false C103_count C103_blocked C103_delegations C103_partial", "The claim is false of the code (C103_false): only the lower 32 bits of the limit count for un-delegation, so with a multiple of 2^32 or from 2^64 on nobody can ask back anything (C103_blocked, for all states and amounts). C103_partial: once a limit below 2^32 is set, whatever it was before, every valid batch works in histories without failed delegations.")
c("C104", "partial", "C104_false C104_partial C104_silent C104_texts", "The claim is false of the code (C104_false): the messages for a limit of zero are exchanged between the two setters, and with a limit of which the machine keeps 0 (C103) the contract says no provider is available although one has stake. All other refusals are proved to tell the truth. Errors of the framework and the chain carry no message of the contract and are not covered; one of them stands where a message was meant (C104_silent).")
c("C105", "proved", "C105_step C105_history C105_all C105_entries", "LS tokens that come with a whitelisting are counted as a deposit of the EGLD the whitelisting had taken; a whitelisting whose callback failed gives nothing back.")
c("C106", "partial", "C106_false C106_partial C106_step C106_history C106_history_exists C106_bytes", "The claim is false of the code (C106_false): addRewards emits only a general event, so the EGLD it adds to the reserve appears in no amount. C106_partial: without addRewards the log adds up. C106_step and C106_history give the exact account for all transactions and histories, with addRewards counted in.")
c("C107", "partial", "C107_false C107_theft C107_covered_iff C107_partial", "The claim is false of the code (C107_false): migrate credits LS tokens for an amount it only names, and the owner chooses who may call it. C107_theft: out of every state with an active contract the owner and any contract can take all pending EGLD, with supply and rate unchanged. C107_partial: without migrate the reserve is always covered; C107_covered_iff says exactly when it is.")
c("C108", "proved", "C108_step C108_history C108_history_exists C108_at_most C108_at_least", "")
c("C109", "proved", "C109_step C109_history C109_history_exists C109_in_order", "")
c("C110", "proved", "C110_step C110_history C110_principle C110_backing C110_rate C110_solvent", "")
c("C111", "proved", "C111_dealings C111_does_not_pay", "The case with no LS tokens in other hands is C61_profit, where the attack pays.")
c("C112", "partial", "C112_false C112_needs C112_batches_fit C112_owner_can C112_never_again C112_claim_fits_partial C112_claim_kept_partial", "The claim is false of the code for claimRewards (C112_false): at 600 million gas 238 providers are too many, and as providers are never removed rewards can never be claimed again (C112_never_again). Everything else is proved; C112_claim_fits_partial and C112_claim_kept_partial say when claims fit. Only the gas set aside for the contract's own calls is modelled, so what fits here may still lack the gas to run; what does not fit here fails.")
c("C113", "partial", "C113_false C113_jump C113_delay C113_in_order_partial C113_as_announced_partial", "The claim is false of the code: the period in force when a redemption arrives decides, and the owner can set any period in front of it (C113_false, C113_delay: for every state and redemption). C113_jump: with the period at zero a later redemption takes the EGLD that had come back for an earlier one. C113_in_order_partial: the order is kept as long as the period is not lowered. C113_as_announced_partial: the period announced is the period waited, unless the owner changes it in between.")
c("C114", "partial", "C114_false C114_blocked C114_nothing C114_cure C114_partial", "The claim is false of the code: claimRewards always names every listed provider, in one call that fails as a whole (C114_false). C114_blocked: for every listed provider that cannot pay, through every history in which it is not helped; C114_nothing: the failure changes nothing in the contract; C114_cure: paying in what is missing is enough. C114_partial: when all can pay, all rewards arrive.")
c("C115", "partial", "C115_false C115_waits C115_in_all C115_partial", "The claim is false of the code: maturity is a date, the EGLD has to come from a deposit or from a provider, and only managers send for it (C115_false). C115_waits: for every state with nothing withdrawable and every history without deposit or collection, of any length. C115_in_all: what withdrawals pay is bounded by what came in. C115_partial: with enough withdrawable every matured token is paid in full.")
c("C116", "proved", "C116_stays_closed C116_refusal_closes C116_reopen", "Delegations already on their way to the provider may still arrive; stake and delegations in flight together do not grow.")
c("C117", "proved", "C117_apart C117_history C117_free C117_exact", "Spec.consults is the table of settings each transaction consults; C117_exact shows that no entry of it is superfluous.")
c("C118", "proved", "C118_renamed C118_history C118_reachable C118_peers C118_equal", "The two addresses that the code writes out - the zero address, tested for by the migration, and the delegation manager, recorded in events - keep their names.")
c("C119", "proved", "C119_step C119_history C119_all C119_same C119_account C119_idle C119_others C119_covered", "When EGLD joins the pool for the first stake of a provider, and when rewards are credited, is up to the provider and the delegation manager: these answers are deeds, and so is the payment of fees to the accumulator. Whether a redemption is paid at once or with unstake tokens is not a deed: both count the same here; how long unstake tokens have to wait is the subject of C113 to C115.")
c("C120", "proved", "C120_later C120_history C120_deployed C120_same C120_maturity", "Time is the block epoch; rounds and timestamps are not read by the code (require_min_rounds_passed is empty).")
c("C121", "proved", "C121_step C121_history C121_history_exists C121_promises C121_covered C121_closed", "A whitelisting in flight is not entrusted: its EGLD belongs to the caller until the provider confirms. C121_covered needs honest reports of rewards, as C09.")
c("C122", "proved", "C122_no_taker C122_agrees C122_paid_iff C122_redirect", "A foreign accumulator is given by the calls it accepts; calls it makes back into the contract are the subject of C41. That a synchronous call of an account without code fails is the VM.")
c("C123", "proved", "C123_renamed C123_history C123_deployed C123_same C123_slots", "Identifiers are abstract in the model. The one look the code takes at their bytes (is_valid_esdt_identifier in utils/un_delegation.rs) is passed by every identifier the protocol gives; renamings are to such identifiers.")
