{"id": "C01", "title": "delegate mints the exact pro-rata amount", "statement": "A successful `delegate` paying `a` EGLD debits the caller by `a`, credits the caller with exactly floor(a*S/R) LS tokens (exactly `a` when the reserve R is zero), where S and R are `getLsSupply` and `getVirtualEgldReserve` just before the call; S grows by the minted amount, R grows by `a`, and no other account's EGLD, LS or unstake-token balance changes (only the staking contract's own EGLD balance grows by `a`).", "quantifier": "every contract state, caller and payment amount", "why_tests_cant": "The price is an integer division over unbounded reserves; a test samples a few ratios and cannot exclude a ratio where the mint is off by one or another account moves.", "anchors": ["liquid-staking/src/lib.rs:delegate", "liquid-staking/src/utils/delegate.rs:process_delegation", "liquid-staking/src/liquidity_pool.rs:pool_add_liquidity", "liquid-staking/src/liquidity_pool.rs:get_ls_amount"]}
{"id": "C02", "title": "unDelegate pays the exact pro-rata amount", "statement": "A successful `unDelegate` of `l` LS tokens burns exactly `l`, and gives the caller instant EGLD plus freshly minted unstake tokens whose sum is exactly floor(l*R/S); S falls by `l`, R falls by that sum, and no third account's balances change.", "quantifier": "every contract state, caller and LS amount", "why_tests_cant": "Same: unbounded reserves, three payout branches (instant, partial, deferred) whose sum must be exact for all amounts.", "anchors": ["liquid-staking/src/lib.rs:un_delegate", "liquid-staking/src/liquidity_pool.rs:pool_remove_liquidity", "liquid-staking/src/utils/un_delegation.rs:process_un_delegation"]}
{"id": "C03", "title": "redemption value of an LS token never falls", "statement": "In every history of calls and callbacks, as long as the LS supply has not dropped to zero in between, the reserve/supply ratio never decreases; hence for every amount l the quote floor(l*R/S) of `getLsValueForPosition` never decreases because of anything anybody does.", "quantifier": "every pair of states along every history with positive supply throughout", "why_tests_cant": "A monotonicity claim over arbitrary interleavings of all endpoints and callbacks.", "anchors": ["liquid-staking/src/liquidity_pool.rs", "liquid-staking/src/callback.rs:claim_rewards_callback", "liquid-staking/src/migrate.rs:add_rewards", "liquid-staking/src/views.rs:get_exchange_rate"]}
{"id": "C04", "title": "no profit and bounded loss on a round trip", "statement": "Delegating `a` and redeeming all minted LS tokens, with no other call in between, returns (instant EGLD plus unstake tokens) at most `a`, and loses less than the price of one LS unit plus one wei.", "quantifier": "every contract state with positive supply, every amount", "why_tests_cant": "A rounding bound for all reserves; testing picks friendly numbers.", "anchors": ["liquid-staking/src/liquidity_pool.rs:get_ls_amount", "liquid-staking/src/liquidity_pool.rs:get_egld_amount"]}
{"id": "C05", "title": "LS supply view equals tokens in existence", "statement": "In every reachable state `getLsSupply` equals the sum of the LS balances of all accounts, plus what holders have burned on their own (the contract cannot see such burns).", "quantifier": "every reachable state, all holders", "why_tests_cant": "Needs every mint/burn path in every history to keep the storage counter and ledger in step.", "anchors": ["liquid-staking/src/liquidity_pool.rs", "liquid-staking/src/callback.rs:whitelist_delegation_contract_callback", "liquid-staking/src/migrate.rs:migrate"]}
{"id": "C06", "title": "outstanding LS tokens always have a positive reserve", "statement": "In every reachable state, if any LS tokens exist then the virtual EGLD reserve is positive, so redemption never divides by zero or quotes a fully wiped-out pool.", "quantifier": "every reachable state", "why_tests_cant": "An invariant over all histories and all rounding outcomes.", "anchors": ["liquid-staking/src/liquidity_pool.rs:pool_remove_liquidity"]}
{"id": "C07", "title": "unstake tokens are exactly covered by the unbonding pipeline", "statement": "In every reachable state the unstake tokens held by users, with those they burned on their own or sent to the contract by plain transfers, add up to exactly: EGLD queued for un-delegation + EGLD in un-delegations awaiting a callback + EGLD unbonding at providers + EGLD already withdrawn and waiting in the contract.", "quantifier": "every reachable state, including any order of callbacks and any provider answers", "why_tests_cant": "Callback schedules and failures are unbounded.", "anchors": ["liquid-staking/src/utils/un_delegation.rs:undelegate_amount", "liquid-staking/src/utils/delegate.rs:decrease_pending_egld", "liquid-staking/src/callback.rs", "liquid-staking/src/lib.rs:withdraw"]}
{"id": "C08", "title": "virtual reserve is fully backed", "statement": "In every reachable state: virtual reserve + EGLD queued for un-delegation + un-delegations awaiting callback + EGLD brought in by `migratePending` = pending EGLD + EGLD staked at all providers + delegations awaiting callback + reserve credited by `migrate`. In particular, without migration the virtual reserve is exactly pending + staked + in flight minus what is already promised to unstakers.", "quantifier": "every reachable state and history", "why_tests_cant": "A conservation law over every endpoint, callback and failure.", "anchors": ["liquid-staking/src/callback.rs", "liquid-staking/src/manage.rs", "liquid-staking/src/lib.rs", "liquid-staking/src/migrate.rs"]}
{"id": "C09", "title": "the contract is always solvent", "statement": "In every reachable state (accumulator not re-entering, delegation manager reporting no more than it sends) the contract's EGLD balance is at least pending EGLD + withdrawn EGLD + fees reserve; consequently no payout of the contract ever fails for lack of funds.", "quantifier": "every reachable state and history", "why_tests_cant": "Quantifies over all interleavings of payouts, async calls and refunds.", "anchors": ["liquid-staking/src/lib.rs", "liquid-staking/src/manage.rs", "liquid-staking/src/callback.rs"]}
{"id": "C10", "title": "no withdrawal before the unbonding epoch", "statement": "If `withdraw` succeeds, every unstake token paid in has an unbond epoch not later than the current epoch; equivalently one immature token makes the whole call fail.", "quantifier": "every state and every list of payments", "why_tests_cant": "Lists of payments of any length in any order.", "anchors": ["liquid-staking/src/lib.rs:withdraw"]}
{"id": "C11", "title": "withdraw pays one to one and returns the rest", "statement": "A successful `withdraw` pays the caller exactly as much EGLD as unstake tokens it burns, returns every unburned unstake token, reduces the withdrawn pool by exactly that amount, pays min(total paid in, withdrawn pool), and changes no other account.", "quantifier": "every state and every list of payments", "why_tests_cant": "Lists of payments of any length; the partial-fill branch depends on running totals.", "anchors": ["liquid-staking/src/lib.rs:withdraw"]}
{"id": "C12", "title": "maturity of an unstake position is fixed at unDelegate", "statement": "Unstake tokens received from `unDelegate` at epoch e under unbond period p mature at exactly e+p (when e+p fits in 64 bits), and in every later history, including changes of the unbond period, that maturity never changes.", "quantifier": "every state, every later history", "why_tests_cant": "Immutability over arbitrary future histories, with nonces shared between users and reused.", "anchors": ["liquid-staking/src/utils/un_delegation.rs:undelegate_amount", "liquid-staking/src/liquidity_pool.rs:mint_unstake_tokens", "liquid-staking/src/config.rs:set_unbond_period"]}
{"id": "C13", "title": "unstake-token top-ups never fail", "statement": "In every reachable state, a registered nonce for an unbond epoch refers to an existing token with that maturity of which the contract itself holds at least one unit (exactly one unless it was sent more by plain transfers), so adding quantity to it is always possible; user-held tokens are never burned by clean-up.", "quantifier": "every reachable state", "why_tests_cant": "An invariant over all histories of mints, clean-ups and period changes.", "anchors": ["liquid-staking/src/liquidity_pool.rs:mint_unstake_tokens", "liquid-staking/src/liquidity_pool.rs:clean_old_unbond_epochs"]}
{"id": "C14", "title": "the instant/deferred split is exact, dust-free and maximal", "statement": "For every payment and queue, the split used by `delegate` and `unDelegate` adds up to the payment, never exceeds the opposite queue, leaves that queue empty or with at least 1 EGLD whenever it takes anything, and takes the largest instant part for which both the queue left and the deferred part are each zero or at least 1 EGLD (0 if there is none).", "quantifier": "all pairs of amounts", "why_tests_cant": "Two unbounded integers and a case analysis with four boundaries.", "anchors": ["liquid-staking/src/utils/generic.rs:get_action_amount", "liquid-staking/src/utils/generic.rs:calculate_partial_redeem_amount", "liquid-staking/src/utils/generic.rs:calculate_instant_amount"]}
{"id": "C15", "title": "deposits of at least 1 EGLD are never refused", "statement": "When the contract is active, the LS token is issued, and the pool is not bricked (S>0, or R=0), a `delegate` of at least 1 EGLD that is worth at least one LS unit succeeds.", "quantifier": "every reachable state, every caller with funds", "why_tests_cant": "A liveness claim over every reachable state.", "anchors": ["liquid-staking/src/lib.rs:delegate", "liquid-staking/src/utils/delegate.rs"]}
{"id": "C16", "title": "redemptions worth at least 1 EGLD are never refused", "statement": "When the contract is active and both tokens are issued, an `unDelegate` of LS tokens worth at least 1 EGLD by their holder succeeds in every reachable state, provided the delegation manager never reported more rewards than it sent.", "quantifier": "every reachable state, every holder and amount", "why_tests_cant": "A liveness claim over every reachable state, including token registry and contract balance.", "anchors": ["liquid-staking/src/lib.rs:un_delegate", "liquid-staking/src/utils/un_delegation.rs", "liquid-staking/src/liquidity_pool.rs"]}
{"id": "C17", "title": "delegatePending neither creates nor loses EGLD", "statement": "A successful `delegatePending` for amount x sends EGLD to providers in calls whose amounts add up to exactly the drop in pending EGLD, which is at most x; the un-sent part stays pending; nothing else in the pool accounting changes.", "quantifier": "every state, amount and provider set of any size", "why_tests_cant": "Any number of providers, any scores, any caps.", "anchors": ["liquid-staking/src/manage.rs:delegate_pending", "liquid-staking/src/selection.rs:distribute_amount", "liquid-staking/src/selection.rs:handle_remaining_amount"]}
{"id": "C18", "title": "who receives delegations", "statement": "Every provider addressed by a successful `delegatePending` is whitelisted, eligible, addressed once, and receives at least 1 EGLD; the number of providers addressed is at most the configured maximum, the number of whitelisted providers and floor(x / 1 EGLD).", "quantifier": "every state, amount and provider set", "why_tests_cant": "Any number of providers.", "anchors": ["liquid-staking/src/selection.rs:select_delegation_providers", "liquid-staking/src/selection.rs:calculate_max_providers"]}
{"id": "C19", "title": "provider caps are respected", "statement": "A provider with a declared cap never ends up with more delegated EGLD (staked + in flight) than its cap allows.", "quantifier": "every state and history of batches", "why_tests_cant": "Concerns sequences of batches and late callbacks.", "anchors": ["liquid-staking/src/selection.rs:create_selection_info", "liquid-staking/src/selection.rs:is_delegation_provider_eligible"]}
{"id": "C20", "title": "unDelegatePending is exact, within holdings and dust-free", "statement": "A successful `unDelegatePending` for x asks providers for amounts adding up to exactly the drop of the un-delegation queue (at most x), each at least 1 EGLD, each provider once, never more than that provider's stake net of calls in flight, and leaves each addressed provider with zero or at least 1 EGLD; at most the configured maximum of providers is addressed.", "quantifier": "every state, amount and provider set", "why_tests_cant": "Any number of providers and scores.", "anchors": ["liquid-staking/src/manage.rs:un_delegate_pending", "liquid-staking/src/selection.rs:calculate_provider_amount", "liquid-staking/src/selection.rs:handle_remaining_amount"]}
{"id": "C21", "title": "in-flight counters equal the calls in flight", "statement": "In every reachable state, for every provider, the pending-staking (pending-unstaking) counter reported by `getDelegationContractInfo` equals the sum of delegations (un-delegations) to it whose callback has not yet taken effect.", "quantifier": "every reachable state and callback schedule", "why_tests_cant": "Concurrent batches and arbitrary callback orders.", "anchors": ["liquid-staking/src/manage.rs", "liquid-staking/src/callback.rs"]}
{"id": "C22", "title": "failed provider calls roll back exactly once", "statement": "Whatever the state, the callback of a failed delegation puts exactly its amount back to pending EGLD, releases the in-flight counter and makes the provider ineligible; that of a failed un-delegation puts exactly its amount back in the un-delegation queue and releases the counter; neither callback can itself fail in any reachable state.", "quantifier": "every reachable state, every in-flight call, any order", "why_tests_cant": "Callback order and concurrency are unbounded.", "anchors": ["liquid-staking/src/callback.rs:add_liquidity_callback", "liquid-staking/src/callback.rs:remove_liquidity_callback"]}
{"id": "C23", "title": "rewards are split exactly", "statement": "When rewards r>0 are claimed with fee rate f<=10000 bps, floor(r*f/10000) goes to the fees reserve and exactly the rest goes to both pending EGLD and the virtual reserve; the LS supply is unchanged. With f>10000 the callback of any rewards of at least 10000 units fails and they are credited nowhere.", "quantifier": "every reachable state, every reward and fee", "why_tests_cant": "Unbounded integers.", "anchors": ["liquid-staking/src/callback.rs:claim_rewards_callback", "liquid-staking/src/utils/generic.rs:calculate_share"]}
{"id": "C24", "title": "claimFees moves exactly the fees reserve", "statement": "A successful `claimFees` by any caller sends exactly the fees reserve to the accumulator, sets it to zero and changes nothing else; with an empty reserve it fails.", "quantifier": "every state and caller", "why_tests_cant": "State-universal frame condition.", "anchors": ["liquid-staking/src/manage.rs:claim_fees"]}
{"id": "C25", "title": "privileged calls need privileged callers", "statement": "Calls reserved to managers (delegatePending, unDelegatePending, withdrawPending, claimRewards, whitelistDelegationContract, changeDelegationContractAdmin, setScoringConfig) succeed only for the owner or a manager; owner calls only for the owner; changeDelegationContractParams only for that provider's admin, a manager or the owner; migrate and migratePending only for the configured migration contract. A caller who is none of these can change contract storage only through delegate, unDelegate, withdraw, addRewards and claimFees.", "quantifier": "every state, caller and argument", "why_tests_cant": "All states and callers, all endpoints.", "anchors": ["liquid-staking/src/config.rs:is_manager", "liquid-staking/src/migrate.rs", "liquid-staking/src/delegation.rs"]}
{"id": "C26", "title": "pausing stops user and batch operations", "statement": "While the contract is inactive, delegate, unDelegate, withdraw, delegatePending, unDelegatePending, withdrawPending and claimRewards all fail, for every caller and argument.", "quantifier": "every reachable inactive state", "why_tests_cant": "All states.", "anchors": ["liquid-staking/src/utils/generic.rs:is_state_active", "liquid-staking/src/lib.rs", "liquid-staking/src/manage.rs"]}
{"id": "C27", "title": "configuration changes only through its owner setter", "statement": "For every call or callback, the fee rate, accumulator address, unbond period, provider limits, manager set, migration address, active flag and token ids are unchanged unless the call is the corresponding owner call made by the owner (for a token id: the answer to an issue started by the account that owned the contract then); the owner itself changes only by the owner handing the contract over; the scoring configuration changes only by setScoringConfig by a manager or the owner.", "quantifier": "every reachable state, every call and callback", "why_tests_cant": "A frame condition over all operations.", "anchors": ["liquid-staking/src/config.rs", "liquid-staking/src/storage/mod.rs", "liquid-staking/src/contexts/base.rs"]}
{"id": "C28", "title": "quotes equal execution and views do not change state", "statement": "Whenever `delegate` (`unDelegate`) succeeds, `getEgldPositionValue` (`getLsValueForPosition`) asked just before returns exactly the amount minted (paid); views leave the contract's storage unchanged although they commit the storage cache.", "quantifier": "every state and amount", "why_tests_cant": "All states; the storage cache write-back on drop makes it non-obvious.", "anchors": ["liquid-staking/src/views.rs", "liquid-staking/src/contexts/base.rs"]}
{"id": "C29", "title": "whitelisting is atomic with its first delegation", "statement": "A provider joins the delegation lists only when its initial delegation (at least 1 EGLD) succeeded, at which point the caller gets the pro-rata LS tokens; if that delegation fails the provider record is removed and the caller gets the whole payment back; a whitelisted provider cannot be whitelisted again.", "quantifier": "every reachable state, any delay and interleaving before the callback", "why_tests_cant": "Arbitrary operations may run between call and callback.", "anchors": ["liquid-staking/src/delegation.rs:whitelist_delegation_contract", "liquid-staking/src/callback.rs:whitelist_delegation_contract_callback"]}
{"id": "C30", "title": "number of providers stays within maxDelegationAddresses", "statement": "The number of whitelisted providers never exceeds the configured maximum.", "quantifier": "every reachable state", "why_tests_cant": "Concurrency between call and callback.", "anchors": ["liquid-staking/src/delegation.rs:whitelist_delegation_contract"]}
{"id": "C31", "title": "provider lists are consistent and permanent", "statement": "In every reachable state the delegation list and the un-delegation list hold the same providers, each once, each with a record whose cap is zero or at least its declared total stake; a provider in the lists is never removed by any later history.", "quantifier": "every reachable state and history", "why_tests_cant": "Invariants over all histories of rotations and inserts.", "anchors": ["liquid-staking/src/utils/generic.rs", "liquid-staking/src/delegation.rs", "liquid-staking/src/callback.rs"]}
{"id": "C32", "title": "providers are served round-robin", "statement": "After a successful batch, the list order is: providers not addressed, in their previous order, followed by the addressed providers in the order addressed. A provider that joins is put last, in both lists; nothing else changes the order.", "quantifier": "every state and batch", "why_tests_cant": "Lists of any length.", "anchors": ["liquid-staking/src/utils/generic.rs:move_delegation_contract_to_back", "liquid-staking/src/manage.rs"]}
{"id": "C33", "title": "scores are bounded and ordered as documented", "statement": "Normalised values lie between 0 and 10000 bps; for delegation a provider with higher APY, fewer nodes and less stake from the protocol never scores lower, for un-delegation the order is reversed; scoring fails only on a zero-width range hit exactly.", "quantifier": "all provider data, all scoring configurations", "why_tests_cant": "Unbounded integers and configuration parameters.", "anchors": ["liquid-staking/src/score.rs"]}
{"id": "C34", "title": "accepted scoring weights sum to 100", "statement": "Whenever `setScoringConfig` succeeds the three stored weights add up to 100.", "quantifier": "every configuration argument", "why_tests_cant": "Three 64-bit integers with wrapping addition.", "anchors": ["liquid-staking/src/config.rs:set_scoring_config"]}
{"id": "C35", "title": "deposits cannot be blocked for ever", "statement": "No sequence of calls can bring the contract into a state where every future deposit fails for ever.", "quantifier": "every reachable state and future", "why_tests_cant": "Quantifies over all futures of a reachable state.", "anchors": ["liquid-staking/src/liquidity_pool.rs:get_ls_amount", "liquid-staking/src/migrate.rs:add_rewards", "liquid-staking/src/callback.rs:claim_rewards_callback"]}
{"id": "C36", "title": "one provider cannot block delegatePending", "statement": "The admin of a single provider cannot, by changing its own parameters, make `delegatePending` fail for everyone.", "quantifier": "every state and parameter update", "why_tests_cant": "All parameter values against all provider sets.", "anchors": ["liquid-staking/src/selection.rs:is_delegation_provider_eligible", "liquid-staking/src/delegation.rs:change_delegation_contract_params"]}
{"id": "C37", "title": "a small remainder at one provider cannot block unDelegatePending", "statement": "With a usable scoring configuration, `unDelegatePending` of a valid amount never fails because of the stake left at some provider.", "quantifier": "every reachable state", "why_tests_cant": "States reachable only by particular interleavings of failed and successful callbacks.", "anchors": ["liquid-staking/src/selection.rs:calculate_provider_amount"]}
{"id": "C38", "title": "callbacks of well-behaved providers never fail", "statement": "If every provider answers calls in order and accepts an un-delegation only up to the stake it holds for the contract, no delegation or un-delegation callback ever fails and the stake recorded by the contract equals the stake held by the provider once nothing is in flight.", "quantifier": "every reachable state of contract plus providers, every interleaving that keeps per-provider order", "why_tests_cant": "Unbounded concurrent batches.", "anchors": ["liquid-staking/src/callback.rs", "delegation-mock/src/delegation.rs"]}
{"id": "C39", "title": "migration is price-neutral", "statement": "`migrate` mints LS tokens at the current price to the migration contract only, never lowers the redemption value of existing tokens, and `migratePending` only adds the received EGLD to pending EGLD.", "quantifier": "every state and amount", "why_tests_cant": "All reserves and amounts.", "anchors": ["liquid-staking/src/migrate.rs"]}
{"id": "C40", "title": "events report the committed state", "statement": "Every liquidity event emitted by a successful call or callback carries exactly the reserve figures that are in storage when the call ends.", "quantifier": "every state, call and callback", "why_tests_cant": "All endpoints and states; the cache is written back only on drop.", "anchors": ["liquid-staking/src/events.rs", "liquid-staking/src/contexts/base.rs"]}
{"id": "C41", "title": "claimFees is safe against re-entrancy", "statement": "`claimFees` pays out the fees reserve at most once even if the accumulator calls back into the contract while being paid.", "quantifier": "every state and accumulator behaviour", "why_tests_cant": "Arbitrary code runs during the call.", "anchors": ["liquid-staking/src/manage.rs:claim_fees", "liquid-staking/src/contexts/base.rs"]}
{"id": "C42", "title": "no double claim", "statement": "Over every history the EGLD paid out by `withdraw` plus the unstake tokens still held by users plus the unstake tokens burned by their holders or sent to the contract by plain transfers equals the unstake tokens ever issued by `unDelegate`.", "quantifier": "every history", "why_tests_cant": "Sums over unbounded histories.", "anchors": ["liquid-staking/src/lib.rs:withdraw", "liquid-staking/src/utils/un_delegation.rs"]}
{"id": "C43", "title": "parameter updates do not touch accounting", "statement": "changeDelegationContractParams and changeDelegationContractAdmin change only the declared parameters of the named provider: its staked, unstaked and in-flight amounts, every other provider and all pool figures stay the same.", "quantifier": "every state and argument", "why_tests_cant": "Frame condition over all states.", "anchors": ["liquid-staking/src/delegation.rs"]}
{"id": "C44", "title": "withdrawn stake moves exactly from unbonding to withdrawable", "statement": "When a provider returns w EGLD, at most its recorded unbonding amount, exactly w moves from the unbonding total and from that amount to the withdrawable pool; when it returns more, the callback fails and the EGLD is recorded nowhere; in every reachable state the unbonding total equals the sum over providers.", "quantifier": "every reachable state, every amount", "why_tests_cant": "Invariant over all histories.", "anchors": ["liquid-staking/src/callback.rs:withdraw_tokens_callback", "liquid-staking/src/callback.rs:remove_liquidity_callback"]}
{"id": "C45", "title": "a delegation batch is complete and proportional to the scores", "statement": "A successful delegatePending selects, in list order, the first providers that are open to the amount (at most the number the contract picks), computes each one's score from the configured ranges and weights, and gives each its share of the batch in proportion to the scores, cut to the room left under its cap; shares below 1 EGLD are dropped, and what is left over goes to the selected providers in order up to their room. When all scores are zero the providers are served in order, each as much as it has room for. Anything not sent stays pending only if every provider of the batch is filled to its cap; with uncapped providers the whole amount is sent.", "quantifier": "forall reachable states with fewer than 2^32 providers, batch amounts and scoring configurations", "why_tests_cant": "the outcome depends on scores, caps and list order of arbitrarily many providers; tests use a handful with fixed values", "anchors": ["liquid-staking/src/selection.rs:handle_delegation", "liquid-staking/src/selection.rs:distribute_amount", "liquid-staking/src/selection.rs:handle_remaining_amount", "liquid-staking/src/score.rs", "liquid-staking/src/manage.rs:delegate_pending"]}
{"id": "C46", "title": "outgoing calls go only to registered providers", "statement": "A transaction sends only the calls it is meant to send: delegations and un-delegations of at least 1 EGLD only from the batch endpoints and only to providers on the lists, withdrawal calls only from withdrawPending to a provider with a record, one reward claim from claimRewards naming every listed provider (in particular every one where something is staked, unbonding or in flight) exactly once, and the first delegation of a whitelisting to the new provider. Nothing else leaves, and a call disappears from the list of open calls only when its answer arrives.", "quantifier": "every reachable state, every transaction", "why_tests_cant": "Quantifies over all transactions and all states, including provider sets of any size.", "anchors": ["liquid-staking/src/manage.rs", "liquid-staking/src/delegation.rs:whitelist_delegation_contract"]}
{"id": "C47", "title": "settings take effect exactly", "statement": "Each of the owner's setters (state, accumulator, fees, minimum rounds, limits, unbond period, managers) and setScoringConfig stores exactly the value given and changes nothing else; the owner can use them at any time (zero limits are refused); a removed manager has no manager's rights afterwards.", "quantifier": "every reachable state, every value", "why_tests_cant": "Frame conditions over the whole storage for every state and value.", "anchors": ["liquid-staking/src/config.rs"]}
{"id": "C48", "title": "views agree with the pool", "statement": "getExchangeRate always answers: 1 EGLD per LS token when there are none, else what one whole LS token redeems for; values computed from it never exceed the redemption quote and fall short by at most the rounding; it is never below 1 EGLD and never falls while LS tokens exist. The staked/unstaked views of a provider answer exactly for registered providers and the unstaked views add up to the published unbonding total.", "quantifier": "every reachable state, every amount, every history", "why_tests_cant": "The floor of 1 EGLD and monotonicity are invariants over all histories.", "anchors": ["liquid-staking/src/views.rs"]}
{"id": "C49", "title": "deployment starts empty and closed", "statement": "init succeeds exactly when both limits are positive and leaves the contract inactive, with the configuration given, no tokens, managers or providers, all figures zero and nothing in flight. Until the LS token is issued the pool stays empty and nobody but the owner (of the time), managers named by the owner and provider admins can change storage.", "quantifier": "every set of deployment arguments; every reachable state without LS token", "why_tests_cant": "Quantifies over all histories before set-up.", "anchors": ["liquid-staking/src/lib.rs:init", "liquid-staking/src/config.rs"]}
{"id": "C50", "title": "exactly when a withdrawal is accepted", "statement": "A withdraw call with unstake tokens succeeds if and only if the contract is active with both tokens issued, every payment is a positive amount of an unstake token whose maturity has been reached, the caller holds what they send, and before each payment something withdrawable is still left. In particular nothing else (balances of the contract, provider state, other users) can block a matured withdrawal.", "quantifier": "forall states reachable with an honest manager, callers and payment lists", "why_tests_cant": "an exact acceptance condition over all states and multi-payment lists", "anchors": ["liquid-staking/src/lib.rs:withdraw"]}
{"id": "C51", "title": "contract and providers together are solvent", "statement": "With a delegation manager that sends the rewards it reports, in every reachable state of contract plus providers: the virtual reserve, plus all unstake tokens of users (those they burned included), plus the fees reserve, plus EGLD brought in by migratePending, is at most the contract's EGLD balance plus what the providers hold for it (staked or unbonding) plus the EGLD on its way between them plus reserve credited by migrate.", "quantifier": "every reachable state of the composed system: all interleavings of user calls, provider answers (including refusals) and callbacks, requests and answers in any order, any callback running out of gas", "why_tests_cant": "The claim is about EGLD outside the contract, in flight and in the providers' books, for every interleaving; a test looks at one schedule.", "anchors": ["liquid-staking/src/callback.rs", "liquid-staking/src/manage.rs", "liquid-staking/src/liquidity_pool.rs", "delegation-mock/src/delegation.rs"]}
{"id": "C52", "title": "everybody can exit", "statement": "When nothing is in flight and the un-delegation queue is empty, any manager can, with withdrawPending calls alone and providers paying what they owe, reach a state in which every holder of matured unstake tokens, in any order and with any list of payments, is paid in full.", "quantifier": "every such state of the composed system, every manager, every holder and list of payments", "why_tests_cant": "A liveness claim for all reachable states: it needs the books of all providers to match the records exactly, which is an invariant over all histories.", "anchors": ["liquid-staking/src/manage.rs:withdraw_pending", "liquid-staking/src/callback.rs:withdraw_tokens_callback", "liquid-staking/src/lib.rs:withdraw", "delegation-mock/src/delegation.rs:withdraw"]}
{"id": "C53", "title": "the un-delegation queue never holds dust", "statement": "In every reachable state the queue of EGLD still to be asked back from providers is zero or at least one EGLD, so that it can always be asked back.", "quantifier": "every reachable state", "why_tests_cant": "The queue is filled by users and by what a batch could not place; only an invariant over all histories excludes a remainder below the minimum.", "anchors": ["liquid-staking/src/manage.rs:un_delegate_pending", "liquid-staking/src/selection.rs:handle_remaining_amount", "liquid-staking/src/selection.rs:calculate_provider_amount"]}
{"id": "C54", "title": "un-delegations are shared fairly between the providers", "statement": "When EGLD is asked back, the providers addressed belong to the shortest front part of the rotation (among those holding stake) that is as long as may be addressed and expected to give the whole amount, never longer than configured. Each addressed provider gives at least its part proportional to its un-delegation score (cut down to its stake and to what remains), and more than that only if it gives all it has or those before it could not take the rest. If the provider whose turn it is holds the whole amount and one EGLD more, the whole amount is asked back. When all scores are zero the providers are asked in turn, each for all it has or for all that is missing.", "quantifier": "every reachable state, every accepted un-delegation batch, every number of providers", "why_tests_cant": "The split depends on the stakes, scores and order of arbitrarily many providers; tests cover a few fixed configurations.", "anchors": ["liquid-staking/src/selection.rs:select_undelegation_providers", "liquid-staking/src/selection.rs:calculate_provider_amount", "liquid-staking/src/selection.rs:handle_remaining_amount", "liquid-staking/src/score.rs:calculate_stake_score"]}
{"id": "C55", "title": "each token is issued once, by the owner, and a refused issue is refunded", "statement": "Only the owner can start the issue of the LS token or of the unstake token, paying for it, and only while that token does not exist and no issue of it is awaited; so at most one issue of each is awaited at any time. An issue changes nothing else. If the system contract issues the token, its identifier is recorded, for ever, and differs from that of the other token. If it refuses, the whole payment is back with the account that paid it, nothing else has moved, and the present owner can start again.", "quantifier": "every reachable state, every caller, payment and answer, every order of the two issues", "why_tests_cant": "The answer arrives later, in another block, and may be a refusal; the tests' setup issues both tokens synchronously by writing them into storage.", "anchors": ["liquid-staking/src/config.rs:register_ls_token", "liquid-staking/src/config.rs:register_unstake_token"]}
{"id": "C56", "title": "EGLD is neither created nor lost", "statement": "In every transaction the EGLD of all accounts, of the delegations in flight and of the token issues awaited changes only by EGLD reaching users from outside, by what an answer brings back, by an accepted delegation and by the cost of an issued token. With the repository's mock providers and manager attached, the EGLD of all accounts, all mocks and everything on its way changes only by EGLD reaching users, deposits at mocks and issue costs.", "quantifier": "every reachable state and every transaction, accepted or not, including callbacks that fail or run out of gas, requests and answers in any order", "why_tests_cant": "A conservation law over all accounts and all messages in flight; a test compares a few balances.", "anchors": ["liquid-staking/src/manage.rs", "liquid-staking/src/callback.rs", "liquid-staking/src/lib.rs", "delegation-mock/src/delegation.rs", "delegation-manager-mock/src/delegation_manager.rs:claim_multiple"]}
{"id": "C57", "title": "rewards arrive in full and are credited once", "statement": "A claim reaching the delegation manager pays exactly the rewards due at the providers it names, each paying its own part, and leaves nothing due; if one of them cannot pay, nothing moves anywhere. From the manager's call to the callback, the contract's balance rises by exactly the sum of the rewards due, the fee part goes to the fees reserve and the rest to the reserve and to the EGLD to be delegated; nothing else changes. Claiming in two steps pays the same as claiming once, up to one unit of rounding.", "quantifier": "every reachable state of contract, mocks and manager; any number of providers and epochs", "why_tests_cant": "The reward passes through three contracts and two asynchronous steps; the tests check one configuration with fixed figures.", "anchors": ["liquid-staking/src/manage.rs:claim_rewards", "liquid-staking/src/callback.rs:claim_rewards_callback", "delegation-mock/src/delegation.rs:claim_rewards", "delegation-manager-mock/src/delegation_manager.rs:claim_multiple"]}
{"id": "C58", "title": "everybody can exit from the network", "statement": "When nothing is on its way, the un-delegation queue is empty, and every mock holds the EGLD it owes, then ten epochs later a manager can, by withdrawPending calls alone, served and answered, reach a state in which every holder of matured unstake tokens, in any order and with any list of payments, is paid in full.", "quantifier": "every such reachable state of contract and mocks, every manager, every later epoch, every holder and list of payments", "why_tests_cant": "A liveness claim for all reachable states that joins the mocks' unbonding clock with the contract's own maturities.", "anchors": ["liquid-staking/src/manage.rs:withdraw_pending", "liquid-staking/src/callback.rs:withdraw_tokens_callback", "liquid-staking/src/lib.rs:withdraw", "delegation-mock/src/delegation.rs:undelegate", "delegation-mock/src/delegation.rs:withdraw"]}
{"id": "C59", "title": "providers never refuse what the contract asks", "statement": "When requests to a provider are served in the order in which they were sent, a mock never refuses a delegation or an un-delegation: the contract never asks back more than the mock holds and never sends less than it accepts. Every listed provider is a mock, and while no request to it is on its way the contract's record of it states the mock's own figures.", "quantifier": "every reachable state of contract and mocks, every interleaving of calls, requests served and answers delivered", "why_tests_cant": "The contract decides on records that lag behind the mocks; only an invariant over all interleavings shows that they never overstate.", "anchors": ["liquid-staking/src/manage.rs:delegate_pending", "liquid-staking/src/manage.rs:un_delegate_pending", "liquid-staking/src/selection.rs", "liquid-staking/src/callback.rs", "delegation-mock/src/delegation.rs:delegate", "delegation-mock/src/delegation.rs:undelegate"]}
{"id": "C60", "title": "nobody can take from an account that sends nothing", "statement": "No transaction, of users, managers, owner or providers, lowers the EGLD, the LS tokens or the unstake tokens of an account that did not send it. Over any history in which the account sends nothing, its unstake tokens keep their maturity epochs and the EGLD that its LS tokens would redeem for never falls.", "quantifier": "every reachable state, every account other than the contract, every history of transactions of others", "why_tests_cant": "Safety against all others together, over unbounded histories; tests follow the scripted actions of two users.", "anchors": ["liquid-staking/src/lib.rs", "liquid-staking/src/manage.rs", "liquid-staking/src/callback.rs", "liquid-staking/src/liquidity_pool.rs"]}
{"id": "C61", "title": "a deposit redeemed at once comes back almost whole", "statement": "Whoever deposits and redeems the LS tokens received at once gets back (in EGLD and unstake tokens together) at least 99.9% of the deposit.", "quantifier": "every reachable state, every deposit", "why_tests_cant": "The loss depends on the rate, which someone can have driven up beforehand; tests use rates near one.", "anchors": ["liquid-staking/src/liquidity_pool.rs:get_ls_amount", "liquid-staking/src/liquidity_pool.rs:pool_remove_liquidity", "liquid-staking/src/migrate.rs:add_rewards"]}
{"id": "C62", "title": "nothing is gained by splitting", "statement": "A deposit made in several parts never mints more LS tokens than the same deposit made at once. A redemption made in several parts never pays more, in EGLD and unstake tokens together, than the same redemption made at once.", "quantifier": "every reachable state, every list of amounts", "why_tests_cant": "Rounding acts at every step and changes the rate for the next; a test tries one split.", "anchors": ["liquid-staking/src/lib.rs:delegate", "liquid-staking/src/lib.rs:un_delegate", "liquid-staking/src/liquidity_pool.rs"]}
{"id": "C63", "title": "no group of accounts can profit from the contract by itself", "statement": "Take any group of accounts, and value what it owns as its EGLD, its unstake tokens and its LS tokens at the current rate. While no rewards arrive, and nobody outside the group deposits, redeems, adds rewards or sends a member anything, this value never grows, whatever deposits, redemptions, withdrawals, gifts and transfers the members make, and whatever managers, the owner and the providers do meanwhile.", "quantifier": "every reachable state, every group of accounts (of any size), every history of this kind", "why_tests_cant": "An upper bound over all strategies of a coalition of arbitrary size; tests can only try single strategies.", "anchors": ["liquid-staking/src/lib.rs", "liquid-staking/src/manage.rs", "liquid-staking/src/callback.rs", "liquid-staking/src/liquidity_pool.rs", "liquid-staking/src/migrate.rs:add_rewards"]}
{"id": "C64", "title": "a transaction changes only the parts it is for", "statement": "The state is divided into 45 kinds of part: every figure of the pool, every setting, and, separately for every account, provider, position and epoch, its balance, record, description and registration. For every transaction a short list names the parts it may change. Everything not on the list is left exactly as it was. A failed transaction, a view and an upgrade change nothing.", "quantifier": "every reachable state, every transaction and callback, every part", "why_tests_cant": "The claim is about everything a transaction does not do, for all accounts and providers at once; a test looks at the few figures it expects to change.", "anchors": ["liquid-staking/src/lib.rs", "liquid-staking/src/manage.rs", "liquid-staking/src/callback.rs", "liquid-staking/src/config.rs", "liquid-staking/src/migrate.rs", "liquid-staking/src/delegation.rs"]}
{"id": "C65", "title": "events are exact", "statement": "Every transaction emits exactly the events written down for it, in order, with the right kind, amounts, caller, token, figures of the pool after the transaction and epoch; transactions and failing callbacks for which none is written down emit none.", "quantifier": "every reachable state, every transaction and callback", "why_tests_cant": "Tests do not look at events, and off-chain services depend on them; absence of events is a claim about all other paths.", "anchors": ["liquid-staking/src/events.rs", "liquid-staking/src/lib.rs", "liquid-staking/src/manage.rs", "liquid-staking/src/callback.rs", "liquid-staking/src/migrate.rs"]}
{"id": "C66", "title": "the log of events tells the state of the pool", "statement": "In every reachable state the seven figures of the pool are those carried by the last liquidity event, except that the fees may have been paid out since. The fees reserve grows by exactly the protocol revenue announced and never exceeds the sum of all revenue announced.", "quantifier": "every reachable state; every history", "why_tests_cant": "A relation between the whole log and the storage over unbounded histories.", "anchors": ["liquid-staking/src/events.rs", "liquid-staking/src/manage.rs:claim_fees", "liquid-staking/src/callback.rs:claim_rewards_callback"]}
{"id": "C67", "title": "exactly when a callback fails", "statement": "A callback fails exactly when the provider un-delegates more than the contract staked with it, sends back more than was un-delegated from it or than is unbonding in all, the fee rate takes more than the rewards, the first delegation of a provider would mint nothing, or the LS token does not exist yet. A callback that fails changes nothing in storage and tokens; every other one settles its call.", "quantifier": "every reachable state, every call on its way, every answer", "why_tests_cant": "An if-and-only-if over all states and answers; tests never make a callback fail.", "anchors": ["liquid-staking/src/callback.rs"]}
{"id": "C68", "title": "which position a redemption joins", "statement": "The deferred part of a redemption goes to the nonce registered for its maturity when there is one. Otherwise the next nonce is opened with the present epoch and the maturity written on it, it is registered, the contract keeps one unit of it, and the previous nonce is retired if and only if it was opened at an earlier epoch. Redemptions at one epoch and one unbond period therefore share one nonce, whatever happens in between.", "quantifier": "every reachable state, every redemption, every history within one epoch", "why_tests_cant": "Depends on the history of earlier redemptions; the tests redeem at most twice.", "anchors": ["liquid-staking/src/lib.rs:un_delegate", "liquid-staking/src/liquidity_pool.rs:mint_unstake_tokens"]}
{"id": "C69", "title": "exactly when each transaction is accepted", "statement": "For every operation there is a condition, written without the code's own helpers and covering the batches (which providers are looked at, what their records must look like, how much must be shared out or collected) as well as every user, provider, manager and owner call, such that the operation succeeds if the condition holds and is refused if it does not. No transaction is refused for a reason outside the condition and none slips through.", "quantifier": "every state reachable under an honest manager with fewer than 2^32 listed providers and a selection limit below 2^32, every operation", "why_tests_cant": "An if-and-only-if over every state and argument: a test shows one acceptance or one refusal.", "anchors": ["liquid-staking/src/lib.rs", "liquid-staking/src/delegation.rs", "liquid-staking/src/manage.rs", "liquid-staking/src/callback.rs"]}
{"id": "C70", "title": "an LS holder gets out with the full value", "statement": "When nothing is on its way, the contract is active with both tokens and a usable scoring configuration, the mocks hold what they owe, and the first provider with stake can give what is queued plus this redemption and keep one EGLD, then any holder of LS tokens worth v, at least one EGLD, can redeem them and, a manager asking back and collecting, has exactly v EGLD more by the end of the unbond period: no more and no fewer unstake tokens than before, and nobody else's balances changed. Without the condition on the first provider the redemption may stay queued for ever: when every provider with stake holds more than the queue but less than two EGLD, no unDelegatePending takes anything.", "quantifier": "every such reachable state of contract and mocks, every holder, amount, manager and later epoch", "why_tests_cant": "A liveness claim through redemption, un-delegation batch, unbonding clock, collection and withdrawal for all states; a test follows one schedule from one state.", "anchors": ["liquid-staking/src/lib.rs:un_delegate", "liquid-staking/src/manage.rs:un_delegate_pending", "liquid-staking/src/manage.rs:withdraw_pending", "liquid-staking/src/callback.rs", "liquid-staking/src/lib.rs:withdraw", "delegation-mock/src/delegation.rs:undelegate", "delegation-mock/src/delegation.rs:withdraw"]}
{"id": "C71", "title": "the order of answers does not matter", "statement": "When several calls to providers and to the delegation manager are on their way, the order in which their answers arrive does not matter: any two orders in which each provider's own answers keep their order lead to the same state, part by part (only the log of events differs). First delegations are the exception: their answer mints at the rate of the moment, so they commute with delegations, un-delegations and withdrawals of others but not with rewards or other first delegations; and the answers of one provider may not overtake each other.", "quantifier": "every reachable state, every set of answers (success, refusal, any EGLD attached, failing callbacks included), every such pair of orders", "why_tests_cant": "Asynchronous answers arrive in any interleaving; tests deliver them in one order, and the number of orders is factorial.", "anchors": ["liquid-staking/src/callback.rs"]}
{"id": "C72", "title": "rewards reach the holders in proportion, and nothing else raises their value", "statement": "A transaction that credits x EGLD to the holders (an answer to claimRewards, of r EGLD, credits r less the fee; addRewards credits what it is sent) leaves every LS balance and makes every holder's tokens worth its share of x more, to within one unit of EGLD; all holders together gain x, less the share of LS tokens burned by their holders, to within one unit each. Every other transaction raises the rate by rounding only: all LS tokens together gain at most one unit of EGLD or the value of one unit of LS token. Over any history the rate has risen by the sum of what was credited per LS token at the time, and beyond that at most by the rounding of each transaction.", "quantifier": "for all reachable worlds, all transactions, all holders, and all histories during which LS tokens exist", "why_tests_cant": "A test compares one reward against one balance; that no other transaction moves value to the holders, and that the gain of a whole history is the sum of its rewards, are statements about all transactions and all histories.", "anchors": ["liquid-staking/src/callback.rs:claim_rewards_callback", "liquid-staking/src/migrate.rs:add_rewards", "liquid-staking/src/liquidity_pool.rs:get_egld_amount"]}
{"id": "C73", "title": "roles are given only by those who may", "statement": "Whoever has a role after a transaction (owner, manager, migration contract, admin of a provider) and had none before is named in that transaction, and it was sent by the owner, or, for a provider's admin, by the owner or a manager. A group of accounts without roles never acquires one, whatever its members do, unless somebody outside the group names one of them. After the contract is handed over the new owner can use every setting, and the old owner none of them, and is a manager only if named as one.", "quantifier": "for all reachable worlds, all transactions, all groups of accounts and all histories", "why_tests_cant": "Privilege escalation would use a sequence of calls nobody thought of; the statement covers all of them, of any number of accounts together, with handovers in between.", "anchors": ["liquid-staking/src/config.rs:is_manager", "liquid-staking/src/config.rs", "liquid-staking/src/delegation.rs", "liquid-staking/src/migrate.rs"]}
{"id": "C74", "title": "tokens burned by their holders are lost to them and locked for ever", "statement": "A holder who burns LS or unstake tokens through the protocol loses exactly those tokens; nothing else changes: not the supply and reserve the contract works with, not the rate, not any other balance. The EGLD behind them never reaches anybody: whatever happens later, the supply still counts the burned LS tokens and the reserve holds at least what they were worth, and the queue, the un-delegations on their way, the stake unbonding and the withdrawable pot together hold the burned unstake tokens on top of every claim still held.", "quantifier": "for all reachable worlds, all holders and amounts, and all later histories", "why_tests_cant": "A burn happens outside the contract; that it can never be turned into a gain, or into a loss for others, is a statement about everything that can happen afterwards.", "anchors": ["liquid-staking/src/liquidity_pool.rs", "liquid-staking/src/utils/un_delegation.rs", "liquid-staking/src/lib.rs:withdraw"]}
{"id": "C75", "title": "every EGLD in the contract's account is accounted for", "statement": "At all times the contract's EGLD is exactly: EGLD waiting to be delegated, plus withdrawable EGLD, plus fees, plus what the history left over; and what is left over is exactly EGLD sent along with `withdraw`, EGLD sent to the contract by plain transfers, EGLD attached to answers that should bring none, rewards beyond the total reported, and EGLD arriving with an answer whose callback fails. Nobody ever gets any of it: with an honest delegation manager it never shrinks. In a history that leaves nothing over the balance is exactly what is booked. The LS tokens the contract holds are exactly those sent to it by plain transfers.", "quantifier": "for all reachable worlds, all transactions, all answers and all histories", "why_tests_cant": "An equation about the balance after every possible history, with the exact list of all ways in which EGLD can get stuck; tests check that a balance is sufficient, not that nothing is lost.", "anchors": ["liquid-staking/src/lib.rs:withdraw", "liquid-staking/src/callback.rs", "liquid-staking/src/manage.rs:claim_fees", "liquid-staking/src/utils/delegate.rs", "liquid-staking/src/utils/un_delegation.rs"]}
{"id": "C76", "title": "rewards cannot be taken by a deposit of a moment", "statement": "Nobody gains by depositing and redeeming within one epoch: an account that comes with EGLD only and leaves in the same epoch takes away no more than it brought, also when rewards arrive in between, since those were earned by the others.", "quantifier": "for all reachable worlds, all amounts and all rewards", "why_tests_cant": "The gain depends on the order of transactions and answers within a block; tests deliver answers at once and never place a deposit between a claim and its answer.", "anchors": ["liquid-staking/src/lib.rs:delegate", "liquid-staking/src/lib.rs:un_delegate", "liquid-staking/src/manage.rs:claim_rewards", "liquid-staking/src/callback.rs"]}
{"id": "C77", "title": "a group gains from rewards by what it holds when they arrive, and by nothing else", "statement": "Whatever a group of accounts does, in whatever order with the transactions of managers and the answers of providers: as long as nobody outside deposits, redeems or sends it anything, its EGLD, unstake tokens and LS tokens (at the current rate) together grow at most by its share in every reward, the fraction of all LS tokens it holds when the reward arrives.", "quantifier": "for all reachable worlds, all groups of accounts and all histories", "why_tests_cant": "A bound over all interleavings of many accounts' transactions with claims in flight; tests follow single users through fixed sequences.", "anchors": ["liquid-staking/src/lib.rs:delegate", "liquid-staking/src/lib.rs:un_delegate", "liquid-staking/src/migrate.rs:add_rewards", "liquid-staking/src/callback.rs"]}
{"id": "C78", "title": "a callback out of gas loses its answer, for ever", "statement": "If the callback of an answered call runs out of gas, the call is no longer in flight, what the answer brought stays in the contract's account, and nothing else changes: not the pool, the records, anybody's EGLD or tokens. The amount of such a delegation or un-delegation stays counted as on its way at its provider in every later state: no endpoint can take the answer up again.", "quantifier": "for all worlds, calls in flight, answers and later histories", "why_tests_cant": "The tests give every callback enough gas; that no later transaction repairs the counters is a statement about all histories.", "anchors": ["liquid-staking/src/callback.rs:add_liquidity_callback", "liquid-staking/src/callback.rs:remove_liquidity_callback", "liquid-staking/src/manage.rs:delegate_pending", "liquid-staking/src/manage.rs:un_delegate_pending"]}
{"id": "C79", "title": "what smart contracts send to the contract by plain transfers stays there and changes nothing else", "statement": "The contract is deployed as payable by smart contracts. A smart contract that sends it EGLD, LS tokens or unstake tokens without calling an endpoint loses exactly what it sent, and nothing else changes: no figure of the pool, no rate, no queue, no record, nobody else's balance. Nobody ever gets it back: the EGLD stays in the contract's account on top of everything booked (with an honest delegation manager), the LS tokens stay with the contract and the reserve keeps what they were worth, and what the unstake tokens stood for stays in the queue, on its way, unbonding or withdrawable on top of every claim still held.", "quantifier": "for all reachable worlds, senders, amounts and later histories", "why_tests_cant": "Such transfers run no code of the contract, so no test of an endpoint meets them; that no later transaction lets them out or miscounts them is a statement about all histories.", "anchors": ["liquid-staking/src/liquidity_pool.rs", "liquid-staking/src/lib.rs:withdraw", "liquid-staking/src/lib.rs:un_delegate", "liquid-staking/src/manage.rs:claim_fees"]}
{"id": "C80", "title": "a deposit can be taken out again, whatever happens in between", "statement": "An account deposits a EGLD, then worth at least 1 EGLD in LS tokens, and sends nothing for any length of time. Whatever all others do meanwhile (users, managers, owner, migration contract, providers, a contract paused and resumed), the account can redeem the LS tokens whenever the contract is active and the unstake token issued, and gets EGLD and unstake tokens adding up to a, less at most the price of one LS unit plus one unit. After any further length of time, once the unbond period has passed and the contract holds enough withdrawable EGLD, it can withdraw, and then has all the EGLD it had before the deposit but that difference, and no fewer LS and unstake tokens. (Honest delegation manager.)", "quantifier": "forall reachable states, depositors, amounts, and histories of any length between deposit, redemption and withdrawal", "why_tests_cant": "the claim spans three transactions with arbitrary histories of everybody else in between; tests follow one script", "anchors": ["liquid-staking/src/lib.rs:delegate", "liquid-staking/src/lib.rs:un_delegate", "liquid-staking/src/lib.rs:withdraw"]}
{"id": "C81", "title": "withdrawals after each other share what there is; with enough for all the order does not matter", "statement": "When holders of unstake tokens withdraw after each other, with nothing else in between, they get together exactly what they claim, or all the withdrawable EGLD if that is less; nobody gets more than claimed and nobody else gets anything. If there is enough for all, each gets exactly its claim and gives exactly the unstake tokens paid in, and the same withdrawals succeed in every other order with the same balances at the end. If there is not enough there is no priority: who comes first is paid, even before a holder whose position matured earlier, who may then be refused. (Every other order: honest delegation manager.)", "quantifier": "for all reachable states, lists of withdrawals of any length by any accounts, and all permutations of them", "why_tests_cant": "the claim compares all orders of any number of withdrawals; a test runs one order of a few", "anchors": ["liquid-staking/src/lib.rs:withdraw"]}
{"id": "C82", "title": "storage entries never share a key", "statement": "No two entries of the contract's storage - the settings, the figures, the record of each provider, the unstake token of each epoch, the nodes of the two address sets, the managers, a saved callback - are stored under the same key, so that writing one never changes another; and none lies under the prefix the protocol reserves.", "quantifier": "all kinds of entries, all addresses, epochs, node numbers and hashes", "why_tests_cant": "Keys are names followed by raw bytes of arguments: whether some address or epoch makes two keys equal is a question about all of them, and several names are prefixes of others.", "anchors": ["liquid-staking/src/storage/mod.rs:pending_egld", "liquid-staking/src/storage/mod.rs:pending_egld_for_unstake", "liquid-staking/src/storage/mod.rs:delegation_contract_data", "liquid-staking/src/storage/mod.rs:unstake_token_nonce", "liquid-staking/src/migrate.rs:migration_sc_address"]}
{"id": "C83", "title": "what is stored is read back", "statement": "Every figure, setting, provider record, scoring configuration and unstake-token attribute is decoded to exactly what was encoded; a number leaves its entry empty only if it is zero and a record never does, so an empty entry always means 'not there'; and the bytes of storage determine all of them.", "quantifier": "all values (records whose figures fit their length prefix), all stores", "why_tests_cant": "A test stores a few values; that no two records share an encoding and none is empty is about all values.", "anchors": ["liquid-staking/src/structs.rs:get_total_amount_with_pending_callbacks", "liquid-staking/src/storage/mod.rs:delegation_contract_data", "liquid-staking/src/storage/mod.rs:scoring_config", "liquid-staking/src/storage/mod.rs:unstake_token_nonce"]}
{"id": "C84", "title": "what users get does not depend on the dealings with providers", "statement": "Deposits, redemptions, withdrawals, rewards sent in, migration, fees, settings, transfers and views have the same outcome (success or the same error) and the same effect whatever the records and orders of the providers, the calls on their way and the callbacks that failed, as long as the figures of the pool are the same; and they leave those dealings as they are. Asking providers for withdrawals and rewards, changing a provider's admin, terms or eligibility, a provider accepting a delegation, and answers that bring nothing may therefore happen at any time or not at all without anybody noticing.", "quantifier": "every pair of states that differ in the dealings with providers only, every such transaction, every history with such dealings at any points", "why_tests_cant": "The claim compares pairs of executions (hyperproperty); a test sees one execution, and the dealings may be interleaved at any point.", "anchors": ["liquid-staking/src/lib.rs:delegate", "liquid-staking/src/lib.rs:un_delegate", "liquid-staking/src/lib.rs:withdraw", "liquid-staking/src/callback.rs:add_liquidity_callback", "liquid-staking/src/delegation.rs:change_delegation_contract_params"]}
{"id": "C85", "title": "the balances of others have no influence", "statement": "What any transaction or answer does - success, error, every figure, record, event and the balances of the contract and of the accounts looked at - does not depend on the EGLD, LS tokens and unstake tokens held by accounts other than the contract and the payer; over histories, other than the contract and all payers.", "quantifier": "every pair of states that differ in balances of other accounts, every transaction, every history", "why_tests_cant": "The claim compares pairs of executions over all distributions of balances.", "anchors": ["liquid-staking/src/lib.rs:delegate", "liquid-staking/src/lib.rs:un_delegate", "liquid-staking/src/lib.rs:withdraw", "liquid-staking/src/manage.rs:delegate_pending", "liquid-staking/src/callback.rs"]}
{"id": "C86", "title": "nothing limits how often batches are sent", "statement": "The settings roundsPerEpoch and minimumRounds, given at deployment and changed by setMinimumRounds, have no influence on any transaction or answer, over any history; whatever they say, one batch may follow another at once (README: once per day). Neither do events, failed callbacks and the counters kept by the model have any influence.", "quantifier": "every pair of states that differ in those parts only, every transaction and history; every value of the two settings", "why_tests_cant": "That a setting is never read is a claim about all executions in pairs; the tests never change it.", "anchors": ["liquid-staking/src/utils/generic.rs:require_min_rounds_passed", "liquid-staking/src/manage.rs:delegate_pending", "liquid-staking/src/config.rs:set_minimum_rounds"]}
{"id": "C87", "title": "managers can always reopen delegation", "statement": "Whatever caps, stakes and eligibility the providers' admins have declared, and whatever scoring weights are set: for every listed provider from which no more is asked back than it has, any manager can, by changeDelegationContractParams and setScoringConfig alone, reach a state in which every valid delegatePending succeeds and sends the whole amount to that provider. Nothing but declared terms, eligibility and scoring configuration changes on the way.", "quantifier": "every reachable state with honest manager figures, every listed provider not overdrawn, every manager, every valid batch", "why_tests_cant": "That a blockade (C36) can be lifted from every state needs a sequence of transactions constructed for each of them; tests try one.", "anchors": ["liquid-staking/src/delegation.rs:change_delegation_contract_params", "liquid-staking/src/manage.rs:delegate_pending", "liquid-staking/src/config.rs:set_scoring_config"]}
{"id": "C88", "title": "managers can always reopen un-delegation", "statement": "If some listed provider has stake and none is overdrawn, then with one EGLD waiting to be delegated for each provider holding a remnant of less than one EGLD, any manager can, by setting terms, scoring and sending delegation batches, reach a state in which every valid unDelegatePending succeeds; queue, rate, balances of users and what is asked back stay as they are. Anybody can supply that EGLD with addRewards.", "quantifier": "every reachable state with honest manager figures, any number of remnants, every manager, every valid batch", "why_tests_cant": "The number of steps depends on the number of remnants; each step must be shown to be accepted and not to spoil the others.", "anchors": ["liquid-staking/src/manage.rs:un_delegate_pending", "liquid-staking/src/manage.rs:delegate_pending", "liquid-staking/src/delegation.rs:change_delegation_contract_params"]}
{"id": "C89", "title": "the queue is emptied by a deposit of its size", "statement": "When the contract is active with its LS token issued, an account that holds as much EGLD as is queued for un-delegation, worth at least one LS unit, can deposit exactly that amount, also when it is less than one EGLD and whatever the state of the providers; the queue is then empty, all of it is withdrawable at once, pending EGLD is unchanged and the depositor has the pro-rata LS tokens.", "quantifier": "every state and every size of the queue", "why_tests_cant": "The minimum of one EGLD is checked on parts of the deposit; that this one deposit passes for every size of the queue, dust included, is a universal claim.", "anchors": ["liquid-staking/src/lib.rs:delegate", "liquid-staking/src/utils/generic.rs:get_action_amount"]}
{"id": "C90", "title": "out of every state everybody can be paid", "statement": "From every reachable state of contract and mocks, requests served and answers brought in order lead to a state with nothing on its way; settings, clock, unstake tokens, maturities and queue stay. If the contract is active, the mocks hold what they owe and no claim is on its way to the delegation manager, then one deposit of the size of the queue (none if it is empty), ten epochs and withdrawal calls of one manager are enough for every holder of unstake tokens matured by then, in any order, to be paid in full, whether or not un-delegation batches are possible.", "quantifier": "every reachable state of the network, whatever is on its way, any number of providers and holders", "why_tests_cant": "A liveness claim from arbitrary states: it needs a history for each of them, including those where batches are blocked.", "anchors": ["liquid-staking/src/lib.rs:delegate", "liquid-staking/src/lib.rs:withdraw", "liquid-staking/src/manage.rs:withdraw_pending", "liquid-staking/src/callback.rs:remove_liquidity_callback"]}
{"id": "C91", "title": "every provider has its turn", "statement": "Among any transactions, by anybody and with any answers, that contain more delegation batches sending something than there are providers before p in the rotation, one batch takes p into account: p is among the first open ones that share the batch, or would be if it were open. Then it gets at least its share of the batch unless that, or its room, is below one EGLD; a turn can therefore be worth nothing, again and again. The same holds for the order in which providers are asked for stake back.", "quantifier": "every reachable state, provider and list of transactions; fewer than 2^32 providers (for the way back, a configured maximum below 2^32)", "why_tests_cant": "Fairness over histories of any length with any interleaving; tests run one batch or two.", "anchors": ["liquid-staking/src/manage.rs:delegate_pending", "liquid-staking/src/manage.rs:un_delegate_pending", "liquid-staking/src/selection.rs:get_delegation_contract", "liquid-staking/src/utils/generic.rs:move_delegation_contract_to_back"]}
{"id": "C92", "title": "a provider cannot enlarge its share by its own declarations", "statement": "What the admin of a provider declares about it (nodes, rate of return, total stake, cap) does not change how much of a batch it gets. False of the code: the share can be raised to that of the best score the provider's stake allows. Declarations leave everybody's stake, and of all other providers the place in the rotation, openness, room and scores as they are; the share never exceeds the stated limit, and the admin can always reach it.", "quantifier": "every state, provider, configuration, amount and set of candidates", "why_tests_cant": "The README names manipulation of the distribution as a problem solved; how far declarations reach is a bound over all of them.", "anchors": ["liquid-staking/src/delegation.rs:change_delegation_contract_params", "liquid-staking/src/score.rs:update_selected_addresses_scores", "liquid-staking/src/selection.rs:get_delegation_contract"]}
{"id": "C93", "title": "the contract as its own provider adds no behaviour, but books EGLD twice", "statement": "Managers can whitelist any address as a provider, also the contract's own. The calls meant for a provider then run the contract's own endpoints (delegate with the EGLD sent, an unDelegate that fails, a withdraw without payments). Every state reached by histories with such calls is, in everything that is ever read, a state reached without them, so that what holds of all reachable states holds there; in particular the balance covers pending EGLD, withdrawable EGLD and fees when the delegation manager is honest. These calls neither create nor lose EGLD. It is not harmless: what is recorded as staked with the contract itself never comes back, as un-delegating it fails; each batch to itself returns the EGLD to pending, raises the reserve by the same amount once more and mints LS tokens to the contract that nobody can redeem, and these take part in later rewards (1 EGLD becomes a reserve of 3 in two batches; 3 EGLD of rewards then pay the only holder 1).", "quantifier": "All states, all histories of transactions and calls of the contract to itself, all orders, callbacks with and without gas; the loss on a concrete history.", "why_tests_cant": "Tests use delegation mocks as providers and never the contract itself; that all histories with self-calls are covered is a simulation between two systems.", "anchors": ["liquid-staking/src/delegation.rs:whitelist_delegation_contract", "liquid-staking/src/manage.rs:delegate_pending", "liquid-staking/src/manage.rs:un_delegate_pending", "liquid-staking/src/manage.rs:withdraw_pending", "liquid-staking/src/lib.rs:delegate", "liquid-staking/src/lib.rs:withdraw"]}
{"id": "C94", "title": "transactions ahead of a deposit or a redemption change it by rounding only", "statement": "Take any n transactions, by anybody, that credit no rewards, with at least s units of LS token in existence throughout. A redemption made after them pays no less than before them, and a deposit mints no more; the difference is rounding: with x the larger of the two results and y the smaller, x*s <= (y+1)*s + n*x, so at most two units (of 10^-18) as long as n*x <= s. So nobody can gain by placing deposits or redemptions around those of another. With rewards credited in between this is not so.", "quantifier": "All reachable states, all histories of n transactions without rewards, all amounts; the counterpart with rewards on a concrete history.", "why_tests_cant": "The bound is over histories of any length with rounding at every step; a test sees single orders of a few transactions.", "anchors": ["liquid-staking/src/liquidity_pool.rs:get_ls_amount", "liquid-staking/src/liquidity_pool.rs:get_egld_amount", "liquid-staking/src/lib.rs:delegate", "liquid-staking/src/lib.rs:un_delegate"]}
{"id": "C95", "title": "requests keep to the protocol's smallest amounts", "statement": "In the network of the contract with the repository's mocks, requests to each mock served in the order sent: every delegation served carries at least one EGLD; every un-delegation served is of at least one EGLD, at most the deposit the mock really holds, and leaves there nothing or at least one EGLD; so each mock at all times holds nothing or at least one EGLD for the contract, and mocks that enforce these minimums (as the protocol's own staking contracts do, and the repository's mocks do not) answer exactly as the repository's. An un-delegation that overtakes a delegation can break this.", "quantifier": "All networks reachable with any number of mocks, calls, deposits and answers in any interleaving that keeps the order at each mock.", "why_tests_cant": "The figure used by the contract when it chooses an amount is not what the mock holds at that time but what it will hold once requests on their way are served; tests serve each request at once and use mocks that do not check.", "anchors": ["liquid-staking/src/manage.rs:un_delegate_pending", "liquid-staking/src/manage.rs:delegate_pending", "liquid-staking/src/delegation.rs:whitelist_delegation_contract"]}
{"id": "C96", "title": "every call is an operation of the model or is refused", "statement": "A call reaches the contract as a name, arguments in bytes, EGLD and tokens. The names are exactly the 57 exported ones. For each it is stated which arguments and payments are accepted and which operation of the model the call then is; a call succeeds exactly if it is a view, which changes nothing, or its operation succeeds; no call has two meanings, every other call is refused. EGLD is accepted by eight endpoints and tokens by two, the owner's 13 endpoints, the managers' 7 and the migration contract's 2 refuse everybody else. Every operation with arguments of the size of their types is some call. So the states reached by deploying and calling the contract in bytes are among those all other properties are about.", "quantifier": "All names, argument lists, byte strings and payments, all states, all histories.", "why_tests_cant": "The space of malformed calls is unbounded; tests call through generated proxies that only produce well-formed ones.", "anchors": ["liquid-staking/src/lib.rs:delegate", "liquid-staking/src/lib.rs:un_delegate", "liquid-staking/src/config.rs:register_ls_token", "liquid-staking/src/delegation.rs:change_delegation_contract_params", "liquid-staking/src/manage.rs:delegate_pending", "liquid-staking/src/migrate.rs:add_migration_sc_address"]}
{"id": "C97", "title": "the lists kept in storage are the lists of the model", "statement": "The two lists of providers are kept as linked nodes with numbers of 32 bits, the managers as numbered items. After any fewer than 2^32 insertions, removals and moves to the back, no operation has failed, the nodes read from the front give exactly the list of the model in its order and come to an end, membership and length agree, and nothing is stored beyond one node per member; likewise for the managers with insertions and removals that fill the gap with the last. The limit is exact: after 2^32 operations the number of a node wraps to the one that means none, and the provider just inserted is lost.", "quantifier": "All sequences of operations up to 2^32 - 1 operations, all addresses; the loss after 2^32.", "why_tests_cant": "The order of providers decides who is served next; tests make a few moves on lists of a few providers and could never make 2^32.", "anchors": ["liquid-staking/src/storage/mod.rs:delegation_addresses_list", "liquid-staking/src/storage/mod.rs:un_delegation_addresses_list", "liquid-staking/src/storage/mod.rs:managers", "liquid-staking/src/utils/generic.rs:move_delegation_contract_to_back", "liquid-staking/src/config.rs:remove_manager"]}
{"id": "C98", "title": "requests, answers and callbacks survive their way in bytes", "statement": "What the contract sends to the staking providers and the delegation manager is a name, arguments in bytes and EGLD; it keeps the name of a callback and its arguments in bytes until the answer comes back in bytes. Whatever state they are in, the provider and manager contracts of the repository read each request as the one that was meant, do what the model of the network says and give the answer said there; from its closure and the answer each callback does exactly what the model's callback does. Different requests are different messages, and each has the gas stated. So every network exchanging bytes is, step by step, a network of the model, and every step of the model whose addresses have 32 bytes can be taken in bytes.", "quantifier": "All requests, addresses and amounts, all states of the contracts, all orders of serving and answering, with and without gas for the callbacks.", "why_tests_cant": "A name, an argument or a closure that does not match its reader shows only in that request's answer; tests exchange a few messages and look at the sums afterwards.", "anchors": ["liquid-staking/src/manage.rs:delegate_pending", "liquid-staking/src/manage.rs:un_delegate_pending", "liquid-staking/src/manage.rs:withdraw_pending", "liquid-staking/src/manage.rs:claim_rewards", "liquid-staking/src/delegation.rs:whitelist_delegation_contract", "liquid-staking/src/callback.rs:whitelist_delegation_contract_callback", "liquid-staking/src/callback.rs:claim_rewards_callback", "liquid-staking/src/proxy/proxy_delegation.rs:undelegate", "liquid-staking/src/proxy/proxy_delegation_manager.rs:claim_multiple"]}
{"id": "C99", "title": "the views answer exactly what is kept", "statement": "Each view that reads one entry or list, asked in bytes, answers in bytes exactly the figure, setting, record or list that the model holds: numbers in as few bytes as possible, addresses in 32, one result for each entry of a list, the exchange rate rounded down (one EGLD while there are no LS tokens). It fails exactly where nothing is kept (the record of an unknown provider, the scoring settings or the migration address before they are set), where money is sent along, and where arguments are missing, superfluous or of the wrong size. Together the views hide nothing: two contracts that answer all of them alike hold the same figures, settings, provider records, token numbers and lists. The two views of token identifiers are not covered.", "quantifier": "All contents of storage within the sizes of their types, all calls in bytes.", "why_tests_cant": "A view that reads the wrong entry or field shows the right number whenever the two agree, as they do in most tests; that nothing is hidden is a statement about all pairs of states.", "anchors": ["liquid-staking/src/storage/mod.rs:delegation_addresses_list", "liquid-staking/src/storage/mod.rs:delegation_contract_data", "liquid-staking/src/storage/mod.rs:managers", "liquid-staking/src/storage/mod.rs:pending_egld_for_unbond", "liquid-staking/src/storage/mod.rs:unstake_token_nonce", "liquid-staking/src/migrate.rs:migration_sc_address", "liquid-staking/src/views.rs:get_exchange_rate", "liquid-staking/src/views.rs:get_delegation_contract_staked_amount", "liquid-staking/src/views.rs:get_delegation_contract_unstaked_amount"]}
{"id": "C100", "title": "the published client fits the contract", "statement": "The client generated for the contract (proxy_liquid_staking.rs) has a method for every endpoint; whatever its arguments, the call a method makes is the operation or view of the contract that the method is named for; and what a view answers is read by the client as exactly what the contract keeps, the record of a provider included. This is false in all three parts: there is no method for claimFees and getFeesReserve; delegate_rewards and rewards_reserve call endpoints that do not exist and are refused in every state; and the record of a provider can never be read, because the client expects it without the two amounts in flight. Proved: everything else, that is 55 methods, the deployment, and all other views (token identifiers not covered).", "quantifier": "All methods, arguments, callers and payments of the right kind, all contents of storage within the sizes of their types.", "why_tests_cant": "The tests use the client for some methods only; a method that is never called or a result that is never read does not fail.", "anchors": ["liquid-staking/src/proxy/proxy_liquid_staking.rs:delegate", "liquid-staking/src/proxy/proxy_liquid_staking.rs:delegate_rewards", "liquid-staking/src/proxy/proxy_liquid_staking.rs:rewards_reserve", "liquid-staking/src/proxy/proxy_liquid_staking.rs:delegation_contract_data", "liquid-staking/src/proxy/proxy_liquid_staking.rs:whitelist_delegation_contract", "liquid-staking/src/proxy/proxy_liquid_staking.rs:init", "liquid-staking/src/manage.rs:claim_fees", "liquid-staking/src/storage/mod.rs:fees_reserve"]}
{"id": "C101", "title": "events can be read from their bytes", "statement": "From the topics of an event a reader who knows only names and positions finds what happened, the amount, the caller, the token, every figure of the pool, the block, epoch and time, and for a collection the provider; two events with the same topics are the same event; and the last liquidity event in the log, read from its bytes, carries the present figures of the pool, except that fees may have been paid out since.", "quantifier": "All events with 32-byte addresses and figures whose length fits in four bytes, all names of tokens, all blocks; for the last part all reachable worlds.", "why_tests_cant": "Tests do not decode events; a wrong order of two amounts in the record would go unnoticed.", "anchors": ["liquid-staking/src/events.rs:emit_add_liquidity_event", "liquid-staking/src/events.rs:emit_remove_liquidity_event", "liquid-staking/src/events.rs:emit_withdraw_pending_event", "liquid-staking/src/events.rs:emit_claim_rewards_event", "liquid-staking/src/events.rs:emit_general_liquidity_event", "liquid-staking/src/events.rs:protocol_revenue_event"]}
{"id": "C102", "title": "everything stored fits the type it is stored as", "statement": "In every state reached by a deployment and calls in bytes, all that the contract keeps can be stored and read back: every address has 32 bytes, the limit of the provider list four, every number of an unstake token eight, and every amount in the record of a provider can be written with its length in four bytes. So bytes of storage holding the state exist, the same bytes never stand for two different states, and every view answers exactly what is kept, without further assumptions about sizes.", "quantifier": "All histories of calls in bytes with arguments below 2^32 bytes, answers of providers and events outside, as long as the EGLD owed (reserve, unstake tokens and migrated EGLD together) has fewer than 2^32 bytes, fewer than 2^64 unstake tokens were created, and (for the existence of the bytes) there are fewer than 2^32 providers and managers.", "why_tests_cant": "An overflow of a stored type needs histories and amounts no test can set up.", "anchors": ["liquid-staking/src/storage/mod.rs:delegation_contract_data", "liquid-staking/src/storage/mod.rs:unstake_token_nonce", "liquid-staking/src/storage/mod.rs:max_delegation_addresses", "liquid-staking/src/delegation.rs:whitelist_delegation_contract", "liquid-staking/src/delegation.rs:change_delegation_contract_params"]}
{"id": "C103", "title": "no limit on the number of providers stops un-delegation", "statement": "Whatever limit of providers per batch the owner sets (the setter asks for at least one), un-delegation stays possible: a batch uses at most as many providers as the limit in force, and a high limit is no obstacle to asking stake back. For delegation, limits from the number of providers on are all the same.", "quantifier": "All states, all limits, all amounts.", "why_tests_cant": "The failure needs a limit of 2^32 or more; with the values used in tests the conversion to `usize` never shows.", "anchors": ["liquid-staking/src/selection.rs:select_undelegation_providers", "liquid-staking/src/selection.rs:calculate_max_providers", "liquid-staking/src/config.rs:set_max_selected_providers"]}
{"id": "C104", "title": "a refusal names its reason", "statement": "When the contract refuses a transaction with one of its messages, the message is true: not active, no manager, period not passed, wrong token, amount zero, dust left in a queue, too little withdrawn, nothing minted or redeemed, no provider with room or stake, already or not whitelisted, cap below stake, limits reached or zero, migration not set or not allowed, weights not adding to 100, no fees. No two reasons share a message.", "quantifier": "All reachable states, all transactions with all arguments, fewer than 2^32 providers.", "why_tests_cant": "Tests check single messages in prepared states; that a message never misleads quantifies over every way to fail.", "anchors": ["liquid-staking/src/config.rs:set_max_addresses", "liquid-staking/src/config.rs:set_max_selected_providers", "liquid-staking/src/delegation.rs:change_delegation_contract_params", "liquid-staking/src/selection.rs:handle_undelegation", "liquid-staking/src/utils/generic.rs:is_state_active", "liquid-staking/src/manage.rs:delegate_pending", "liquid-staking/src/lib.rs:withdraw"]}
{"id": "C105", "title": "a complete account of what anybody owns", "statement": "For every group of accounts and every transaction whatsoever, by anybody, what the group owns afterwards (EGLD, unstake tokens, LS tokens at the current rate) is what it owned before, plus what others handed to it, less what it gave away, plus its share of the rewards credited, to within rounding: a member who deals with the pool loses at most one unit of EGLD or LS token, a group gains at most its share of one unit when an outsider deals with the pool, and nothing is lost or gained otherwise. Over any history the entries add up.", "quantifier": "for all reachable worlds, all groups of accounts, all transactions and all histories", "why_tests_cant": "Tests follow single users through fixed sequences with figures that divide evenly; that no transaction of anybody has an entry of another kind is a statement about all of them.", "anchors": ["liquid-staking/src/lib.rs:delegate", "liquid-staking/src/lib.rs:un_delegate", "liquid-staking/src/lib.rs:withdraw", "liquid-staking/src/migrate.rs:migrate", "liquid-staking/src/migrate.rs:add_rewards", "liquid-staking/src/manage.rs:claim_fees", "liquid-staking/src/callback.rs", "liquid-staking/src/liquidity_pool.rs"]}
{"id": "C106", "title": "the amounts in the log add up to the reserve", "statement": "The amounts announced in the log account for the reserve: deposits (also those of a whitelisting or a migration) and rewards, less redemptions and the protocol's part of the rewards, add up to the reserve at every moment, and in every transaction to its change. A reader of the bytes of the log adds up the same. This is false of the code in one case: rewards brought by hand (addRewards) are announced without their amount; with them counted in, it holds for every history.", "quantifier": "All reachable worlds, all transactions, all histories; for the bytes all logs whose addresses and figures fit.", "why_tests_cant": "Tests look at single events at best; that no transaction ever moves the reserve by anything else than what it announces is a statement about all histories.", "anchors": ["liquid-staking/src/events.rs:emit_add_liquidity_event", "liquid-staking/src/events.rs:emit_remove_liquidity_event", "liquid-staking/src/events.rs:emit_claim_rewards_event", "liquid-staking/src/utils/un_delegation.rs:process_un_delegation", "liquid-staking/src/callback.rs", "liquid-staking/src/migrate.rs:add_rewards", "liquid-staking/src/migrate.rs:migrate"]}
{"id": "C107", "title": "nobody can take the EGLD behind the LS tokens", "statement": "What the LS tokens are worth is there: the EGLD waiting in the contract, staked with providers and on its way to them covers the value of all LS tokens (the reserve), the redemptions queued and the stake asked back, whatever owner, managers, providers and users do. This is false of the code: out of every state with an active contract the owner and a contract of their choice can take all EGLD waiting, without bringing any: named as the migration contract it credits itself LS tokens for nothing and redeems them, while supply and rate show nothing. Without migrations it holds for every history; in general it holds exactly when migration contracts have brought at least as much EGLD as the reserve credited to them.", "quantifier": "All reachable states; for the theft every state with an active contract, both tokens issued and LS tokens in existence, every contract; for the rest all histories.", "why_tests_cant": "Tests show single migrations by a well-meaning contract; that the way out is open in every state, and that there is no other, are statements about all states and histories.", "anchors": ["liquid-staking/src/migrate.rs:migrate", "liquid-staking/src/migrate.rs:migrate_pending", "liquid-staking/src/migrate.rs:add_migration_sc_address", "liquid-staking/src/lib.rs:un_delegate", "liquid-staking/src/liquidity_pool.rs"]}
{"id": "C108", "title": "the protocol's fees are the announced revenue, at the rate in force", "statement": "Over any history everything the accumulators received from claimFees and the fees still in hand add up to exactly the protocol revenue announced in the log. If the fee rate never exceeded f ten-thousandths the revenue is at most f/10000 of the rewards announced; if it never was below f, it is at least that, but for less than one unit of EGLD per claim announced.", "quantifier": "All reachable states, all histories, all fee rates.", "why_tests_cant": "Sums over histories of any length with changes of the rate, of the accumulator and rounding at every claim; tests check one claim.", "anchors": ["liquid-staking/src/callback.rs:claim_rewards_callback", "liquid-staking/src/manage.rs:claim_fees", "liquid-staking/src/events.rs", "liquid-staking/src/utils/generic.rs:calculate_share"]}
{"id": "C109", "title": "the record of a provider is the sum of its answers", "statement": "Over any history the stake recorded for a provider and what it agreed to give back add up to exactly what it confirmed, and the stake recorded as unbonding and the EGLD collected from it add up to exactly what it agreed to give back. Only answers whose callback went through count. So the contract never collects more from a provider than the provider agreed to give back, and the provider never agrees to give back more than it confirmed.", "quantifier": "All reachable states, all providers, all histories, all answers.", "why_tests_cant": "A sum over histories of any length with answers in any order, refused calls, failed callbacks and other providers in between; tests check one delegation or one un-delegation.", "anchors": ["liquid-staking/src/callback.rs:add_liquidity_callback", "liquid-staking/src/callback.rs:remove_liquidity_callback", "liquid-staking/src/callback.rs:withdraw_tokens_callback", "liquid-staking/src/callback.rs:whitelist_delegation_contract_callback"]}
{"id": "C110", "title": "for money the contract is a machine of thirteen numbers", "statement": "There is a machine of thirteen numbers (LS supply, reserve, the two queues, withdrawable and unbonding EGLD, fees, stake, the two sums in flight, the account, and the two sums added by migrations) with seventeen moves, each with its exact conditions and exact effect, that knows nothing of providers, scores, lists, roles, tokens or promises, such that every successful transaction of the contract is one of its moves; which one, and with how much EGLD, can be read off the transaction (and, for answers, off the call answered and whether its callback failed); the machine allows it; and afterwards shows the figures of the contract. So every reachable contract shows a vault the machine reaches from the empty one, and whatever the moves keep is true of the contract. In the machine the books balance, no move lowers the value of an LS token, and as long as no more rewards are booked than come the account covers what is promised.", "quantifier": "for all reachable worlds, all transactions, all answers, all histories, and all properties of vaults", "why_tests_cant": "A refinement: a statement about every transaction in every state, relating the whole contract to a simpler one", "anchors": ["liquid-staking/src/lib.rs:delegate", "liquid-staking/src/lib.rs:un_delegate", "liquid-staking/src/lib.rs:withdraw", "liquid-staking/src/manage.rs:delegate_pending", "liquid-staking/src/manage.rs:un_delegate_pending", "liquid-staking/src/callback.rs:add_liquidity_callback"]}
{"id": "C111", "title": "raising the rate so that others lose by rounding does not pay", "statement": "Whoever holds LS tokens can raise the rate by a gift, so that the next depositor loses up to one unit of LS token by rounding, and the holders gain it. Let a group of accounts do whatever it likes, while others make k deposits and j redemptions and hold at every moment at least n units of LS token, n at least one. Beyond its share in rewards from outside, the group gains at most k units of LS token at the final rate and j units of EGLD, less n times the rise of the rate it caused. So as long as k is no more than n (one LS token is 10^18 units) it gains at most k units of LS token at the rate from before the attack, and j units of EGLD: nothing worth having.", "quantifier": "for all reachable worlds, all groups of accounts, all amounts, numbers of deposits and redemptions, and all histories of this kind", "why_tests_cant": "The attack with a single unit in circulation does pay (C61); that it stops paying as soon as others hold as many units as there are victims is a statement about all sequences of gifts and deposits", "anchors": ["liquid-staking/src/lib.rs:delegate", "liquid-staking/src/lib.rs:un_delegate", "liquid-staking/src/migrate.rs:add_rewards", "liquid-staking/src/liquidity_pool.rs:pool_add_liquidity"]}
{"id": "C112", "title": "the gas set aside for the contract's own calls fits into a transaction", "statement": "Every call the contract makes sets gas aside, for the called contract and for the callback: 18 million for each provider in a batch and for a withdrawal, 32 million for the entry of a provider, 6 million and 2.5 million for every provider for a claim of rewards; no other transaction sets any aside. A batch addresses no more providers than the limit in force, which the owner can lower to one at any time, and a claim of rewards fits into the 600 million a transaction can have.", "quantifier": "for all reachable worlds with fewer than 2^32 providers, all transactions and all gas limits", "why_tests_cant": "Tests run without gas limits and with a handful of providers; the bound is a statement about every number of providers, and that claims stay impossible is one about every future", "anchors": ["liquid-staking/src/manage.rs:claim_rewards", "liquid-staking/src/manage.rs:delegate_pending", "liquid-staking/src/manage.rs:un_delegate_pending", "liquid-staking/src/manage.rs:withdraw_pending", "liquid-staking/src/delegation.rs:whitelist_delegation_contract"]}
{"id": "C113", "title": "redemptions mature in the order they are made, after the time announced", "statement": "Whoever redeems first has unstake tokens that mature first, and a redemption waits no longer than the unbond period that could be seen when it was sent.", "quantifier": "for all reachable worlds, all pairs of redemptions by any accounts, all histories between them and after", "why_tests_cant": "The period is a setting that can change between any two transactions; tests fix it once", "anchors": ["liquid-staking/src/lib.rs:un_delegate", "liquid-staking/src/utils/un_delegation.rs:undelegate_amount", "liquid-staking/src/config.rs:set_unbond_period", "liquid-staking/src/liquidity_pool.rs:mint_unstake_tokens"]}
{"id": "C114", "title": "one provider cannot hold up the rewards of the others", "statement": "The rewards of a provider that can pay reach the contract when a manager claims them, whatever the state of the other providers. This is false of the code: claimRewards names every listed provider in a single call to the delegation manager, which fails as a whole when one provider cannot pay. Such a provider stays on the list and stays unable to pay through every history in which nothing is paid in at it and no request to it alone is served; all that time every claim names it and fails, no provider pays, and the contract's storage and balances stay as they are. Paying in what is missing at that provider is enough to end this. When all can pay, one claim brings all rewards.", "quantifier": "every reachable state of contract, mocks and manager; any number of providers; every history without help for the provider, of any length, in any order and with lost callbacks", "why_tests_cant": "It takes a provider in a state the tests never bring about, and a statement about every history that follows.", "anchors": ["liquid-staking/src/manage.rs:claim_rewards", "liquid-staking/src/callback.rs:claim_rewards_callback", "delegation-mock/src/delegation.rs:claim_rewards", "delegation-manager-mock/src/delegation_manager.rs:claim_multiple"]}
{"id": "C115", "title": "a matured unstake token is paid when it is presented", "statement": "A holder who presents unstake tokens that have matured to an active contract is paid. This is false of the code: maturity is only a date. From every state in which nothing is withdrawable and nothing is being collected from a provider, nothing becomes withdrawable and every withdrawal is refused for as long as nobody deposits and no manager calls withdrawPending, whatever else happens and however much time passes. Over every history withdrawals pay out no more than was withdrawable at the start and has come in since by deposits and from providers. When enough is withdrawable, matured tokens are paid in full.", "quantifier": "every reachable state; every history without deposits and collections, of any length; every history for the bound; every caller and list of payments", "why_tests_cant": "The refusal must hold after every unattended history of every length, and the bound sums over all holders and providers.", "anchors": ["liquid-staking/src/lib.rs:withdraw", "liquid-staking/src/lib.rs:delegate", "liquid-staking/src/manage.rs:withdraw_pending", "liquid-staking/src/callback.rs:withdraw_tokens_callback"]}
{"id": "C116", "title": "a provider that refused a delegation gets nothing more until it is declared open again", "statement": "The answer that a provider refused a delegation closes it, in every state. A closed provider stays closed through every history without a new declaration of its parameters: no batch of delegations includes it, and its stake together with the delegations on their way to it never grows. A new declaration that opens it is accepted exactly from the provider's admin, a manager or the owner, with a stated total within the stated cap.", "quantifier": "every reachable state, every provider on the list, every history without a declaration for it, of any length and with any other transactions and answers", "why_tests_cant": "The closure has to hold against every other transaction and every late answer, for ever; a test shows one batch.", "anchors": ["liquid-staking/src/callback.rs:add_liquidity_callback", "liquid-staking/src/manage.rs:delegate_pending", "liquid-staking/src/selection.rs:is_delegation_provider_eligible", "liquid-staking/src/delegation.rs:change_delegation_contract_params"]}
{"id": "C117", "title": "a setting has an influence only on the transactions it is for", "statement": "Changing a setting does nothing by itself and shows only where it is meant to: the fee rate when rewards arrive, the accumulator in claimFees, the unbond period in redemptions, the migration contract in migrations, the scoring configuration and the number of providers at a time in the two batches, the limit of providers when one is added, the list of managers in the calls of managers other than the owner (a provider's admin declaring its terms does not need it), the two settings for the time between batches nowhere. Every other transaction and answer succeeds in the same cases, with the same error otherwise, and changes everything in the same way, whatever these settings are. Deposits, withdrawals, transfers, gifts of rewards and the answers of providers (but to calls for rewards) depend on none. The list is exact: each transaction in it does come out differently for some change of the setting.", "quantifier": "every pair of states that differ in any set of settings, every transaction and answer that is not for one of these, every history of such transactions", "why_tests_cant": "Two runs have to be compared for every state, every transaction and every value of the settings; a test compares two runs.", "anchors": ["liquid-staking/src/config.rs:set_fees", "liquid-staking/src/config.rs:set_accumulator_contract", "liquid-staking/src/config.rs:set_unbond_period", "liquid-staking/src/config.rs:set_max_addresses", "liquid-staking/src/config.rs:set_max_selected_providers", "liquid-staking/src/config.rs:set_scoring_config", "liquid-staking/src/config.rs:is_manager", "liquid-staking/src/migrate.rs:add_migration_sc_address", "liquid-staking/src/callback.rs:claim_rewards_callback"]}
{"id": "C118", "title": "no account is privileged or shut out by its address", "statement": "Who an account is follows from the roles given to it and from what it holds, never from its address. Give all accounts other addresses - users, owner, managers, providers and the contract itself; only the zero address and the address of the delegation manager, which the code writes out, stay - and every transaction and answer fails with the same error or has the same result with the new addresses, over any history; whatever state can be reached can be reached with the new addresses. So two accounts without a role that hold the same are treated alike: exchange the two in a history, and in the end each has the EGLD, the LS tokens and the unstake tokens that the other would have had, nobody else gets more or less, and the supply, the reserve, the pending EGLD and the queue are the same.", "quantifier": "every renaming of accounts that keeps different accounts different, every state, transaction, answer and history; every pair of accounts without a role that hold the same", "why_tests_cant": "A test uses a handful of fixed addresses; that no other address is treated differently is a statement about all of them.", "anchors": ["liquid-staking/src/config.rs:is_manager", "liquid-staking/src/lib.rs:delegate", "liquid-staking/src/lib.rs:un_delegate", "liquid-staking/src/lib.rs:withdraw", "liquid-staking/src/selection.rs:get_delegation_contract", "liquid-staking/src/manage.rs:claim_fees", "liquid-staking/src/delegation.rs:whitelist_delegation_contract", "liquid-staking/src/migrate.rs:migrate"]}
{"id": "C119", "title": "operators and providers decide when users get their egld, not how much", "statement": "As far as owners are concerned every successful transaction is a list of deeds, read off the transaction: EGLD (or unstake tokens) given away or got, LS tokens given away or got, EGLD joining the pool for new LS tokens, LS tokens redeemed, EGLD credited to all LS tokens. Batches of delegations and un-delegations, calls for withdrawals and rewards, the answers of providers to delegations, un-delegations and withdrawals, changes of providers and settings, clock ticks and views are no deeds, and a withdrawal is none but for EGLD attached to it. What a transaction does to a group of accounts - to its LS tokens, and to its EGLD and unstake tokens together - and to the supply and the reserve is what its deeds do, to the last unit, in a few lines of arithmetic that know nothing of providers, queues and callbacks. So two histories with the same deeds in the same order, from pools that agree on the supply, the reserve and what the group has, whatever else differs between the two and whatever managers and providers did in between, leave the group with the same LS tokens and the same EGLD and unstake tokens together, at the same price. A history without deeds changes nothing of this, and one whose deeds are about others does not change what the group has.", "quantifier": "every group of accounts without the contract, every reachable state (or pair of states), every transaction and every history, of any length", "why_tests_cant": "A test runs one order of batches and answers; here all of them are compared, exactly.", "anchors": ["liquid-staking/src/lib.rs:delegate", "liquid-staking/src/lib.rs:un_delegate", "liquid-staking/src/lib.rs:withdraw", "liquid-staking/src/manage.rs:delegate_pending", "liquid-staking/src/manage.rs:un_delegate_pending", "liquid-staking/src/manage.rs:withdraw_pending", "liquid-staking/src/callback.rs:add_liquidity_callback", "liquid-staking/src/callback.rs:remove_liquidity_callback", "liquid-staking/src/callback.rs:withdraw_tokens_callback", "liquid-staking/src/callback.rs:claim_rewards_callback"]}
{"id": "C120", "title": "only elapsed time counts, not the date", "statement": "Nothing in the contract depends on which epoch it is, only on how many epochs have passed between one transaction and another. Move a state some epochs into the future - the clock, the epochs written on unstake tokens and in events, the table of maturities - and every transaction and answer fails with the same error or has the same result that many epochs later, as long as the epochs before and after it are still epochs (u64) when moved. For whole histories this needs no look at the states in between: a contract deployed some epochs later and used in the same way, with the clock never beyond T and the wait of redemptions never set beyond P, does the same that many epochs later whenever T + P that much later is a u64. In the end everybody has the same EGLD, LS tokens and unstake tokens, the contract holds and owes the same, providers, calls on their way and settings are the same, and every unstake token can be exchanged exactly that many epochs later. Without the room it is false: near the last epoch the addition goes round and unstake tokens can be exchanged at once.", "quantifier": "every number of epochs, every state with room for it, every transaction, answer and history, every deployment and all bounds T and P", "why_tests_cant": "Tests run at a few small epochs; that a date hidden in the code changes nothing years later cannot be tried out.", "anchors": ["liquid-staking/src/utils/un_delegation.rs:undelegate_amount", "liquid-staking/src/liquidity_pool.rs:mint_unstake_tokens", "liquid-staking/src/liquidity_pool.rs:clean_old_unbond_epochs", "liquid-staking/src/lib.rs:withdraw", "liquid-staking/src/lib.rs:un_delegate", "liquid-staking/src/callback.rs:claim_rewards_callback"]}
{"id": "C121", "title": "what is entrusted to each provider, and what providers that keep it can cost", "statement": "Call what is entrusted to a provider the stake recorded there, the stake it is giving back, and the delegations it has not answered. In every transaction this grows by the delegations sent to it and by a stake that comes with its confirmed whitelisting, falls by a delegation it refuses and by EGLD it pays out, and changes in no other way; so over any history it is what was handed over less what was brought back. All that is promised, the reserve of the LS tokens and the unstake tokens (also those burned by their holders), is exactly pending EGLD, withdrawable EGLD and what is entrusted to all providers, up to what migration credited or brought in. With honest reports of rewards and no credit from migration, for any group of providers, the EGLD of the contract and what is entrusted to the others cover the reserve, all unstake tokens and the fees but for what is entrusted to the group, and the bound is met. What is entrusted to a provider closed to delegations never grows until it is declared open again.", "quantifier": "every reachable state, every transaction and history, every provider and every finite group of providers", "why_tests_cant": "Tests look at single providers that behave; that no sequence of calls and answers, lost callbacks included, exposes the pool to a provider beyond its record is a statement about all histories.", "anchors": ["liquid-staking/src/manage.rs:delegate_pending", "liquid-staking/src/callback.rs:add_liquidity_callback", "liquid-staking/src/callback.rs:remove_liquidity_callback", "liquid-staking/src/callback.rs:withdraw_tokens_callback", "liquid-staking/src/callback.rs:whitelist_delegation_contract_callback"]}
{"id": "C122", "title": "the call for the fees, in bytes, and who can take it", "statement": "`claimFees` asks the accumulator to accept one call: the function `deposit`, no arguments, no tokens, exactly the fees as EGLD. No contract of the repository accepts that call, whatever its state and whatever comes with it - neither another pool of this kind, nor the contract itself, nor a delegation contract or the delegation manager (as mocked) - and no account without code does. So the endpoint does what it does when the answer of the accumulator is taken as given; with honest reports of rewards the fees are paid if and only if there are some, the caller is not the contract, and a contract foreign to the repository that accepts this call is found at the accumulator's address. Fees that cannot be paid are not lost: the owner can name another accumulator in every such state, and the same fees are then paid to it in full on anybody's request.", "quantifier": "every state, every caller, every assignment of contracts to addresses, every amount of fees", "why_tests_cant": "Tests use one accumulator, which accepts; what happens when the address is wrong depends on the interfaces of all the other contracts.", "anchors": ["liquid-staking/src/manage.rs:claim_fees", "liquid-staking/src/proxy/proxy_accumulator.rs:deposit", "liquid-staking/src/config.rs:set_accumulator_contract"]}
{"id": "C123", "title": "token identifiers are only names", "statement": "Nothing depends on what the two tokens are called. Replace the identifiers in a state, in its events, in the payments of a transaction and in the answers of the ESDT system contract by others, different ones for different tokens, and every transaction and answer fails with the same error or has the same result with the other identifiers. So the same deployment used in the same way, when the protocol happens to answer the two issues with other identifiers, ends with the same balances, the same figures of the pool, the same providers, calls on their way and settings; only the two slots and the events show the other identifiers. In particular no identifier is built into the code, the two tokens are never confused when their identifiers are exchanged, and no third token is treated differently from another. If two tokens got the same identifier this would be false, and a payment of a worthless token would redeem.", "quantifier": "every one-to-one renaming of tokens, every state, transaction and answer, every deployment and every history", "why_tests_cant": "Tests use the two identifiers they made up; that no other pair behaves differently is a statement about all pairs.", "anchors": ["liquid-staking/src/lib.rs:un_delegate", "liquid-staking/src/lib.rs:withdraw", "liquid-staking/src/config.rs:register_ls_token", "liquid-staking/src/config.rs:register_unstake_token", "liquid-staking/src/liquidity_pool.rs:mint_unstake_tokens"]}
