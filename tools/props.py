#!/usr/bin/env python3
# Generates properties.jsonl (single place to edit the English statements).
import json
LS="liquid-staking/src/"
P=[]
def p(id,title,statement,quant,why,anchors):
    P.append(dict(id=id,title=title,statement=statement,quantifier=quant,why_tests_cant=why,anchors=anchors))
p("C01","delegate mints the exact pro-rata amount",
"A successful `delegate` paying `a` EGLD debits the caller by `a`, credits the caller with exactly floor(a*S/R) LS tokens (exactly `a` when the reserve R is zero), where S and R are `getLsSupply` and `getVirtualEgldReserve` just before the call; S grows by the minted amount, R grows by `a`, and no other account's EGLD, LS or unstake-token balance changes (only the staking contract's own EGLD balance grows by `a`).",
"every contract state, caller and payment amount","The price is an integer division over unbounded reserves; a test samples a few ratios and cannot exclude a ratio where the mint is off by one or another account moves.",
[LS+"lib.rs:delegate",LS+"utils/delegate.rs:process_delegation",LS+"liquidity_pool.rs:pool_add_liquidity",LS+"liquidity_pool.rs:get_ls_amount"])
p("C02","unDelegate pays the exact pro-rata amount",
"A successful `unDelegate` of `l` LS tokens burns exactly `l`, and gives the caller instant EGLD plus freshly minted unstake tokens whose sum is exactly floor(l*R/S); S falls by `l`, R falls by that sum, and no third account's balances change.",
"every contract state, caller and LS amount","Same: unbounded reserves, three payout branches (instant, partial, deferred) whose sum must be exact for all amounts.",
[LS+"lib.rs:un_delegate",LS+"liquidity_pool.rs:pool_remove_liquidity",LS+"utils/un_delegation.rs:process_un_delegation"])
p("C03","redemption value of an LS token never falls",
"In every history of calls and callbacks, as long as the LS supply has not dropped to zero in between, the reserve/supply ratio never decreases; hence for every amount l the quote floor(l*R/S) of `getLsValueForPosition` never decreases because of anything anybody does.",
"every pair of states along every history with positive supply throughout","A monotonicity claim over arbitrary interleavings of all endpoints and callbacks.",
[LS+"liquidity_pool.rs",LS+"callback.rs:claim_rewards_callback",LS+"migrate.rs:add_rewards",LS+"views.rs:get_exchange_rate"])
p("C04","no profit and bounded loss on a round trip",
"Delegating `a` and redeeming all minted LS tokens, with no other call in between, returns (instant EGLD plus unstake tokens) at most `a`, and loses less than the price of one LS unit plus one wei.",
"every contract state with positive supply, every amount","A rounding bound for all reserves; testing picks friendly numbers.",
[LS+"liquidity_pool.rs:get_ls_amount",LS+"liquidity_pool.rs:get_egld_amount"])
p("C05","LS supply view equals tokens in existence",
"In every reachable state `getLsSupply` equals the sum of the LS balances of all accounts, plus what holders have burned on their own (the contract cannot see such burns).",
"every reachable state, all holders","Needs every mint/burn path in every history to keep the storage counter and ledger in step.",
[LS+"liquidity_pool.rs",LS+"callback.rs:whitelist_delegation_contract_callback",LS+"migrate.rs:migrate"])
p("C06","outstanding LS tokens always have a positive reserve",
"In every reachable state, if any LS tokens exist then the virtual EGLD reserve is positive, so redemption never divides by zero or quotes a fully wiped-out pool.",
"every reachable state","An invariant over all histories and all rounding outcomes.",
[LS+"liquidity_pool.rs:pool_remove_liquidity"])
p("C07","unstake tokens are exactly covered by the unbonding pipeline",
"In every reachable state the unstake tokens held by users, with those they burned on their own or sent to the contract by plain transfers, add up to exactly: EGLD queued for un-delegation + EGLD in un-delegations awaiting a callback + EGLD unbonding at providers + EGLD already withdrawn and waiting in the contract.",
"every reachable state, including any order of callbacks and any provider answers","Callback schedules and failures are unbounded.",
[LS+"utils/un_delegation.rs:undelegate_amount",LS+"utils/delegate.rs:decrease_pending_egld",LS+"callback.rs",LS+"lib.rs:withdraw"])
p("C08","virtual reserve is fully backed",
"In every reachable state: virtual reserve + EGLD queued for un-delegation + un-delegations awaiting callback + EGLD brought in by `migratePending` = pending EGLD + EGLD staked at all providers + delegations awaiting callback + reserve credited by `migrate`. In particular, without migration the virtual reserve is exactly pending + staked + in flight minus what is already promised to unstakers.",
"every reachable state and history","A conservation law over every endpoint, callback and failure.",
[LS+"callback.rs",LS+"manage.rs",LS+"lib.rs",LS+"migrate.rs"])
p("C09","the contract is always solvent",
"In every reachable state (accumulator not re-entering, delegation manager reporting no more than it sends) the contract's EGLD balance is at least pending EGLD + withdrawn EGLD + fees reserve; consequently no payout of the contract ever fails for lack of funds.",
"every reachable state and history","Quantifies over all interleavings of payouts, async calls and refunds.",
[LS+"lib.rs",LS+"manage.rs",LS+"callback.rs"])
p("C10","no withdrawal before the unbonding epoch",
"If `withdraw` succeeds, every unstake token paid in has an unbond epoch not later than the current epoch; equivalently one immature token makes the whole call fail.",
"every state and every list of payments","Lists of payments of any length in any order.",
[LS+"lib.rs:withdraw"])
p("C11","withdraw pays one to one and returns the rest",
"A successful `withdraw` pays the caller exactly as much EGLD as unstake tokens it burns, returns every unburned unstake token, reduces the withdrawn pool by exactly that amount, pays min(total paid in, withdrawn pool), and changes no other account.",
"every state and every list of payments","Lists of payments of any length; the partial-fill branch depends on running totals.",
[LS+"lib.rs:withdraw"])
p("C12","maturity of an unstake position is fixed at unDelegate",
"Unstake tokens received from `unDelegate` at epoch e under unbond period p mature at exactly e+p (when e+p fits in 64 bits), and in every later history, including changes of the unbond period, that maturity never changes.",
"every state, every later history","Immutability over arbitrary future histories, with nonces shared between users and reused.",
[LS+"utils/un_delegation.rs:undelegate_amount",LS+"liquidity_pool.rs:mint_unstake_tokens",LS+"config.rs:set_unbond_period"])
p("C13","unstake-token top-ups never fail",
"In every reachable state, a registered nonce for an unbond epoch refers to an existing token with that maturity of which the contract itself holds at least one unit (exactly one unless it was sent more by plain transfers), so adding quantity to it is always possible; user-held tokens are never burned by clean-up.",
"every reachable state","An invariant over all histories of mints, clean-ups and period changes.",
[LS+"liquidity_pool.rs:mint_unstake_tokens",LS+"liquidity_pool.rs:clean_old_unbond_epochs"])
p("C14","the instant/deferred split is exact, dust-free and maximal",
"For every payment and queue, the split used by `delegate` and `unDelegate` adds up to the payment, never exceeds the opposite queue, leaves that queue empty or with at least 1 EGLD whenever it takes anything, and takes the largest instant part for which both the queue left and the deferred part are each zero or at least 1 EGLD (0 if there is none).",
"all pairs of amounts","Two unbounded integers and a case analysis with four boundaries.",
[LS+"utils/generic.rs:get_action_amount",LS+"utils/generic.rs:calculate_partial_redeem_amount",LS+"utils/generic.rs:calculate_instant_amount"])
p("C15","deposits of at least 1 EGLD are never refused",
"When the contract is active, the LS token is issued, and the pool is not bricked (S>0, or R=0), a `delegate` of at least 1 EGLD that is worth at least one LS unit succeeds.",
"every reachable state, every caller with funds","A liveness claim over every reachable state.",
[LS+"lib.rs:delegate",LS+"utils/delegate.rs"])
p("C16","redemptions worth at least 1 EGLD are never refused",
"When the contract is active and both tokens are issued, an `unDelegate` of LS tokens worth at least 1 EGLD by their holder succeeds in every reachable state, provided the delegation manager never reported more rewards than it sent.",
"every reachable state, every holder and amount","A liveness claim over every reachable state, including token registry and contract balance.",
[LS+"lib.rs:un_delegate",LS+"utils/un_delegation.rs",LS+"liquidity_pool.rs"])
p("C17","delegatePending neither creates nor loses EGLD",
"A successful `delegatePending` for amount x sends EGLD to providers in calls whose amounts add up to exactly the drop in pending EGLD, which is at most x; the un-sent part stays pending; nothing else in the pool accounting changes.",
"every state, amount and provider set of any size","Any number of providers, any scores, any caps.",
[LS+"manage.rs:delegate_pending",LS+"selection.rs:distribute_amount",LS+"selection.rs:handle_remaining_amount"])
p("C18","who receives delegations",
"Every provider addressed by a successful `delegatePending` is whitelisted, eligible, addressed once, and receives at least 1 EGLD; the number of providers addressed is at most the configured maximum, the number of whitelisted providers and floor(x / 1 EGLD).",
"every state, amount and provider set","Any number of providers.",
[LS+"selection.rs:select_delegation_providers",LS+"selection.rs:calculate_max_providers"])
p("C19","provider caps are respected",
"A provider with a declared cap never ends up with more delegated EGLD (staked + in flight) than its cap allows.",
"every state and history of batches","Concerns sequences of batches and late callbacks.",
[LS+"selection.rs:create_selection_info",LS+"selection.rs:is_delegation_provider_eligible"])
p("C20","unDelegatePending is exact, within holdings and dust-free",
"A successful `unDelegatePending` for x asks providers for amounts adding up to exactly the drop of the un-delegation queue (at most x), each at least 1 EGLD, each provider once, never more than that provider's stake net of calls in flight, and leaves each addressed provider with zero or at least 1 EGLD; at most the configured maximum of providers is addressed.",
"every state, amount and provider set","Any number of providers and scores.",
[LS+"manage.rs:un_delegate_pending",LS+"selection.rs:calculate_provider_amount",LS+"selection.rs:handle_remaining_amount"])
p("C21","in-flight counters equal the calls in flight",
"In every reachable state, for every provider, the pending-staking (pending-unstaking) counter reported by `getDelegationContractInfo` equals the sum of delegations (un-delegations) to it whose callback has not yet taken effect.",
"every reachable state and callback schedule","Concurrent batches and arbitrary callback orders.",
[LS+"manage.rs",LS+"callback.rs"])
p("C22","failed provider calls roll back exactly once",
"Whatever the state, the callback of a failed delegation puts exactly its amount back to pending EGLD, releases the in-flight counter and makes the provider ineligible; that of a failed un-delegation puts exactly its amount back in the un-delegation queue and releases the counter; neither callback can itself fail in any reachable state.",
"every reachable state, every in-flight call, any order","Callback order and concurrency are unbounded.",
[LS+"callback.rs:add_liquidity_callback",LS+"callback.rs:remove_liquidity_callback"])
p("C23","rewards are split exactly",
"When rewards r>0 are claimed with fee rate f<=10000 bps, floor(r*f/10000) goes to the fees reserve and exactly the rest goes to both pending EGLD and the virtual reserve; the LS supply is unchanged. With f>10000 the callback of any rewards of at least 10000 units fails and they are credited nowhere.",
"every reachable state, every reward and fee","Unbounded integers.",
[LS+"callback.rs:claim_rewards_callback",LS+"utils/generic.rs:calculate_share"])
p("C24","claimFees moves exactly the fees reserve",
"A successful `claimFees` by any caller sends exactly the fees reserve to the accumulator, sets it to zero and changes nothing else; with an empty reserve it fails.",
"every state and caller","State-universal frame condition.",
[LS+"manage.rs:claim_fees"])
p("C25","privileged calls need privileged callers",
"Calls reserved to managers (delegatePending, unDelegatePending, withdrawPending, claimRewards, whitelistDelegationContract, changeDelegationContractAdmin, setScoringConfig) succeed only for the owner or a manager; owner calls only for the owner; changeDelegationContractParams only for that provider's admin, a manager or the owner; migrate and migratePending only for the configured migration contract. A caller who is none of these can change contract storage only through delegate, unDelegate, withdraw, addRewards and claimFees.",
"every state, caller and argument","All states and callers, all endpoints.",
[LS+"config.rs:is_manager",LS+"migrate.rs",LS+"delegation.rs"])
p("C26","pausing stops user and batch operations",
"While the contract is inactive, delegate, unDelegate, withdraw, delegatePending, unDelegatePending, withdrawPending and claimRewards all fail, for every caller and argument.",
"every reachable inactive state","All states.",
[LS+"utils/generic.rs:is_state_active",LS+"lib.rs",LS+"manage.rs"])
p("C27","configuration changes only through its owner setter",
"For every call or callback, the fee rate, accumulator address, unbond period, provider limits, manager set, migration address, active flag and token ids are unchanged unless the call is the corresponding owner call made by the owner (for a token id: the answer to an issue started by the account that owned the contract then); the owner itself changes only by the owner handing the contract over; the scoring configuration changes only by setScoringConfig by a manager or the owner.",
"every reachable state, every call and callback","A frame condition over all operations.",
[LS+"config.rs",LS+"storage/mod.rs",LS+"contexts/base.rs"])
p("C28","quotes equal execution and views do not change state",
"Whenever `delegate` (`unDelegate`) succeeds, `getEgldPositionValue` (`getLsValueForPosition`) asked just before returns exactly the amount minted (paid); views leave the contract's storage unchanged although they commit the storage cache.",
"every state and amount","All states; the storage cache write-back on drop makes it non-obvious.",
[LS+"views.rs",LS+"contexts/base.rs"])
p("C29","whitelisting is atomic with its first delegation",
"A provider joins the delegation lists only when its initial delegation (at least 1 EGLD) succeeded, at which point the caller gets the pro-rata LS tokens; if that delegation fails the provider record is removed and the caller gets the whole payment back; a whitelisted provider cannot be whitelisted again.",
"every reachable state, any delay and interleaving before the callback","Arbitrary operations may run between call and callback.",
[LS+"delegation.rs:whitelist_delegation_contract",LS+"callback.rs:whitelist_delegation_contract_callback"])
p("C30","number of providers stays within maxDelegationAddresses",
"The number of whitelisted providers never exceeds the configured maximum.",
"every reachable state","Concurrency between call and callback.",
[LS+"delegation.rs:whitelist_delegation_contract"])
p("C31","provider lists are consistent and permanent",
"In every reachable state the delegation list and the un-delegation list hold the same providers, each once, each with a record whose cap is zero or at least its declared total stake; a provider in the lists is never removed by any later history.",
"every reachable state and history","Invariants over all histories of rotations and inserts.",
[LS+"utils/generic.rs",LS+"delegation.rs",LS+"callback.rs"])
p("C32","providers are served round-robin",
"After a successful batch, the list order is: providers not addressed, in their previous order, followed by the addressed providers in the order addressed. A provider that joins is put last, in both lists; nothing else changes the order.",
"every state and batch","Lists of any length.",
[LS+"utils/generic.rs:move_delegation_contract_to_back",LS+"manage.rs"])
p("C33","scores are bounded and ordered as documented",
"Normalised values lie between 0 and 10000 bps; for delegation a provider with higher APY, fewer nodes and less stake from the protocol never scores lower, for un-delegation the order is reversed; scoring fails only on a zero-width range hit exactly.",
"all provider data, all scoring configurations","Unbounded integers and configuration parameters.",
[LS+"score.rs"])
p("C34","accepted scoring weights sum to 100",
"Whenever `setScoringConfig` succeeds the three stored weights add up to 100.",
"every configuration argument","Three 64-bit integers with wrapping addition.",
[LS+"config.rs:set_scoring_config"])
p("C35","deposits cannot be blocked for ever",
"No sequence of calls can bring the contract into a state where every future deposit fails for ever.",
"every reachable state and future","Quantifies over all futures of a reachable state.",
[LS+"liquidity_pool.rs:get_ls_amount",LS+"migrate.rs:add_rewards",LS+"callback.rs:claim_rewards_callback"])
p("C36","one provider cannot block delegatePending",
"The admin of a single provider cannot, by changing its own parameters, make `delegatePending` fail for everyone.",
"every state and parameter update","All parameter values against all provider sets.",
[LS+"selection.rs:is_delegation_provider_eligible",LS+"delegation.rs:change_delegation_contract_params"])
p("C37","a small remainder at one provider cannot block unDelegatePending",
"With a usable scoring configuration, `unDelegatePending` of a valid amount never fails because of the stake left at some provider.",
"every reachable state","States reachable only by particular interleavings of failed and successful callbacks.",
[LS+"selection.rs:calculate_provider_amount"])
p("C38","callbacks of well-behaved providers never fail",
"If every provider answers calls in order and accepts an un-delegation only up to the stake it holds for the contract, no delegation or un-delegation callback ever fails and the stake recorded by the contract equals the stake held by the provider once nothing is in flight.",
"every reachable state of contract plus providers, every interleaving that keeps per-provider order","Unbounded concurrent batches.",
[LS+"callback.rs","delegation-mock/src/delegation.rs"])
p("C39","migration is price-neutral",
"`migrate` mints LS tokens at the current price to the migration contract only, never lowers the redemption value of existing tokens, and `migratePending` only adds the received EGLD to pending EGLD.",
"every state and amount","All reserves and amounts.",
[LS+"migrate.rs"])
p("C40","events report the committed state",
"Every liquidity event emitted by a successful call or callback carries exactly the reserve figures that are in storage when the call ends.",
"every state, call and callback","All endpoints and states; the cache is written back only on drop.",
[LS+"events.rs",LS+"contexts/base.rs"])
p("C41","claimFees is safe against re-entrancy",
"`claimFees` pays out the fees reserve at most once even if the accumulator calls back into the contract while being paid.",
"every state and accumulator behaviour","Arbitrary code runs during the call.",
[LS+"manage.rs:claim_fees",LS+"contexts/base.rs"])
p("C42","no double claim",
"Over every history the EGLD paid out by `withdraw` plus the unstake tokens still held by users plus the unstake tokens burned by their holders or sent to the contract by plain transfers equals the unstake tokens ever issued by `unDelegate`.",
"every history","Sums over unbounded histories.",
[LS+"lib.rs:withdraw",LS+"utils/un_delegation.rs"])
p("C43","parameter updates do not touch accounting",
"changeDelegationContractParams and changeDelegationContractAdmin change only the declared parameters of the named provider: its staked, unstaked and in-flight amounts, every other provider and all pool figures stay the same.",
"every state and argument","Frame condition over all states.",
[LS+"delegation.rs"])
p("C44","withdrawn stake moves exactly from unbonding to withdrawable",
"When a provider returns w EGLD, at most its recorded unbonding amount, exactly w moves from the unbonding total and from that amount to the withdrawable pool; when it returns more, the callback fails and the EGLD is recorded nowhere; in every reachable state the unbonding total equals the sum over providers.",
"every reachable state, every amount","Invariant over all histories.",
[LS+"callback.rs:withdraw_tokens_callback",LS+"callback.rs:remove_liquidity_callback"])
p("C45","a delegation batch is complete and proportional to the scores",
 "A successful delegatePending selects, in list order, the first providers that are open to the amount (at most the number the contract picks), computes each one's score from the configured ranges and weights, and gives each its share of the batch in proportion to the scores, cut to the room left under its cap; shares below 1 EGLD are dropped, and what is left over goes to the selected providers in order up to their room. When all scores are zero the providers are served in order, each as much as it has room for. Anything not sent stays pending only if every provider of the batch is filled to its cap; with uncapped providers the whole amount is sent.",
 "forall reachable states with fewer than 2^32 providers, batch amounts and scoring configurations",
 "the outcome depends on scores, caps and list order of arbitrarily many providers; tests use a handful with fixed values",
 [LS+"selection.rs:handle_delegation",LS+"selection.rs:distribute_amount",LS+"selection.rs:handle_remaining_amount",LS+"score.rs",LS+"manage.rs:delegate_pending"])
p("C46","outgoing calls go only to registered providers",
 "A transaction sends only the calls it is meant to send: delegations and un-delegations of at least 1 EGLD only from the batch endpoints and only to providers on the lists, withdrawal calls only from withdrawPending to a provider with a record, one reward claim from claimRewards naming every listed provider (in particular every one where something is staked, unbonding or in flight) exactly once, and the first delegation of a whitelisting to the new provider. Nothing else leaves, and a call disappears from the list of open calls only when its answer arrives.",
 "every reachable state, every transaction","Quantifies over all transactions and all states, including provider sets of any size.",
 [LS+"manage.rs",LS+"delegation.rs:whitelist_delegation_contract"])
p("C47","settings take effect exactly",
 "Each of the owner's setters (state, accumulator, fees, minimum rounds, limits, unbond period, managers) and setScoringConfig stores exactly the value given and changes nothing else; the owner can use them at any time (zero limits are refused); a removed manager has no manager's rights afterwards.",
 "every reachable state, every value","Frame conditions over the whole storage for every state and value.",
 [LS+"config.rs"])
p("C48","views agree with the pool",
 "getExchangeRate always answers: 1 EGLD per LS token when there are none, else what one whole LS token redeems for; values computed from it never exceed the redemption quote and fall short by at most the rounding; it is never below 1 EGLD and never falls while LS tokens exist. The staked/unstaked views of a provider answer exactly for registered providers and the unstaked views add up to the published unbonding total.",
 "every reachable state, every amount, every history","The floor of 1 EGLD and monotonicity are invariants over all histories.",
 [LS+"views.rs"])
p("C49","deployment starts empty and closed",
 "init succeeds exactly when both limits are positive and leaves the contract inactive, with the configuration given, no tokens, managers or providers, all figures zero and nothing in flight. Until the LS token is issued the pool stays empty and nobody but the owner (of the time), managers named by the owner and provider admins can change storage.",
 "every set of deployment arguments; every reachable state without LS token","Quantifies over all histories before set-up.",
 [LS+"lib.rs:init",LS+"config.rs"])
p("C50","exactly when a withdrawal is accepted",
 "A withdraw call with unstake tokens succeeds if and only if the contract is active with both tokens issued, every payment is a positive amount of an unstake token whose maturity has been reached, the caller holds what they send, and before each payment something withdrawable is still left. In particular nothing else (balances of the contract, provider state, other users) can block a matured withdrawal.",
 "forall states reachable with an honest manager, callers and payment lists",
 "an exact acceptance condition over all states and multi-payment lists",
 [LS+"lib.rs:withdraw"])

p("C51","contract and providers together are solvent",
"With a delegation manager that sends the rewards it reports, in every reachable state of contract plus providers: the virtual reserve, plus all unstake tokens of users (those they burned included), plus the fees reserve, plus EGLD brought in by migratePending, is at most the contract's EGLD balance plus what the providers hold for it (staked or unbonding) plus the EGLD on its way between them plus reserve credited by migrate.",
"every reachable state of the composed system: all interleavings of user calls, provider answers (including refusals) and callbacks, requests and answers in any order, any callback running out of gas","The claim is about EGLD outside the contract, in flight and in the providers' books, for every interleaving; a test looks at one schedule.",
[LS+"callback.rs",LS+"manage.rs",LS+"liquidity_pool.rs","delegation-mock/src/delegation.rs"])
p("C52","everybody can exit",
"When nothing is in flight and the un-delegation queue is empty, any manager can, with withdrawPending calls alone and providers paying what they owe, reach a state in which every holder of matured unstake tokens, in any order and with any list of payments, is paid in full.",
"every such state of the composed system, every manager, every holder and list of payments","A liveness claim for all reachable states: it needs the books of all providers to match the records exactly, which is an invariant over all histories.",
[LS+"manage.rs:withdraw_pending",LS+"callback.rs:withdraw_tokens_callback",LS+"lib.rs:withdraw","delegation-mock/src/delegation.rs:withdraw"])
p("C53","the un-delegation queue never holds dust",
"In every reachable state the queue of EGLD still to be asked back from providers is zero or at least one EGLD, so that it can always be asked back.",
"every reachable state","The queue is filled by users and by what a batch could not place; only an invariant over all histories excludes a remainder below the minimum.",
[LS+"manage.rs:un_delegate_pending",LS+"selection.rs:handle_remaining_amount",LS+"selection.rs:calculate_provider_amount"])

p("C54","un-delegations are shared fairly between the providers",
"When EGLD is asked back, the providers addressed belong to the shortest front part of the rotation (among those holding stake) that is as long as may be addressed and expected to give the whole amount, never longer than configured. Each addressed provider gives at least its part proportional to its un-delegation score (cut down to its stake and to what remains), and more than that only if it gives all it has or those before it could not take the rest. If the provider whose turn it is holds the whole amount and one EGLD more, the whole amount is asked back. When all scores are zero the providers are asked in turn, each for all it has or for all that is missing.",
"every reachable state, every accepted un-delegation batch, every number of providers","The split depends on the stakes, scores and order of arbitrarily many providers; tests cover a few fixed configurations.",
[LS+"selection.rs:select_undelegation_providers",LS+"selection.rs:calculate_provider_amount",LS+"selection.rs:handle_remaining_amount",LS+"score.rs:calculate_stake_score"])

p("C55","each token is issued once, by the owner, and a refused issue is refunded",
"Only the owner can start the issue of the LS token or of the unstake token, paying for it, and only while that token does not exist and no issue of it is awaited; so at most one issue of each is awaited at any time. An issue changes nothing else. If the system contract issues the token, its identifier is recorded, for ever, and differs from that of the other token. If it refuses, the whole payment is back with the account that paid it, nothing else has moved, and the present owner can start again.",
"every reachable state, every caller, payment and answer, every order of the two issues","The answer arrives later, in another block, and may be a refusal; the tests' setup issues both tokens synchronously by writing them into storage.",
[LS+"config.rs:register_ls_token",LS+"config.rs:register_unstake_token"])

p("C56","EGLD is neither created nor lost",
"In every transaction the EGLD of all accounts, of the delegations in flight and of the token issues awaited changes only by EGLD reaching users from outside, by what an answer brings back, by an accepted delegation and by the cost of an issued token. With the repository's mock providers and manager attached, the EGLD of all accounts, all mocks and everything on its way changes only by EGLD reaching users, deposits at mocks and issue costs.",
"every reachable state and every transaction, accepted or not, including callbacks that fail or run out of gas, requests and answers in any order","A conservation law over all accounts and all messages in flight; a test compares a few balances.",
[LS+"manage.rs",LS+"callback.rs",LS+"lib.rs","delegation-mock/src/delegation.rs","delegation-manager-mock/src/delegation_manager.rs:claim_multiple"])
p("C57","rewards arrive in full and are credited once",
"A claim reaching the delegation manager pays exactly the rewards due at the providers it names, each paying its own part, and leaves nothing due; if one of them cannot pay, nothing moves anywhere. From the manager's call to the callback, the contract's balance rises by exactly the sum of the rewards due, the fee part goes to the fees reserve and the rest to the reserve and to the EGLD to be delegated; nothing else changes. Claiming in two steps pays the same as claiming once, up to one unit of rounding.",
"every reachable state of contract, mocks and manager; any number of providers and epochs","The reward passes through three contracts and two asynchronous steps; the tests check one configuration with fixed figures.",
[LS+"manage.rs:claim_rewards",LS+"callback.rs:claim_rewards_callback","delegation-mock/src/delegation.rs:claim_rewards","delegation-manager-mock/src/delegation_manager.rs:claim_multiple"])
p("C58","everybody can exit from the network",
"When nothing is on its way, the un-delegation queue is empty, and every mock holds the EGLD it owes, then ten epochs later a manager can, by withdrawPending calls alone, served and answered, reach a state in which every holder of matured unstake tokens, in any order and with any list of payments, is paid in full.",
"every such reachable state of contract and mocks, every manager, every later epoch, every holder and list of payments","A liveness claim for all reachable states that joins the mocks' unbonding clock with the contract's own maturities.",
[LS+"manage.rs:withdraw_pending",LS+"callback.rs:withdraw_tokens_callback",LS+"lib.rs:withdraw","delegation-mock/src/delegation.rs:undelegate","delegation-mock/src/delegation.rs:withdraw"])
p("C59","providers never refuse what the contract asks",
"When requests to a provider are served in the order in which they were sent, a mock never refuses a delegation or an un-delegation: the contract never asks back more than the mock holds and never sends less than it accepts. Every listed provider is a mock, and while no request to it is on its way the contract's record of it states the mock's own figures.",
"every reachable state of contract and mocks, every interleaving of calls, requests served and answers delivered","The contract decides on records that lag behind the mocks; only an invariant over all interleavings shows that they never overstate.",
[LS+"manage.rs:delegate_pending",LS+"manage.rs:un_delegate_pending",LS+"selection.rs",LS+"callback.rs","delegation-mock/src/delegation.rs:delegate","delegation-mock/src/delegation.rs:undelegate"])

p("C60","nobody can take from an account that sends nothing",
"No transaction, of users, managers, owner or providers, lowers the EGLD, the LS tokens or the unstake tokens of an account that did not send it. Over any history in which the account sends nothing, its unstake tokens keep their maturity epochs and the EGLD that its LS tokens would redeem for never falls.",
"every reachable state, every account other than the contract, every history of transactions of others","Safety against all others together, over unbounded histories; tests follow the scripted actions of two users.",
[LS+"lib.rs",LS+"manage.rs",LS+"callback.rs",LS+"liquidity_pool.rs"])
p("C61","a deposit redeemed at once comes back almost whole",
"Whoever deposits and redeems the LS tokens received at once gets back (in EGLD and unstake tokens together) at least 99.9% of the deposit.",
"every reachable state, every deposit","The loss depends on the rate, which someone can have driven up beforehand; tests use rates near one.",
[LS+"liquidity_pool.rs:get_ls_amount",LS+"liquidity_pool.rs:pool_remove_liquidity",LS+"migrate.rs:add_rewards"])
p("C62","nothing is gained by splitting",
"A deposit made in several parts never mints more LS tokens than the same deposit made at once. A redemption made in several parts never pays more, in EGLD and unstake tokens together, than the same redemption made at once.",
"every reachable state, every list of amounts","Rounding acts at every step and changes the rate for the next; a test tries one split.",
[LS+"lib.rs:delegate",LS+"lib.rs:un_delegate",LS+"liquidity_pool.rs"])
p("C63","no group of accounts can profit from the contract by itself",
"Take any group of accounts, and value what it owns as its EGLD, its unstake tokens and its LS tokens at the current rate. While no rewards arrive, and nobody outside the group deposits, redeems, adds rewards or sends a member anything, this value never grows, whatever deposits, redemptions, withdrawals, gifts and transfers the members make, and whatever managers, the owner and the providers do meanwhile.",
"every reachable state, every group of accounts (of any size), every history of this kind","An upper bound over all strategies of a coalition of arbitrary size; tests can only try single strategies.",
[LS+"lib.rs",LS+"manage.rs",LS+"callback.rs",LS+"liquidity_pool.rs",LS+"migrate.rs:add_rewards"])

p("C64","a transaction changes only the parts it is for",
"The state is divided into 45 kinds of part: every figure of the pool, every setting, and, separately for every account, provider, position and epoch, its balance, record, description and registration. For every transaction a short list names the parts it may change. Everything not on the list is left exactly as it was. A failed transaction, a view and an upgrade change nothing.",
"every reachable state, every transaction and callback, every part","The claim is about everything a transaction does not do, for all accounts and providers at once; a test looks at the few figures it expects to change.",
[LS+"lib.rs",LS+"manage.rs",LS+"callback.rs",LS+"config.rs",LS+"migrate.rs",LS+"delegation.rs"])
p("C65","events are exact",
"Every transaction emits exactly the events written down for it, in order, with the right kind, amounts, caller, token, figures of the pool after the transaction and epoch; transactions and failing callbacks for which none is written down emit none.",
"every reachable state, every transaction and callback","Tests do not look at events, and off-chain services depend on them; absence of events is a claim about all other paths.",
[LS+"events.rs",LS+"lib.rs",LS+"manage.rs",LS+"callback.rs",LS+"migrate.rs"])
p("C66","the log of events tells the state of the pool",
"In every reachable state the seven figures of the pool are those carried by the last liquidity event, except that the fees may have been paid out since. The fees reserve grows by exactly the protocol revenue announced and never exceeds the sum of all revenue announced.",
"every reachable state; every history","A relation between the whole log and the storage over unbounded histories.",
[LS+"events.rs",LS+"manage.rs:claim_fees",LS+"callback.rs:claim_rewards_callback"])
p("C67","exactly when a callback fails",
"A callback fails exactly when the provider un-delegates more than the contract staked with it, sends back more than was un-delegated from it or than is unbonding in all, the fee rate takes more than the rewards, the first delegation of a provider would mint nothing, or the LS token does not exist yet. A callback that fails changes nothing in storage and tokens; every other one settles its call.",
"every reachable state, every call on its way, every answer","An if-and-only-if over all states and answers; tests never make a callback fail.",
[LS+"callback.rs"])
p("C68","which position a redemption joins",
"The deferred part of a redemption goes to the nonce registered for its maturity when there is one. Otherwise the next nonce is opened with the present epoch and the maturity written on it, it is registered, the contract keeps one unit of it, and the previous nonce is retired if and only if it was opened at an earlier epoch. Redemptions at one epoch and one unbond period therefore share one nonce, whatever happens in between.",
"every reachable state, every redemption, every history within one epoch","Depends on the history of earlier redemptions; the tests redeem at most twice.",
[LS+"lib.rs:un_delegate",LS+"liquidity_pool.rs:mint_unstake_tokens"])
p("C69","exactly when each transaction is accepted",
"For every operation there is a condition, written without the code's own helpers and covering the batches (which providers are looked at, what their records must look like, how much must be shared out or collected) as well as every user, provider, manager and owner call, such that the operation succeeds if the condition holds and is refused if it does not. No transaction is refused for a reason outside the condition and none slips through.",
"every state reachable under an honest manager with fewer than 2^32 listed providers and a selection limit below 2^32, every operation","An if-and-only-if over every state and argument: a test shows one acceptance or one refusal.",
[LS+"lib.rs",LS+"delegation.rs",LS+"manage.rs",LS+"callback.rs"])
p("C70","an LS holder gets out with the full value",
"When nothing is on its way, the contract is active with both tokens and a usable scoring configuration, the mocks hold what they owe, and the first provider with stake can give what is queued plus this redemption and keep one EGLD, then any holder of LS tokens worth v, at least one EGLD, can redeem them and, a manager asking back and collecting, has exactly v EGLD more by the end of the unbond period: no more and no fewer unstake tokens than before, and nobody else's balances changed. Without the condition on the first provider the redemption may stay queued for ever: when every provider with stake holds more than the queue but less than two EGLD, no unDelegatePending takes anything.",
"every such reachable state of contract and mocks, every holder, amount, manager and later epoch","A liveness claim through redemption, un-delegation batch, unbonding clock, collection and withdrawal for all states; a test follows one schedule from one state.",
[LS+"lib.rs:un_delegate",LS+"manage.rs:un_delegate_pending",LS+"manage.rs:withdraw_pending",LS+"callback.rs",LS+"lib.rs:withdraw","delegation-mock/src/delegation.rs:undelegate","delegation-mock/src/delegation.rs:withdraw"])

p("C71","the order of answers does not matter",
"When several calls to providers and to the delegation manager are on their way, the order in which their answers arrive does not matter: any two orders in which each provider's own answers keep their order lead to the same state, part by part (only the log of events differs). First delegations are the exception: their answer mints at the rate of the moment, so they commute with delegations, un-delegations and withdrawals of others but not with rewards or other first delegations; and the answers of one provider may not overtake each other.",
"every reachable state, every set of answers (success, refusal, any EGLD attached, failing callbacks included), every such pair of orders","Asynchronous answers arrive in any interleaving; tests deliver them in one order, and the number of orders is factorial.",
[LS+"callback.rs"])

p("C72","rewards reach the holders in proportion, and nothing else raises their value",
  "A transaction that credits x EGLD to the holders (an answer to claimRewards, of r EGLD, credits r less the fee; addRewards credits what it is sent) leaves every LS balance and makes every holder's tokens worth its share of x more, to within one unit of EGLD; all holders together gain x, less the share of LS tokens burned by their holders, to within one unit each. Every other transaction raises the rate by rounding only: all LS tokens together gain at most one unit of EGLD or the value of one unit of LS token. Over any history the rate has risen by the sum of what was credited per LS token at the time, and beyond that at most by the rounding of each transaction.",
  "for all reachable worlds, all transactions, all holders, and all histories during which LS tokens exist",
  "A test compares one reward against one balance; that no other transaction moves value to the holders, and that the gain of a whole history is the sum of its rewards, are statements about all transactions and all histories.",
  [LS+"callback.rs:claim_rewards_callback", LS+"migrate.rs:add_rewards", LS+"liquidity_pool.rs:get_egld_amount"])

p("C73","roles are given only by those who may",
  "Whoever has a role after a transaction (owner, manager, migration contract, admin of a provider) and had none before is named in that transaction, and it was sent by the owner, or, for a provider's admin, by the owner or a manager. A group of accounts without roles never acquires one, whatever its members do, unless somebody outside the group names one of them. After the contract is handed over the new owner can use every setting, and the old owner none of them, and is a manager only if named as one.",
  "for all reachable worlds, all transactions, all groups of accounts and all histories",
  "Privilege escalation would use a sequence of calls nobody thought of; the statement covers all of them, of any number of accounts together, with handovers in between.",
  [LS+"config.rs:is_manager", LS+"config.rs", LS+"delegation.rs", LS+"migrate.rs"])

p("C74","tokens burned by their holders are lost to them and locked for ever",
  "A holder who burns LS or unstake tokens through the protocol loses exactly those tokens; nothing else changes: not the supply and reserve the contract works with, not the rate, not any other balance. The EGLD behind them never reaches anybody: whatever happens later, the supply still counts the burned LS tokens and the reserve holds at least what they were worth, and the queue, the un-delegations on their way, the stake unbonding and the withdrawable pot together hold the burned unstake tokens on top of every claim still held.",
  "for all reachable worlds, all holders and amounts, and all later histories",
  "A burn happens outside the contract; that it can never be turned into a gain, or into a loss for others, is a statement about everything that can happen afterwards.",
  [LS+"liquidity_pool.rs", LS+"utils/un_delegation.rs", LS+"lib.rs:withdraw"])

p("C75","every EGLD in the contract's account is accounted for",
  "At all times the contract's EGLD is exactly: EGLD waiting to be delegated, plus withdrawable EGLD, plus fees, plus what the history left over; and what is left over is exactly EGLD sent along with `withdraw`, EGLD sent to the contract by plain transfers, EGLD attached to answers that should bring none, rewards beyond the total reported, and EGLD arriving with an answer whose callback fails. Nobody ever gets any of it: with an honest delegation manager it never shrinks. In a history that leaves nothing over the balance is exactly what is booked. The LS tokens the contract holds are exactly those sent to it by plain transfers.",
  "for all reachable worlds, all transactions, all answers and all histories",
  "An equation about the balance after every possible history, with the exact list of all ways in which EGLD can get stuck; tests check that a balance is sufficient, not that nothing is lost.",
  [LS+"lib.rs:withdraw", LS+"callback.rs", LS+"manage.rs:claim_fees", LS+"utils/delegate.rs", LS+"utils/un_delegation.rs"])

p("C76","rewards cannot be taken by a deposit of a moment",
  "Nobody gains by depositing and redeeming within one epoch: an account that comes with EGLD only and leaves in the same epoch takes away no more than it brought, also when rewards arrive in between, since those were earned by the others.",
  "for all reachable worlds, all amounts and all rewards",
  "The gain depends on the order of transactions and answers within a block; tests deliver answers at once and never place a deposit between a claim and its answer.",
  [LS+"lib.rs:delegate", LS+"lib.rs:un_delegate", LS+"manage.rs:claim_rewards", LS+"callback.rs"])

p("C77","a group gains from rewards by what it holds when they arrive, and by nothing else",
  "Whatever a group of accounts does, in whatever order with the transactions of managers and the answers of providers: as long as nobody outside deposits, redeems or sends it anything, its EGLD, unstake tokens and LS tokens (at the current rate) together grow at most by its share in every reward, the fraction of all LS tokens it holds when the reward arrives.",
  "for all reachable worlds, all groups of accounts and all histories",
  "A bound over all interleavings of many accounts' transactions with claims in flight; tests follow single users through fixed sequences.",
  [LS+"lib.rs:delegate", LS+"lib.rs:un_delegate", LS+"migrate.rs:add_rewards", LS+"callback.rs"])

p("C78","a callback out of gas loses its answer, for ever",
  "If the callback of an answered call runs out of gas, the call is no longer in flight, what the answer brought stays in the contract's account, and nothing else changes: not the pool, the records, anybody's EGLD or tokens. The amount of such a delegation or un-delegation stays counted as on its way at its provider in every later state: no endpoint can take the answer up again.",
  "for all worlds, calls in flight, answers and later histories",
  "The tests give every callback enough gas; that no later transaction repairs the counters is a statement about all histories.",
  [LS+"callback.rs:add_liquidity_callback", LS+"callback.rs:remove_liquidity_callback", LS+"manage.rs:delegate_pending", LS+"manage.rs:un_delegate_pending"])

p("C79","what smart contracts send to the contract by plain transfers stays there and changes nothing else",
  "The contract is deployed as payable by smart contracts. A smart contract that sends it EGLD, LS tokens or unstake tokens without calling an endpoint loses exactly what it sent, and nothing else changes: no figure of the pool, no rate, no queue, no record, nobody else's balance. Nobody ever gets it back: the EGLD stays in the contract's account on top of everything booked (with an honest delegation manager), the LS tokens stay with the contract and the reserve keeps what they were worth, and what the unstake tokens stood for stays in the queue, on its way, unbonding or withdrawable on top of every claim still held.",
  "for all reachable worlds, senders, amounts and later histories",
  "Such transfers run no code of the contract, so no test of an endpoint meets them; that no later transaction lets them out or miscounts them is a statement about all histories.",
  [LS+"liquidity_pool.rs", LS+"lib.rs:withdraw", LS+"lib.rs:un_delegate", LS+"manage.rs:claim_fees"])

p("C80","a deposit can be taken out again, whatever happens in between",
"An account deposits a EGLD, then worth at least 1 EGLD in LS tokens, and sends nothing for any length of time. Whatever all others do meanwhile (users, managers, owner, migration contract, providers, a contract paused and resumed), the account can redeem the LS tokens whenever the contract is active and the unstake token issued, and gets EGLD and unstake tokens adding up to a, less at most the price of one LS unit plus one unit. After any further length of time, once the unbond period has passed and the contract holds enough withdrawable EGLD, it can withdraw, and then has all the EGLD it had before the deposit but that difference, and no fewer LS and unstake tokens. (Honest delegation manager.)",
"forall reachable states, depositors, amounts, and histories of any length between deposit, redemption and withdrawal",
"the claim spans three transactions with arbitrary histories of everybody else in between; tests follow one script",
[LS+"lib.rs:delegate",LS+"lib.rs:un_delegate",LS+"lib.rs:withdraw"])

p("C81","withdrawals after each other share what there is; with enough for all the order does not matter",
"When holders of unstake tokens withdraw after each other, with nothing else in between, they get together exactly what they claim, or all the withdrawable EGLD if that is less; nobody gets more than claimed and nobody else gets anything. If there is enough for all, each gets exactly its claim and gives exactly the unstake tokens paid in, and the same withdrawals succeed in every other order with the same balances at the end. If there is not enough there is no priority: who comes first is paid, even before a holder whose position matured earlier, who may then be refused. (Every other order: honest delegation manager.)",
"for all reachable states, lists of withdrawals of any length by any accounts, and all permutations of them",
"the claim compares all orders of any number of withdrawals; a test runs one order of a few",
[LS+"lib.rs:withdraw"])

p("C82","storage entries never share a key",
  "No two entries of the contract's storage - the settings, the figures, the record of each provider, the unstake token of each epoch, the nodes of the two address sets, the managers, a saved callback - are stored under the same key, so that writing one never changes another; and none lies under the prefix the protocol reserves.",
  "all kinds of entries, all addresses, epochs, node numbers and hashes",
  "Keys are names followed by raw bytes of arguments: whether some address or epoch makes two keys equal is a question about all of them, and several names are prefixes of others.",
  [LS+"storage/mod.rs:pending_egld",LS+"storage/mod.rs:pending_egld_for_unstake",LS+"storage/mod.rs:delegation_contract_data",LS+"storage/mod.rs:unstake_token_nonce",LS+"migrate.rs:migration_sc_address"])
p("C83","what is stored is read back",
  "Every figure, setting, provider record, scoring configuration and unstake-token attribute is decoded to exactly what was encoded; a number leaves its entry empty only if it is zero and a record never does, so an empty entry always means 'not there'; and the bytes of storage determine all of them.",
  "all values (records whose figures fit their length prefix), all stores",
  "A test stores a few values; that no two records share an encoding and none is empty is about all values.",
  [LS+"structs.rs:get_total_amount_with_pending_callbacks",LS+"storage/mod.rs:delegation_contract_data",LS+"storage/mod.rs:scoring_config",LS+"storage/mod.rs:unstake_token_nonce"])

p("C84","what users get does not depend on the dealings with providers",
  "Deposits, redemptions, withdrawals, rewards sent in, migration, fees, settings, transfers and views have the same outcome (success or the same error) and the same effect whatever the records and orders of the providers, the calls on their way and the callbacks that failed, as long as the figures of the pool are the same; and they leave those dealings as they are. Asking providers for withdrawals and rewards, changing a provider's admin, terms or eligibility, a provider accepting a delegation, and answers that bring nothing may therefore happen at any time or not at all without anybody noticing.",
  "every pair of states that differ in the dealings with providers only, every such transaction, every history with such dealings at any points",
  "The claim compares pairs of executions (hyperproperty); a test sees one execution, and the dealings may be interleaved at any point.",
  [LS+"lib.rs:delegate",LS+"lib.rs:un_delegate",LS+"lib.rs:withdraw",LS+"callback.rs:add_liquidity_callback",LS+"delegation.rs:change_delegation_contract_params"])
p("C85","the balances of others have no influence",
  "What any transaction or answer does - success, error, every figure, record, event and the balances of the contract and of the accounts looked at - does not depend on the EGLD, LS tokens and unstake tokens held by accounts other than the contract and the payer; over histories, other than the contract and all payers.",
  "every pair of states that differ in balances of other accounts, every transaction, every history",
  "The claim compares pairs of executions over all distributions of balances.",
  [LS+"lib.rs:delegate",LS+"lib.rs:un_delegate",LS+"lib.rs:withdraw",LS+"manage.rs:delegate_pending",LS+"callback.rs"])

p("C86","nothing limits how often batches are sent",
  "The settings roundsPerEpoch and minimumRounds, given at deployment and changed by setMinimumRounds, have no influence on any transaction or answer, over any history; whatever they say, one batch may follow another at once (README: once per day). Neither do events, failed callbacks and the counters kept by the model have any influence.",
  "every pair of states that differ in those parts only, every transaction and history; every value of the two settings",
  "That a setting is never read is a claim about all executions in pairs; the tests never change it.",
  [LS+"utils/generic.rs:require_min_rounds_passed",LS+"manage.rs:delegate_pending",LS+"config.rs:set_minimum_rounds"])

p("C87","managers can always reopen delegation",
  "Whatever caps, stakes and eligibility the providers' admins have declared, and whatever scoring weights are set: for every listed provider from which no more is asked back than it has, any manager can, by changeDelegationContractParams and setScoringConfig alone, reach a state in which every valid delegatePending succeeds and sends the whole amount to that provider. Nothing but declared terms, eligibility and scoring configuration changes on the way.",
  "every reachable state with honest manager figures, every listed provider not overdrawn, every manager, every valid batch",
  "That a blockade (C36) can be lifted from every state needs a sequence of transactions constructed for each of them; tests try one.",
  [LS+"delegation.rs:change_delegation_contract_params",LS+"manage.rs:delegate_pending",LS+"config.rs:set_scoring_config"])
p("C88","managers can always reopen un-delegation",
  "If some listed provider has stake and none is overdrawn, then with one EGLD waiting to be delegated for each provider holding a remnant of less than one EGLD, any manager can, by setting terms, scoring and sending delegation batches, reach a state in which every valid unDelegatePending succeeds; queue, rate, balances of users and what is asked back stay as they are. Anybody can supply that EGLD with addRewards.",
  "every reachable state with honest manager figures, any number of remnants, every manager, every valid batch",
  "The number of steps depends on the number of remnants; each step must be shown to be accepted and not to spoil the others.",
  [LS+"manage.rs:un_delegate_pending",LS+"manage.rs:delegate_pending",LS+"delegation.rs:change_delegation_contract_params"])

p("C89","the queue is emptied by a deposit of its size",
  "When the contract is active with its LS token issued, an account that holds as much EGLD as is queued for un-delegation, worth at least one LS unit, can deposit exactly that amount, also when it is less than one EGLD and whatever the state of the providers; the queue is then empty, all of it is withdrawable at once, pending EGLD is unchanged and the depositor has the pro-rata LS tokens.",
  "every state and every size of the queue",
  "The minimum of one EGLD is checked on parts of the deposit; that this one deposit passes for every size of the queue, dust included, is a universal claim.",
  [LS+"lib.rs:delegate",LS+"utils/generic.rs:get_action_amount"])
p("C90","out of every state everybody can be paid",
  "From every reachable state of contract and mocks, requests served and answers brought in order lead to a state with nothing on its way; settings, clock, unstake tokens, maturities and queue stay. If the contract is active, the mocks hold what they owe and no claim is on its way to the delegation manager, then one deposit of the size of the queue (none if it is empty), ten epochs and withdrawal calls of one manager are enough for every holder of unstake tokens matured by then, in any order, to be paid in full, whether or not un-delegation batches are possible.",
  "every reachable state of the network, whatever is on its way, any number of providers and holders",
  "A liveness claim from arbitrary states: it needs a history for each of them, including those where batches are blocked.",
  [LS+"lib.rs:delegate",LS+"lib.rs:withdraw",LS+"manage.rs:withdraw_pending",LS+"callback.rs:remove_liquidity_callback"])

p("C91","every provider has its turn",
  "Among any transactions, by anybody and with any answers, that contain more delegation batches sending something than there are providers before p in the rotation, one batch takes p into account: p is among the first open ones that share the batch, or would be if it were open. Then it gets at least its share of the batch unless that, or its room, is below one EGLD; a turn can therefore be worth nothing, again and again. The same holds for the order in which providers are asked for stake back.",
  "every reachable state, provider and list of transactions; fewer than 2^32 providers (for the way back, a configured maximum below 2^32)",
  "Fairness over histories of any length with any interleaving; tests run one batch or two.",
  [LS+"manage.rs:delegate_pending",LS+"manage.rs:un_delegate_pending",LS+"selection.rs:get_delegation_contract",LS+"utils/generic.rs:move_delegation_contract_to_back"])
p("C92","a provider cannot enlarge its share by its own declarations",
  "What the admin of a provider declares about it (nodes, rate of return, total stake, cap) does not change how much of a batch it gets. False of the code: the share can be raised to that of the best score the provider's stake allows. Declarations leave everybody's stake, and of all other providers the place in the rotation, openness, room and scores as they are; the share never exceeds the stated limit, and the admin can always reach it.",
  "every state, provider, configuration, amount and set of candidates",
  "The README names manipulation of the distribution as a problem solved; how far declarations reach is a bound over all of them.",
  [LS+"delegation.rs:change_delegation_contract_params",LS+"score.rs:update_selected_addresses_scores",LS+"selection.rs:get_delegation_contract"])

p("C93","the contract as its own provider adds no behaviour, but books EGLD twice",
  "Managers can whitelist any address as a provider, also the contract's own. The calls meant for a provider then run the contract's own endpoints (delegate with the EGLD sent, an unDelegate that fails, a withdraw without payments). Every state reached by histories with such calls is, in everything that is ever read, a state reached without them, so that what holds of all reachable states holds there; in particular the balance covers pending EGLD, withdrawable EGLD and fees when the delegation manager is honest. These calls neither create nor lose EGLD. It is not harmless: what is recorded as staked with the contract itself never comes back, as un-delegating it fails; each batch to itself returns the EGLD to pending, raises the reserve by the same amount once more and mints LS tokens to the contract that nobody can redeem, and these take part in later rewards (1 EGLD becomes a reserve of 3 in two batches; 3 EGLD of rewards then pay the only holder 1).",
  "All states, all histories of transactions and calls of the contract to itself, all orders, callbacks with and without gas; the loss on a concrete history.",
  "Tests use delegation mocks as providers and never the contract itself; that all histories with self-calls are covered is a simulation between two systems.",
  [LS+"delegation.rs:whitelist_delegation_contract",LS+"manage.rs:delegate_pending",LS+"manage.rs:un_delegate_pending",LS+"manage.rs:withdraw_pending",LS+"lib.rs:delegate",LS+"lib.rs:withdraw"])

p("C94","transactions ahead of a deposit or a redemption change it by rounding only",
  "Take any n transactions, by anybody, that credit no rewards, with at least s units of LS token in existence throughout. A redemption made after them pays no less than before them, and a deposit mints no more; the difference is rounding: with x the larger of the two results and y the smaller, x*s <= (y+1)*s + n*x, so at most two units (of 10^-18) as long as n*x <= s. So nobody can gain by placing deposits or redemptions around those of another. With rewards credited in between this is not so.",
  "All reachable states, all histories of n transactions without rewards, all amounts; the counterpart with rewards on a concrete history.",
  "The bound is over histories of any length with rounding at every step; a test sees single orders of a few transactions.",
  [LS+"liquidity_pool.rs:get_ls_amount",LS+"liquidity_pool.rs:get_egld_amount",LS+"lib.rs:delegate",LS+"lib.rs:un_delegate"])

p("C95","requests keep to the protocol's smallest amounts",
  "In the network of the contract with the repository's mocks, requests to each mock served in the order sent: every delegation served carries at least one EGLD; every un-delegation served is of at least one EGLD, at most the deposit the mock really holds, and leaves there nothing or at least one EGLD; so each mock at all times holds nothing or at least one EGLD for the contract, and mocks that enforce these minimums (as the protocol's own staking contracts do, and the repository's mocks do not) answer exactly as the repository's. An un-delegation that overtakes a delegation can break this.",
  "All networks reachable with any number of mocks, calls, deposits and answers in any interleaving that keeps the order at each mock.",
  "The figure used by the contract when it chooses an amount is not what the mock holds at that time but what it will hold once requests on their way are served; tests serve each request at once and use mocks that do not check.",
  [LS+"manage.rs:un_delegate_pending",LS+"manage.rs:delegate_pending",LS+"delegation.rs:whitelist_delegation_contract"])

p("C96","every call is an operation of the model or is refused",
  "A call reaches the contract as a name, arguments in bytes, EGLD and tokens. The names are exactly the 57 exported ones. For each it is stated which arguments and payments are accepted and which operation of the model the call then is; a call succeeds exactly if it is a view, which changes nothing, or its operation succeeds; no call has two meanings, every other call is refused. EGLD is accepted by eight endpoints and tokens by two, the owner's 13 endpoints, the managers' 7 and the migration contract's 2 refuse everybody else. Every operation with arguments of the size of their types is some call. So the states reached by deploying and calling the contract in bytes are among those all other properties are about.",
  "All names, argument lists, byte strings and payments, all states, all histories.",
  "The space of malformed calls is unbounded; tests call through generated proxies that only produce well-formed ones.",
  [LS+"lib.rs:delegate",LS+"lib.rs:un_delegate",LS+"config.rs:register_ls_token",LS+"delegation.rs:change_delegation_contract_params",LS+"manage.rs:delegate_pending",LS+"migrate.rs:add_migration_sc_address"])

p("C97","the lists kept in storage are the lists of the model",
  "The two lists of providers are kept as linked nodes with numbers of 32 bits, the managers as numbered items. After any fewer than 2^32 insertions, removals and moves to the back, no operation has failed, the nodes read from the front give exactly the list of the model in its order and come to an end, membership and length agree, and nothing is stored beyond one node per member; likewise for the managers with insertions and removals that fill the gap with the last. The limit is exact: after 2^32 operations the number of a node wraps to the one that means none, and the provider just inserted is lost.",
  "All sequences of operations up to 2^32 - 1 operations, all addresses; the loss after 2^32.",
  "The order of providers decides who is served next; tests make a few moves on lists of a few providers and could never make 2^32.",
  [LS+"storage/mod.rs:delegation_addresses_list",LS+"storage/mod.rs:un_delegation_addresses_list",LS+"storage/mod.rs:managers",LS+"utils/generic.rs:move_delegation_contract_to_back",LS+"config.rs:remove_manager"])

p("C98","requests, answers and callbacks survive their way in bytes",
  "What the contract sends to the staking providers and the delegation manager is a name, arguments in bytes and EGLD; it keeps the name of a callback and its arguments in bytes until the answer comes back in bytes. Whatever state they are in, the provider and manager contracts of the repository read each request as the one that was meant, do what the model of the network says and give the answer said there; from its closure and the answer each callback does exactly what the model's callback does. Different requests are different messages, and each has the gas stated. So every network exchanging bytes is, step by step, a network of the model, and every step of the model whose addresses have 32 bytes can be taken in bytes.",
  "All requests, addresses and amounts, all states of the contracts, all orders of serving and answering, with and without gas for the callbacks.",
  "A name, an argument or a closure that does not match its reader shows only in that request's answer; tests exchange a few messages and look at the sums afterwards.",
  [LS+"manage.rs:delegate_pending",LS+"manage.rs:un_delegate_pending",LS+"manage.rs:withdraw_pending",LS+"manage.rs:claim_rewards",LS+"delegation.rs:whitelist_delegation_contract",LS+"callback.rs:whitelist_delegation_contract_callback",LS+"callback.rs:claim_rewards_callback",LS+"proxy/proxy_delegation.rs:undelegate",LS+"proxy/proxy_delegation_manager.rs:claim_multiple"])

p("C99","the views answer exactly what is kept",
  "Each view that reads one entry or list, asked in bytes, answers in bytes exactly the figure, setting, record or list that the model holds: numbers in as few bytes as possible, addresses in 32, one result for each entry of a list, the exchange rate rounded down (one EGLD while there are no LS tokens). It fails exactly where nothing is kept (the record of an unknown provider, the scoring settings or the migration address before they are set), where money is sent along, and where arguments are missing, superfluous or of the wrong size. Together the views hide nothing: two contracts that answer all of them alike hold the same figures, settings, provider records, token numbers and lists. The two views of token identifiers are not covered.",
  "All contents of storage within the sizes of their types, all calls in bytes.",
  "A view that reads the wrong entry or field shows the right number whenever the two agree, as they do in most tests; that nothing is hidden is a statement about all pairs of states.",
  [LS+"storage/mod.rs:delegation_addresses_list",LS+"storage/mod.rs:delegation_contract_data",LS+"storage/mod.rs:managers",LS+"storage/mod.rs:pending_egld_for_unbond",LS+"storage/mod.rs:unstake_token_nonce",LS+"migrate.rs:migration_sc_address",LS+"views.rs:get_exchange_rate",LS+"views.rs:get_delegation_contract_staked_amount",LS+"views.rs:get_delegation_contract_unstaked_amount"])

p("C100","the published client fits the contract",
  "The client generated for the contract (proxy_liquid_staking.rs) has a method for every endpoint; whatever its arguments, the call a method makes is the operation or view of the contract that the method is named for; and what a view answers is read by the client as exactly what the contract keeps, the record of a provider included. This is false in all three parts: there is no method for claimFees and getFeesReserve; delegate_rewards and rewards_reserve call endpoints that do not exist and are refused in every state; and the record of a provider can never be read, because the client expects it without the two amounts in flight. Proved: everything else, that is 55 methods, the deployment, and all other views (token identifiers not covered).",
  "All methods, arguments, callers and payments of the right kind, all contents of storage within the sizes of their types.",
  "The tests use the client for some methods only; a method that is never called or a result that is never read does not fail.",
  [LS+"proxy/proxy_liquid_staking.rs:delegate",LS+"proxy/proxy_liquid_staking.rs:delegate_rewards",LS+"proxy/proxy_liquid_staking.rs:rewards_reserve",LS+"proxy/proxy_liquid_staking.rs:delegation_contract_data",LS+"proxy/proxy_liquid_staking.rs:whitelist_delegation_contract",LS+"proxy/proxy_liquid_staking.rs:init",LS+"manage.rs:claim_fees",LS+"storage/mod.rs:fees_reserve"])

p("C101","events can be read from their bytes",
  "From the topics of an event a reader who knows only names and positions finds what happened, the amount, the caller, the token, every figure of the pool, the block, epoch and time, and for a collection the provider; two events with the same topics are the same event; and the last liquidity event in the log, read from its bytes, carries the present figures of the pool, except that fees may have been paid out since.",
  "All events with 32-byte addresses and figures whose length fits in four bytes, all names of tokens, all blocks; for the last part all reachable worlds.",
  "Tests do not decode events; a wrong order of two amounts in the record would go unnoticed.",
  [LS+"events.rs:emit_add_liquidity_event",LS+"events.rs:emit_remove_liquidity_event",LS+"events.rs:emit_withdraw_pending_event",LS+"events.rs:emit_claim_rewards_event",LS+"events.rs:emit_general_liquidity_event",LS+"events.rs:protocol_revenue_event"])

p("C102","everything stored fits the type it is stored as",
  "In every state reached by a deployment and calls in bytes, all that the contract keeps can be stored and read back: every address has 32 bytes, the limit of the provider list four, every number of an unstake token eight, and every amount in the record of a provider can be written with its length in four bytes. So bytes of storage holding the state exist, the same bytes never stand for two different states, and every view answers exactly what is kept, without further assumptions about sizes.",
  "All histories of calls in bytes with arguments below 2^32 bytes, answers of providers and events outside, as long as the EGLD owed (reserve, unstake tokens and migrated EGLD together) has fewer than 2^32 bytes, fewer than 2^64 unstake tokens were created, and (for the existence of the bytes) there are fewer than 2^32 providers and managers.",
  "An overflow of a stored type needs histories and amounts no test can set up.",
  [LS+"storage/mod.rs:delegation_contract_data",LS+"storage/mod.rs:unstake_token_nonce",LS+"storage/mod.rs:max_delegation_addresses",LS+"delegation.rs:whitelist_delegation_contract",LS+"delegation.rs:change_delegation_contract_params"])
p("C103","no limit on the number of providers stops un-delegation",
  "Whatever limit of providers per batch the owner sets (the setter asks for at least one), un-delegation stays possible: a batch uses at most as many providers as the limit in force, and a high limit is no obstacle to asking stake back. For delegation, limits from the number of providers on are all the same.",
  "All states, all limits, all amounts.",
  "The failure needs a limit of 2^32 or more; with the values used in tests the conversion to `usize` never shows.",
  [LS+"selection.rs:select_undelegation_providers",LS+"selection.rs:calculate_max_providers",LS+"config.rs:set_max_selected_providers"])

p("C104","a refusal names its reason",
  "When the contract refuses a transaction with one of its messages, the message is true: not active, no manager, period not passed, wrong token, amount zero, dust left in a queue, too little withdrawn, nothing minted or redeemed, no provider with room or stake, already or not whitelisted, cap below stake, limits reached or zero, migration not set or not allowed, weights not adding to 100, no fees. No two reasons share a message.",
  "All reachable states, all transactions with all arguments, fewer than 2^32 providers.",
  "Tests check single messages in prepared states; that a message never misleads quantifies over every way to fail.",
  [LS+"config.rs:set_max_addresses",LS+"config.rs:set_max_selected_providers",LS+"delegation.rs:change_delegation_contract_params",LS+"selection.rs:handle_undelegation",LS+"utils/generic.rs:is_state_active",LS+"manage.rs:delegate_pending",LS+"lib.rs:withdraw"])

p("C105","a complete account of what anybody owns",
  "For every group of accounts and every transaction whatsoever, by anybody, what the group owns afterwards (EGLD, unstake tokens, LS tokens at the current rate) is what it owned before, plus what others handed to it, less what it gave away, plus its share of the rewards credited, to within rounding: a member who deals with the pool loses at most one unit of EGLD or LS token, a group gains at most its share of one unit when an outsider deals with the pool, and nothing is lost or gained otherwise. Over any history the entries add up.",
  "for all reachable worlds, all groups of accounts, all transactions and all histories",
  "Tests follow single users through fixed sequences with figures that divide evenly; that no transaction of anybody has an entry of another kind is a statement about all of them.",
  [LS+"lib.rs:delegate", LS+"lib.rs:un_delegate", LS+"lib.rs:withdraw", LS+"migrate.rs:migrate", LS+"migrate.rs:add_rewards", LS+"manage.rs:claim_fees", LS+"callback.rs", LS+"liquidity_pool.rs"])

p("C106","the amounts in the log add up to the reserve",
  "The amounts announced in the log account for the reserve: deposits (also those of a whitelisting or a migration) and rewards, less redemptions and the protocol's part of the rewards, add up to the reserve at every moment, and in every transaction to its change. A reader of the bytes of the log adds up the same. This is false of the code in one case: rewards brought by hand (addRewards) are announced without their amount; with them counted in, it holds for every history.",
  "All reachable worlds, all transactions, all histories; for the bytes all logs whose addresses and figures fit.",
  "Tests look at single events at best; that no transaction ever moves the reserve by anything else than what it announces is a statement about all histories.",
  [LS+"events.rs:emit_add_liquidity_event",LS+"events.rs:emit_remove_liquidity_event",LS+"events.rs:emit_claim_rewards_event",LS+"utils/un_delegation.rs:process_un_delegation",LS+"callback.rs",LS+"migrate.rs:add_rewards",LS+"migrate.rs:migrate"])

p("C107","nobody can take the EGLD behind the LS tokens",
  "What the LS tokens are worth is there: the EGLD waiting in the contract, staked with providers and on its way to them covers the value of all LS tokens (the reserve), the redemptions queued and the stake asked back, whatever owner, managers, providers and users do. This is false of the code: out of every state with an active contract the owner and a contract of their choice can take all EGLD waiting, without bringing any: named as the migration contract it credits itself LS tokens for nothing and redeems them, while supply and rate show nothing. Without migrations it holds for every history; in general it holds exactly when migration contracts have brought at least as much EGLD as the reserve credited to them.",
  "All reachable states; for the theft every state with an active contract, both tokens issued and LS tokens in existence, every contract; for the rest all histories.",
  "Tests show single migrations by a well-meaning contract; that the way out is open in every state, and that there is no other, are statements about all states and histories.",
  [LS+"migrate.rs:migrate",LS+"migrate.rs:migrate_pending",LS+"migrate.rs:add_migration_sc_address",LS+"lib.rs:un_delegate",LS+"liquidity_pool.rs"])

p("C108","the protocol's fees are the announced revenue, at the rate in force",
  "Over any history everything the accumulators received from claimFees and the fees still in hand add up to exactly the protocol revenue announced in the log. If the fee rate never exceeded f ten-thousandths the revenue is at most f/10000 of the rewards announced; if it never was below f, it is at least that, but for less than one unit of EGLD per claim announced.",
  "All reachable states, all histories, all fee rates.",
  "Sums over histories of any length with changes of the rate, of the accumulator and rounding at every claim; tests check one claim.",
  [LS+"callback.rs:claim_rewards_callback",LS+"manage.rs:claim_fees",LS+"events.rs",LS+"utils/generic.rs:calculate_share"])

p("C109","the record of a provider is the sum of its answers",
  "Over any history the stake recorded for a provider and what it agreed to give back add up to exactly what it confirmed, and the stake recorded as unbonding and the EGLD collected from it add up to exactly what it agreed to give back. Only answers whose callback went through count. So the contract never collects more from a provider than the provider agreed to give back, and the provider never agrees to give back more than it confirmed.",
  "All reachable states, all providers, all histories, all answers.",
  "A sum over histories of any length with answers in any order, refused calls, failed callbacks and other providers in between; tests check one delegation or one un-delegation.",
  [LS+"callback.rs:add_liquidity_callback",LS+"callback.rs:remove_liquidity_callback",LS+"callback.rs:withdraw_tokens_callback",LS+"callback.rs:whitelist_delegation_contract_callback"])

p("C110","for money the contract is a machine of thirteen numbers",
"There is a machine of thirteen numbers (LS supply, reserve, the two queues, withdrawable and unbonding EGLD, fees, stake, the two sums in flight, the account, and the two sums added by migrations) with seventeen moves, each with its exact conditions and exact effect, that knows nothing of providers, scores, lists, roles, tokens or promises, such that every successful transaction of the contract is one of its moves; which one, and with how much EGLD, can be read off the transaction (and, for answers, off the call answered and whether its callback failed); the machine allows it; and afterwards shows the figures of the contract. So every reachable contract shows a vault the machine reaches from the empty one, and whatever the moves keep is true of the contract. In the machine the books balance, no move lowers the value of an LS token, and as long as no more rewards are booked than come the account covers what is promised.",
"for all reachable worlds, all transactions, all answers, all histories, and all properties of vaults",
"A refinement: a statement about every transaction in every state, relating the whole contract to a simpler one",
[LS+"lib.rs:delegate",LS+"lib.rs:un_delegate",LS+"lib.rs:withdraw",LS+"manage.rs:delegate_pending",LS+"manage.rs:un_delegate_pending",LS+"callback.rs:add_liquidity_callback"])

p("C111","raising the rate so that others lose by rounding does not pay",
"Whoever holds LS tokens can raise the rate by a gift, so that the next depositor loses up to one unit of LS token by rounding, and the holders gain it. Let a group of accounts do whatever it likes, while others make k deposits and j redemptions and hold at every moment at least n units of LS token, n at least one. Beyond its share in rewards from outside, the group gains at most k units of LS token at the final rate and j units of EGLD, less n times the rise of the rate it caused. So as long as k is no more than n (one LS token is 10^18 units) it gains at most k units of LS token at the rate from before the attack, and j units of EGLD: nothing worth having.",
"for all reachable worlds, all groups of accounts, all amounts, numbers of deposits and redemptions, and all histories of this kind",
"The attack with a single unit in circulation does pay (C61); that it stops paying as soon as others hold as many units as there are victims is a statement about all sequences of gifts and deposits",
[LS+"lib.rs:delegate",LS+"lib.rs:un_delegate",LS+"migrate.rs:add_rewards",LS+"liquidity_pool.rs:pool_add_liquidity"])

p("C112","the gas set aside for the contract's own calls fits into a transaction",
"Every call the contract makes sets gas aside, for the called contract and for the callback: 18 million for each provider in a batch and for a withdrawal, 32 million for the entry of a provider, 6 million and 2.5 million for every provider for a claim of rewards; no other transaction sets any aside. A batch addresses no more providers than the limit in force, which the owner can lower to one at any time, and a claim of rewards fits into the 600 million a transaction can have.",
"for all reachable worlds with fewer than 2^32 providers, all transactions and all gas limits",
"Tests run without gas limits and with a handful of providers; the bound is a statement about every number of providers, and that claims stay impossible is one about every future",
[LS+"manage.rs:claim_rewards",LS+"manage.rs:delegate_pending",LS+"manage.rs:un_delegate_pending",LS+"manage.rs:withdraw_pending",LS+"delegation.rs:whitelist_delegation_contract"])

p("C113","redemptions mature in the order they are made, after the time announced",
"Whoever redeems first has unstake tokens that mature first, and a redemption waits no longer than the unbond period that could be seen when it was sent.",
"for all reachable worlds, all pairs of redemptions by any accounts, all histories between them and after",
"The period is a setting that can change between any two transactions; tests fix it once",
[LS+"lib.rs:un_delegate",LS+"utils/un_delegation.rs:undelegate_amount",LS+"config.rs:set_unbond_period",LS+"liquidity_pool.rs:mint_unstake_tokens"])
p("C114","one provider cannot hold up the rewards of the others",
"The rewards of a provider that can pay reach the contract when a manager claims them, whatever the state of the other providers. This is false of the code: claimRewards names every listed provider in a single call to the delegation manager, which fails as a whole when one provider cannot pay. Such a provider stays on the list and stays unable to pay through every history in which nothing is paid in at it and no request to it alone is served; all that time every claim names it and fails, no provider pays, and the contract's storage and balances stay as they are. Paying in what is missing at that provider is enough to end this. When all can pay, one claim brings all rewards.",
"every reachable state of contract, mocks and manager; any number of providers; every history without help for the provider, of any length, in any order and with lost callbacks","It takes a provider in a state the tests never bring about, and a statement about every history that follows.",
[LS+"manage.rs:claim_rewards",LS+"callback.rs:claim_rewards_callback","delegation-mock/src/delegation.rs:claim_rewards","delegation-manager-mock/src/delegation_manager.rs:claim_multiple"])
p("C115","a matured unstake token is paid when it is presented",
"A holder who presents unstake tokens that have matured to an active contract is paid. This is false of the code: maturity is only a date. From every state in which nothing is withdrawable and nothing is being collected from a provider, nothing becomes withdrawable and every withdrawal is refused for as long as nobody deposits and no manager calls withdrawPending, whatever else happens and however much time passes. Over every history withdrawals pay out no more than was withdrawable at the start and has come in since by deposits and from providers. When enough is withdrawable, matured tokens are paid in full.",
"every reachable state; every history without deposits and collections, of any length; every history for the bound; every caller and list of payments","The refusal must hold after every unattended history of every length, and the bound sums over all holders and providers.",
[LS+"lib.rs:withdraw",LS+"lib.rs:delegate",LS+"manage.rs:withdraw_pending",LS+"callback.rs:withdraw_tokens_callback"])
p("C116","a provider that refused a delegation gets nothing more until it is declared open again",
"The answer that a provider refused a delegation closes it, in every state. A closed provider stays closed through every history without a new declaration of its parameters: no batch of delegations includes it, and its stake together with the delegations on their way to it never grows. A new declaration that opens it is accepted exactly from the provider's admin, a manager or the owner, with a stated total within the stated cap.",
"every reachable state, every provider on the list, every history without a declaration for it, of any length and with any other transactions and answers","The closure has to hold against every other transaction and every late answer, for ever; a test shows one batch.",
[LS+"callback.rs:add_liquidity_callback",LS+"manage.rs:delegate_pending",LS+"selection.rs:is_delegation_provider_eligible",LS+"delegation.rs:change_delegation_contract_params"])
p("C117","a setting has an influence only on the transactions it is for",
"Changing a setting does nothing by itself and shows only where it is meant to: the fee rate when rewards arrive, the accumulator in claimFees, the unbond period in redemptions, the migration contract in migrations, the scoring configuration and the number of providers at a time in the two batches, the limit of providers when one is added, the list of managers in the calls of managers other than the owner (a provider's admin declaring its terms does not need it), the two settings for the time between batches nowhere. Every other transaction and answer succeeds in the same cases, with the same error otherwise, and changes everything in the same way, whatever these settings are. Deposits, withdrawals, transfers, gifts of rewards and the answers of providers (but to calls for rewards) depend on none. The list is exact: each transaction in it does come out differently for some change of the setting.",
"every pair of states that differ in any set of settings, every transaction and answer that is not for one of these, every history of such transactions","Two runs have to be compared for every state, every transaction and every value of the settings; a test compares two runs.",
[LS+"config.rs:set_fees",LS+"config.rs:set_accumulator_contract",LS+"config.rs:set_unbond_period",LS+"config.rs:set_max_addresses",LS+"config.rs:set_max_selected_providers",LS+"config.rs:set_scoring_config",LS+"config.rs:is_manager",LS+"migrate.rs:add_migration_sc_address",LS+"callback.rs:claim_rewards_callback"])

p("C118","no account is privileged or shut out by its address",
"Who an account is follows from the roles given to it and from what it holds, never from its address. Give all accounts other addresses - users, owner, managers, providers and the contract itself; only the zero address and the address of the delegation manager, which the code writes out, stay - and every transaction and answer fails with the same error or has the same result with the new addresses, over any history; whatever state can be reached can be reached with the new addresses. So two accounts without a role that hold the same are treated alike: exchange the two in a history, and in the end each has the EGLD, the LS tokens and the unstake tokens that the other would have had, nobody else gets more or less, and the supply, the reserve, the pending EGLD and the queue are the same.",
"every renaming of accounts that keeps different accounts different, every state, transaction, answer and history; every pair of accounts without a role that hold the same","A test uses a handful of fixed addresses; that no other address is treated differently is a statement about all of them.",
[LS+"config.rs:is_manager",LS+"lib.rs:delegate",LS+"lib.rs:un_delegate",LS+"lib.rs:withdraw",LS+"selection.rs:get_delegation_contract",LS+"manage.rs:claim_fees",LS+"delegation.rs:whitelist_delegation_contract",LS+"migrate.rs:migrate"])

p("C119","operators and providers decide when users get their egld, not how much",
"As far as owners are concerned every successful transaction is a list of deeds, read off the transaction: EGLD (or unstake tokens) given away or got, LS tokens given away or got, EGLD joining the pool for new LS tokens, LS tokens redeemed, EGLD credited to all LS tokens. Batches of delegations and un-delegations, calls for withdrawals and rewards, the answers of providers to delegations, un-delegations and withdrawals, changes of providers and settings, clock ticks and views are no deeds, and a withdrawal is none but for EGLD attached to it. What a transaction does to a group of accounts - to its LS tokens, and to its EGLD and unstake tokens together - and to the supply and the reserve is what its deeds do, to the last unit, in a few lines of arithmetic that know nothing of providers, queues and callbacks. So two histories with the same deeds in the same order, from pools that agree on the supply, the reserve and what the group has, whatever else differs between the two and whatever managers and providers did in between, leave the group with the same LS tokens and the same EGLD and unstake tokens together, at the same price. A history without deeds changes nothing of this, and one whose deeds are about others does not change what the group has.",
"every group of accounts without the contract, every reachable state (or pair of states), every transaction and every history, of any length","A test runs one order of batches and answers; here all of them are compared, exactly.",
[LS+"lib.rs:delegate",LS+"lib.rs:un_delegate",LS+"lib.rs:withdraw",LS+"manage.rs:delegate_pending",LS+"manage.rs:un_delegate_pending",LS+"manage.rs:withdraw_pending",LS+"callback.rs:add_liquidity_callback",LS+"callback.rs:remove_liquidity_callback",LS+"callback.rs:withdraw_tokens_callback",LS+"callback.rs:claim_rewards_callback"])

p("C120","only elapsed time counts, not the date",
"Nothing in the contract depends on which epoch it is, only on how many epochs have passed between one transaction and another. Move a state some epochs into the future - the clock, the epochs written on unstake tokens and in events, the table of maturities - and every transaction and answer fails with the same error or has the same result that many epochs later, as long as the epochs before and after it are still epochs (u64) when moved. For whole histories this needs no look at the states in between: a contract deployed some epochs later and used in the same way, with the clock never beyond T and the wait of redemptions never set beyond P, does the same that many epochs later whenever T + P that much later is a u64. In the end everybody has the same EGLD, LS tokens and unstake tokens, the contract holds and owes the same, providers, calls on their way and settings are the same, and every unstake token can be exchanged exactly that many epochs later. Without the room it is false: near the last epoch the addition goes round and unstake tokens can be exchanged at once.",
"every number of epochs, every state with room for it, every transaction, answer and history, every deployment and all bounds T and P","Tests run at a few small epochs; that a date hidden in the code changes nothing years later cannot be tried out.",
[LS+"utils/un_delegation.rs:undelegate_amount",LS+"liquidity_pool.rs:mint_unstake_tokens",LS+"liquidity_pool.rs:clean_old_unbond_epochs",LS+"lib.rs:withdraw",LS+"lib.rs:un_delegate",LS+"callback.rs:claim_rewards_callback"])

p("C121","what is entrusted to each provider, and what providers that keep it can cost",
"Call what is entrusted to a provider the stake recorded there, the stake it is giving back, and the delegations it has not answered. In every transaction this grows by the delegations sent to it and by a stake that comes with its confirmed whitelisting, falls by a delegation it refuses and by EGLD it pays out, and changes in no other way; so over any history it is what was handed over less what was brought back. All that is promised, the reserve of the LS tokens and the unstake tokens (also those burned by their holders), is exactly pending EGLD, withdrawable EGLD and what is entrusted to all providers, up to what migration credited or brought in. With honest reports of rewards and no credit from migration, for any group of providers, the EGLD of the contract and what is entrusted to the others cover the reserve, all unstake tokens and the fees but for what is entrusted to the group, and the bound is met. What is entrusted to a provider closed to delegations never grows until it is declared open again.",
"every reachable state, every transaction and history, every provider and every finite group of providers","Tests look at single providers that behave; that no sequence of calls and answers, lost callbacks included, exposes the pool to a provider beyond its record is a statement about all histories.",
[LS+"manage.rs:delegate_pending",LS+"callback.rs:add_liquidity_callback",LS+"callback.rs:remove_liquidity_callback",LS+"callback.rs:withdraw_tokens_callback",LS+"callback.rs:whitelist_delegation_contract_callback"])

p("C122","the call for the fees, in bytes, and who can take it",
"`claimFees` asks the accumulator to accept one call: the function `deposit`, no arguments, no tokens, exactly the fees as EGLD. No contract of the repository accepts that call, whatever its state and whatever comes with it - neither another pool of this kind, nor the contract itself, nor a delegation contract or the delegation manager (as mocked) - and no account without code does. So the endpoint does what it does when the answer of the accumulator is taken as given; with honest reports of rewards the fees are paid if and only if there are some, the caller is not the contract, and a contract foreign to the repository that accepts this call is found at the accumulator's address. Fees that cannot be paid are not lost: the owner can name another accumulator in every such state, and the same fees are then paid to it in full on anybody's request.",
"every state, every caller, every assignment of contracts to addresses, every amount of fees","Tests use one accumulator, which accepts; what happens when the address is wrong depends on the interfaces of all the other contracts.",
[LS+"manage.rs:claim_fees",LS+"proxy/proxy_accumulator.rs:deposit",LS+"config.rs:set_accumulator_contract"])

p("C123","token identifiers are only names",
"Nothing depends on what the two tokens are called. Replace the identifiers in a state, in its events, in the payments of a transaction and in the answers of the ESDT system contract by others, different ones for different tokens, and every transaction and answer fails with the same error or has the same result with the other identifiers. So the same deployment used in the same way, when the protocol happens to answer the two issues with other identifiers, ends with the same balances, the same figures of the pool, the same providers, calls on their way and settings; only the two slots and the events show the other identifiers. In particular no identifier is built into the code, the two tokens are never confused when their identifiers are exchanged, and no third token is treated differently from another. If two tokens got the same identifier this would be false, and a payment of a worthless token would redeem.",
"every one-to-one renaming of tokens, every state, transaction and answer, every deployment and every history","Tests use the two identifiers they made up; that no other pair behaves differently is a statement about all pairs.",
[LS+"lib.rs:un_delegate",LS+"lib.rs:withdraw",LS+"config.rs:register_ls_token",LS+"config.rs:register_unstake_token",LS+"liquidity_pool.rs:mint_unstake_tokens"])

if __name__=="__main__":
    import os
    with open(os.path.join(os.path.dirname(__file__),"..","properties.jsonl"),"w") as f:
        for x in P: f.write(json.dumps(x)+"\n")
    print(len(P))
