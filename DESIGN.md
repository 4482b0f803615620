# Formal model of XOXNO/rs-liquid-staking-sc in Lean 4

This file says what is modelled, how each property is stated and proved, what has to be trusted, and what the proofs found.
The table and the list of axioms are generated (`tools/design.py`) from `MANIFEST.json`, `properties.jsonl` and Lean's own `#print axioms`.

## Layout

| where | what |
|---|---|
| `lean/Verif/Model` | the model: one Lean function per Rust function, each citing file and lines |
| `lean/Verif/Spec` | the vocabulary of the statements, defined without the model's helpers |
| `lean/Verif/Props` | the property theorems, each with a concrete case that meets its hypotheses |
| `lean/Verif/Proofs` | lemmas and invariants |
| `lean/Verif/TestReplay` | the repository's own tests replayed on the model, checked by the kernel (`decide`): tests of the model, not proofs |
| `tools` | generators of `properties.jsonl`, `MANIFEST.json`, this file; the mutation and monitor tools |
| `seeded/LOG.jsonl` | wrong programs tried against the theorems |

## The model

* `World` is the storage of the contract, the ledgers (EGLD of every account, LS token, unstake tokens by nonce), the block epoch, the
  promises in flight, the issue calls awaiting an answer, and the events emitted.
* Every endpoint, view and callback of the liquid-staking contract is a total function into `Except Err`. Every `require!`, `sc_panic!`,
  negative `BigUint` subtraction, division by zero, decoding of an empty entry and `unwrap` of nothing is an error value.
* `BigUint` is `Nat`; `u64` is `UInt64` and wraps (the contract is built with `overflow-checks = false`); `usize` is 32 bits.
* `Op` lists everything that can happen: every endpoint by any caller with any argument and payment, the delivery of any outstanding
  callback in any order with any outcome and any EGLD attached, the answer to an issue call, transfers between users, plain transfers
  of smart contracts to the contract (it is deployed payable by smart contracts), holders burning tokens, EGLD reaching users, the handover of the contract, the passing of epochs. `step` runs one; a failed transaction changes nothing. `Reachable` means: by any finite list of these
  from any deployment.
* A callback that fails, or runs out of gas (`Op.starve`, at any time), is consumed, keeps the EGLD that came with it and is recorded in `dead`.
* `Model/Accum` has the call to the accumulator in bytes (`deposit`, no arguments, the fees) and what the contracts of the repository answer to it.
* `claimFees` calls the accumulator synchronously; in `claimFeesWith` the accumulator's behaviour is any function on the world
  (property C41), elsewhere it accepts or refuses and does not call back.
* `Sys` (Model/Providers) puts the contract together with the providers; the provider side follows `delegation-mock`. Requests and answers
  travel separately, and a callback can run out of gas (`SysOp.lose`). It is used where a property is about contract and providers together (C38, C51, C52).
* `Net` (Model/Mock) puts the contract together with the repository's own mocks: `delegation-mock` with its reward and unbonding rules and
  `delegation-manager-mock`. Every request is served by the mock's code and every answer is what that code returns (C56–C59, C70, C95).
  `NetReachable` keeps each mock's requests and answers in order and gives every callback gas; `AnyNet` does neither (C51, C56, C57).
* `Model/Abi` reads calls as they arrive (a name, arguments in bytes, EGLD, tokens) and says which operation each is, or why it is refused (C96).
* `Model/Mapper` is how the lists of providers and managers are kept in storage: linked nodes, numbered items (C97). Elsewhere they are lists.
* `Model/Wire` is what travels between the contract and the mocks in bytes: requests, closures, answers (C98). Elsewhere promises are kept decoded.
* `Model/Views` is what the views answer in bytes, from storage in bytes (C99).
* `Model/Proxy` is the client generated for the contract (C100).
* `Model/Logs` gives the events in bytes (C101).
* `Model/Messages` gives the texts of refusals (C104).

Statements are written with the functions of `lean/Verif/Spec`: `reserve`, `supply`, `egldOf`, `lsOf`, `unstakeOf`, `pendingEgld`,
`toUndelegate`, `withdrawable`, `provider`, `figure`, … which only read the world; with arithmetic written out (`lsFor`, `egldFor`,
the scores, the fair shares); and with sums given as `IsSum f n`, not by the model's folds.

## What is not modelled

* The gas the code uses: a transaction without it fails and changes nothing, a callback without it is `Op.starve`. (The gas set aside for the contract's own calls is modelled in `Model/Gas`, for C112.) Block nonce and timestamp in events. That the VM refuses direct calls of `init`, `upgrade` and the callbacks is assumed, as are the framework's checks of payments and arguments.
* Compilation from Rust to WebAssembly and the virtual machine itself. The framework's types (`BigUint`, mappers, `ManagedDecimal`) are
  modelled from their documented behaviour: their source is not in the repository.
* `upgrade` (empty body) replacing the code. (The handover of the contract to another owner, a protocol function, is modelled: `Op.changeOwner`.)
* Contract accounts as users that run code when paid (except the accumulator, C41): `direct_egld` runs none. A recipient refusing a plain transfer
  is a failed transaction, a payment followed by `giveEgld`, or, in a callback, `Op.starve`.
* Tokens other than the contract's own two: a payment in them is accepted or refused as the code does, but their balances are not tracked.
* Calls the contract makes to itself, possible only when a manager whitelists its own address: left out of `step`, added by
  `Model/SelfCall` (`selfServe`), and shown to reach no state that `step` does not reach up to what is never read (C93).
* Unstake-token nonces and event counts are unbounded numbers.
* Outside `Net`, rewards are an arbitrary outcome of the `claimRewards` promise. In `Net` nobody but the contract uses the mocks, anybody
  may deposit at a mock (the code allows only its owner), and `claimMultiple` passes the rewards on without a balance of its own.
* `proxy/*.rs` are generated call builders; they contain no behaviour of their own.

## Trusted base

* Lean 4.33.0's kernel (and, for reading the statements, its elaborator), and the Mathlib lemmas used, which the same kernel checks.
* The model: that `lean/Verif/Model` says what the Rust code does. It was written function by function from the text; the 176 modules
  include a replay of the repository's tests with the figures the tests expect.
* The specifications in `lean/Verif/Spec` and the statements in `lean/Verif/Props`: that they say what `properties.jsonl` says.
* No axioms were added; no `sorry`, `admit`, `native_decide` or `bv_decide`. Every theorem in the manifest depends only on axioms among
  `propext`, `Classical.choice`, `Quot.sound` (exact list per theorem at the end).

## What the proofs found

The first group are properties that are false of the code; the theorem `Cnn_false` is a concrete reachable counterexample, and
`Cnn_partial` is what does hold.

| | finding | where |
|---|---|---|
| C19 | the room under a provider's cap is computed from the total declared by its admin, which no delegation updates: successive batches exceed the cap | selection.rs:400-404 |
| C29 | whitelisting before the LS token is issued: success and failure callbacks both panic (`StorageCache::new`), the record stays, the EGLD is stuck | callback.rs:111-140 |
| C30 | `maxDelegationAddresses` is compared with `<=`, so one more is accepted; and the check is made before the promise, so whitelistings in flight together all pass | delegation.rs:37-46 |
| C34 | weights are added as wrapping `u64`: (2^64-1, 1, 100) is accepted | config.rs:118-121 |
| C35 | `addRewards` before the first deposit leaves reserve > 0 with supply 0; then every deposit is worth zero LS and fails, for ever (`bricked_forever`) | migrate.rs:73-82, liquidity_pool.rs:59-70 |
| C36 | the admin of one provider can declare a cap below the stake it has; `delegatePending` then fails for everyone | selection.rs:400-404 |
| C37 | after a failed delegation a provider can be left with a net stake between 0 and 1 EGLD; every `unDelegatePending` then fails | selection.rs:156-162 |
| C41 | `claimFees` zeroes the fees in storage only after the synchronous call: an accumulator calling back is paid again, and the cache written back afterwards overwrites what happened meanwhile | manage.rs:242-259 |
| C53 | a batch the providers cannot serve completely returns its remainder to the queue; the remainder can be below 1 EGLD, and then it cannot be asked back and its holders are not paid | manage.rs:109-177 |
| C61 | no smallest supply and no bound the depositor can set on the rate: leaving one unit of LS token and then adding rewards drives the rate so high that a later deposit of 200 EGLD is worth 150, to the gain of whoever did it | liquidity_pool.rs:59-70, migrate.rs:73-82 |
| C76 | rewards are credited when the answer to the claim arrives, to whoever holds LS tokens then: a deposit made while the claim is in flight and redeemed right after takes nine tenths of the reward without having been staked | callback.rs:90-108, lib.rs:102-140 |
| C92 | the declared number of nodes and rate of return enter the score as they are: by changing them a provider's admin raises its part of a batch from 36 to 106 of 150 EGLD | delegation.rs:113-147, score.rs:9-107 |
| C93 | the contract's own address can be whitelisted as a provider: every batch to it books the same EGLD again and mints LS tokens nobody can use, which share in later rewards | delegation.rs:29-96, manage.rs:84-98, lib.rs:102-114 |
| C100 | the published client is out of date: `delegate_rewards` and `rewards_reserve` call endpoints that do not exist, `claimFees` and `getFeesReserve` have no method, and the record of a provider cannot be read because two fields are missing | proxy/proxy_liquid_staking.rs:459-466, 589-596, 844-858; structs.rs:6-17 |
| C103 | the limit of providers per batch is cut to 32 bits for un-delegation: with 2^32 (or any multiple, or from 2^64 on) no stake can be asked back, with 2^32 + 1 only from one provider per batch | selection.rs:133-147, config.rs:88-94 |
| C104 | `setMaxAddresses(0)` is refused with the message about selected providers and `setMaxSelectedProviders(0)` with the one about addresses; `changeDelegationContractParams` of an unknown provider fails to decode before the message meant for it | config.rs:81-95, delegation.rs:114-131 |
| C106 | `addRewards` raises the reserve but announces no amount (a general event only), so the amounts in the log do not add up to the reserve | migrate.rs:71-82 |
| C107 | `migrate` mints LS tokens for an amount that is only named, not paid, and the owner chooses the contract that may call it: out of every state owner and that contract can take all EGLD waiting in the pool | migrate.rs:17-42, 84-93 |
| C112 | `claimRewards` names every provider in one call and sets aside 2.5 million gas for each: from 238 providers on it needs more than the 600 million a transaction can have, providers are never removed, so rewards can never be claimed again | manage.rs:220-239 |
| C113 | the unbond period in force when a redemption arrives decides: in front of it the owner can set any period, up to 2^64 epochs or none, and with none a later redemption takes the EGLD that came back for an earlier one | config.rs:97-101, un_delegation.rs |
| C114 | `claimRewards` claims from every listed provider in one call, which fails as a whole: one provider that cannot pay holds up the rewards of all others for as long as it is not helped; no endpoint claims from some of them, and a provider cannot be taken off the list | manage.rs, delegation_manager.rs |
| C115 | a matured unstake token is refused as long as nothing is withdrawable, and with no deposits and no manager collecting nothing ever becomes withdrawable: holders cannot start the return of their EGLD themselves | lib.rs, manage.rs |

Found on the way, part of proved statements:

* With a fee rate above 10000 rewards are credited nowhere (C23_rewards_lost).
* Answers of one provider arriving out of order make callbacks fail and lose track of stake (C38_order_needed).
* A queue can get stuck: when every provider with stake holds more than the queue but less than 2 EGLD, `unDelegatePending` is accepted
  and takes nothing, e.g. two providers of 1.5 EGLD and a redemption of 1.2 EGLD (C70_queue_stuck).
* A withdrawal whose answer overtakes the un-delegation before it is lost to the accounting (C71_own_order_matters).
* One callback without gas keeps the EGLD of an un-delegation outside the books and its holders unpaid; nothing repairs it (C78).
* A zero-width scoring range hit exactly blocks every batch (C33_zero_width_blocks).
* `maxSelectedProviders` of 2^32 or more is truncated when cast to `usize` (hypothesis of C54, C18).
* `withdraw` called with plain EGLD keeps the EGLD outside every figure (only adds to the slack of C09).
* `changeDelegationContractParams` on an unknown provider fails with a decoding error instead of its own message.

## The README against the code

| README | code |
|---|---|
| instant unstaking at no fee when EGLD is waiting | holds up to rounding: the instant part is the largest that leaves no dust, at the same rate as the deferred part (C14) |
| otherwise a 10-day unbonding period, represented by an NFT | the period is a setting; the maturity is fixed when the tokens are given out and later settings do not move it (C12, C50) |
| batches once per day | nothing in the code limits how often (C86) |
| up to 15–20 providers per batch | the number is a setting, cut to 32 bits for un-delegation (C103) |
| protocol updates by public endpoints, without admin wallets | delegation, un-delegation, collection and claims are reserved to managers (C25); only `claimFees` and `addRewards` are open |
| providers join freely with no constraints | whitelisting is reserved to managers (C25) and limited in number (C30) |
| delegation cannot be steered by large players | shares follow scores (C45), but scores use what the providers' admins declare (C92); a manager can send a whole batch to one provider (C87_steer) |
| un-delegation is spread over providers | shares follow the un-delegation scores (C54); a small remainder at one provider can stop all (C37) |
| rewards are compounded, with a cut by minting xEGLD | the cut is taken in EGLD, nothing is minted (C23, C24) |
| `delegateRewards` | does not exist; only the published client still names it (C100) |

## How the theorems were tested

* `tools/mutants.py` lists wrong versions of the model: wrong boundaries, missed cases, swapped arguments, dropped updates.
* `tools/mutate.py run` puts the whole development in one file with one edit and records which property theorems no longer check.
* A proof can break although its statement is still true. So `tools/mutate.py mon` also runs executable readings of the statements
  (`tools/monitor.lean.txt`) on pseudo-random executions of the edited model and records which statements became false. The unedited
  model violates none.
* `seeded/LOG.jsonl` has one line per attempt. `failed` lists theorems seen to fail when everything was rebuilt with the edit.
  Where `rebuilt` is false there was no such build: only the statements were evaluated on executions of the edited program
  (`statements_false_on_random_runs`), and `failed` is null.
* Correction: up to commit bb96ce8 the log listed theorems of C54, C69 and C70 as failed for many edits that had nothing to do with them.
  Two names clashed when the modules were put into one file, so these theorems failed there even without an edit.
  The names are fixed, `mutate.py run` now needs a baseline that passes, and lines not measured again since list these theorems as `undecided`.
* Correction: up to commit 1afd4fe seven lines (commit-none, dp-queue, is-slot, sc-noop, ch-credit, ac-wl-cap, nv-minimum) listed every
  theorem as failed. Their builds had stopped after 100 errors, so most theorems were never reached. `mutate.py` now lifts that limit and
  records nothing for a build that does not finish; until measured again these lines list only what was seen to fail.

## Properties

| id | property | modelled by | proved by | theorems | status |
|---|---|---|---|---|---|
| C01 | delegate mints the exact pro-rata amount | `delegate`, `unDelegate`, pool and token functions | inversion of the endpoint to an explicit state afterwards; the split is arithmetic | `C01_delegate_mints_pro_rata` | proved |
| C02 | unDelegate pays the exact pro-rata amount | `delegate`, `unDelegate`, pool and token functions | inversion of the endpoint to an explicit state afterwards; the split is arithmetic | `C02_unDelegate_pays_pro_rata` | proved |
| C03 | redemption value of an LS token never falls | all operations | for each operation reserve × old supply does not fall against old reserve × supply; induction over histories | `C03_rate_never_falls`, `C03_quote_never_falls` | proved |
| C04 | no profit and bounded loss on a round trip | `delegate` then `unDelegate` | C01 and C02 composed; division lemmas | `C04_round_trip` | proved |
| C05 | LS supply view equals tokens in existence | all operations | one global invariant on sums over accounts, providers and promises, preserved by each operation; induction | `C05_supply_is_total`, `C05_unburnt` | proved |
| C06 | outstanding LS tokens always have a positive reserve | all operations | one global invariant on sums over accounts, providers and promises, preserved by each operation; induction | `C06_reserve_positive` | proved |
| C07 | unstake tokens are exactly covered by the unbonding pipeline | all operations | one global invariant on sums over accounts, providers and promises, preserved by each operation; induction | `C07_unstake_tokens_covered` | proved |
| C08 | virtual reserve is fully backed | all operations | one global invariant on sums over accounts, providers and promises, preserved by each operation; induction | `C08_reserve_backed`, `C08_reserve_backed_no_migration` | proved |
| C09 | the contract is always solvent | all operations | one global invariant on sums over accounts, providers and promises, preserved by each operation; induction | `C09_solvent`, `C09_no_shortfall` | proved |
| C10 | no withdrawal before the unbonding epoch | `withdraw` and its loop | induction over the list of payments | `C10_only_matured`, `C10_immature_fails` | proved |
| C100 | the published client fits the contract | the generated client | method by method against the tables of C96 and C99; concrete refutations | `C100_requests_partial`, `C100_answers_partial`, `C100_count`, `C100_deploys`, `C100_record`, `C100_stale`, `C100_missing`, `C100_false` | partial |
| C101 | events can be read from their bytes | events in bytes | a separate reader, field by field; with C66 for the figures | `C101_read`, `C101_distinct`, `C101_pool` | proved |
| C102 | everything stored fits the type it is stored as | sizes in storage | invariant over calls in bytes (C96, C27, the steps of a record); amounts from C07 and C08 | `C102_fits`, `C102_views`, `C102_determined` | proved |
| C103 | no limit on the number of providers stops un-delegation | limit of providers per batch | length of the selection against the machine word; witness with the limits of the setter; congruence of delegation in the limit | `C103_false`, `C103_count`, `C103_blocked`, `C103_delegations`, `C103_partial` | partial |
| C104 | a refusal names its reason | every endpoint and helper that can refuse | a predicate on the errors of a computation, carried through binds; induction over the loops; the split of a payment never leaves dust | `C104_false`, `C104_partial`, `C104_silent`, `C104_texts` | partial |
| C105 | a complete account of what anybody owns | every operation | an exact balance of the group for each operation, with two inequalities for deposits and redemptions and the rate (C72) for those of others; sums over finite sets of accounts; induction over histories | `C105_step`, `C105_history`, `C105_all`, `C105_entries` | proved |
| C106 | the amounts in the log add up to the reserve | events, every operation | the events of each operation (C65) against the change of the reserve; induction over histories; the reader of C101 for the bytes | `C106_false`, `C106_partial`, `C106_step`, `C106_history`, `C106_history_exists`, `C106_bytes` | partial |
| C107 | nobody can take the EGLD behind the LS tokens | migration, backing of the reserve | three transactions composed from C39, C16 and C14 with the arithmetic of minting; C08 and induction over histories | `C107_false`, `C107_theft`, `C107_covered_iff`, `C107_partial` | partial |
| C108 | the protocol's fees are the announced revenue, at the rate in force | fees, events, payments to the accumulator | C24, C65 and C66 summed over histories; the rounding of each claim bounded and added up | `C108_step`, `C108_history`, `C108_history_exists`, `C108_at_most`, `C108_at_least` | proved |
| C109 | the record of a provider is the sum of its answers | records of providers, answers | C64 for everything but answers, inversion of the four callbacks for those; summed over histories | `C109_step`, `C109_history`, `C109_history_exists`, `C109_in_order` | proved |
| C11 | withdraw pays one to one and returns the rest | `withdraw` and its loop | induction over the list of payments | `C11_withdraw_one_to_one` | proved |
| C110 | for money the contract is a machine of thirteen numbers | all of it | inversion of every transaction into one move of a machine of thirteen numbers; the three properties of the machine by cases on its moves | `C110_step`, `C110_history`, `C110_principle`, `C110_backing`, `C110_rate`, `C110_solvent` | proved |
| C111 | raising the rate so that others lose by rounding does not pay | every operation | a potential: what the group owns and n times the rate; one inequality each for what the group does, for deposits and for redemptions of others; induction over histories | `C111_dealings`, `C111_does_not_pay` | proved |
| C112 | the gas set aside for the contract's own calls fits into a transaction | the gas of promises | the promises of each transaction (C17, C20, C22), with machine words for the product; the list of providers only grows (C31); a history with 238 providers evaluated | `C112_false`, `C112_needs`, `C112_batches_fit`, `C112_owner_can`, `C112_never_again`, `C112_claim_fits_partial`, `C112_claim_kept_partial` | partial |
| C113 | redemptions mature in the order they are made, after the time announced | redemptions and the unbond period | the maturity fixed by a redemption (C12) with the clock and the period along histories (C64); acceptance of a redemption under any period by C16 and the uniqueness of the split of C14; histories evaluated | `C113_false`, `C113_jump`, `C113_delay`, `C113_in_order_partial`, `C113_as_announced_partial` | partial |
| C114 | one provider cannot hold up the rewards of the others | `claimRewards`, mocks, manager | the mock of the provider does not change along histories without help, and what is due grows with the epoch; the failure of the claim by C57, the list of providers by C31 | `C114_false`, `C114_blocked`, `C114_nothing`, `C114_cure`, `C114_partial` | partial |
| C115 | a matured unstake token is paid when it is presented | withdrawals and where their EGLD comes from | the three operations that touch the withdrawable EGLD (C64 for all others); induction over histories; C50 and C11 for the partial statement | `C115_false`, `C115_waits`, `C115_in_all`, `C115_partial` | partial |
| C116 | a provider that refused a delegation gets nothing more until it is declared open again | providers closed to delegations | the operations that touch eligibility, stake and delegations in flight (C64 for all others); induction over histories; inversion of the declaration | `C116_stays_closed`, `C116_refusal_closes`, `C116_reopen` | proved |
| C117 | a setting has an influence only on the transactions it is for | influence of the settings | a relation between two runs that keeps all parts but the settings in question, preserved by every operation that does not consult them; concrete pairs of reachable states for the exactness | `C117_apart`, `C117_history`, `C117_free`, `C117_exact` | proved |
| C118 | no account is privileged or shut out by its address | renaming of accounts | every function of the model commutes with an injective renaming of addresses (of balances, lists, records, calls, events); for peers, the exchange of two accounts composed with the relation of C86 | `C118_renamed`, `C118_history`, `C118_reachable`, `C118_peers`, `C118_equal` | proved |
| C119 | operators and providers decide when users get their egld, not how much | deeds and purses | one case for every transaction, from the effects proved in C01, C02, C11 and C39 and the parts a transaction touches (C64), summed over the group | `C119_step`, `C119_history`, `C119_all`, `C119_same`, `C119_account`, `C119_idle`, `C119_others`, `C119_covered` | proved |
| C12 | maturity of an unstake position is fixed at unDelegate | unstake-token registry, clean-up | registry invariant; maturity followed through histories by induction | `C12_maturity_fixed`, `C12_stays_matured` | proved |
| C120 | only elapsed time counts, not the date | shift of all epochs | every function of the model commutes with the addition of a number of epochs; comparisons need room below 2^64, additions do not; for histories, an invariant that bounds all epochs in the state | `C120_later`, `C120_history`, `C120_deployed`, `C120_same`, `C120_maturity` | proved |
| C121 | what is entrusted to each provider, and what providers that keep it can cost | flow of EGLD to and from one provider | the book of answers (C109) and the counters of calls in flight (C21) give the flow of one transaction; the sum over providers from C07 and C08 | `C121_step`, `C121_history`, `C121_history_exists`, `C121_promises`, `C121_covered`, `C121_closed` | proved |
| C122 | the call for the fees, in bytes, and who can take it | interfaces in bytes | the name of the function is compared with all exported names; refinement of the endpoint with the answer given; payment from C24 | `C122_no_taker`, `C122_agrees`, `C122_paid_iff`, `C122_redirect` | proved |
| C123 | token identifiers are only names | renaming of tokens | every function of the model commutes with an injective renaming of the identifiers; a fresh deployment has none | `C123_renamed`, `C123_history`, `C123_deployed`, `C123_same`, `C123_slots` | proved |
| C13 | unstake-token top-ups never fail | unstake-token registry, clean-up | registry invariant; maturity followed through histories by induction | `C13_registered_nonce`, `C13_one_unit`, `C13_topUp_never_fails`, `C13_users_never_burned` | proved |
| C14 | the instant/deferred split is exact, dust-free and maximal | `get_action_amount` | case analysis against an independent optimality specification | `C14_delegate_split`, `C14_unDelegate_split` | proved |
| C15 | deposits of at least 1 EGLD are never refused | `delegate`, `unDelegate`, `withdraw` | every guard discharged from the invariants; the converse by inversion | `C15_deposit_accepted`, `C15_some_deposit_accepted`, `C15_deposit_iff` | proved |
| C16 | redemptions worth at least 1 EGLD are never refused | `delegate`, `unDelegate`, `withdraw` | every guard discharged from the invariants; the converse by inversion | `C16_redemption_accepted`, `C16_redemption_iff` | proved |
| C17 | delegatePending neither creates nor loses EGLD | batch endpoints, selection module | inductions over provider lists and the distribution loop | `C17_delegatePending_exact` | proved |
| C18 | who receives delegations | batch endpoints, selection module | inductions over provider lists and the distribution loop | `C18_delegation_targets` | proved |
| C19 | provider caps are respected | the endpoints concerned | reachable counterexample evaluated by the kernel; the part that holds by invariant | `C19_false`, `C19_partial`, `C19_twice_partial`, `C19_declared_partial` | partial |
| C20 | unDelegatePending is exact, within holdings and dust-free | batch endpoints, selection module | inductions over provider lists and the distribution loop | `C20_unDelegatePending_exact` | proved |
| C21 | in-flight counters equal the calls in flight | all operations | one global invariant on sums over accounts, providers and promises, preserved by each operation; induction | `C21_counters_in_flight`, `C21_delegations_in_flight` | proved |
| C22 | failed provider calls roll back exactly once | callbacks and endpoints | inversion, with the frame stated field by field | `C22_failed_delegation`, `C22_failed_undelegation` | proved |
| C23 | rewards are split exactly | callbacks and endpoints | inversion, with the frame stated field by field | `C23_rewards_split`, `C23_rewards_lost` | proved |
| C24 | claimFees moves exactly the fees reserve | callbacks and endpoints | inversion, with the frame stated field by field | `C24_claimFees_exact`, `C24_claimFees_succeeds` | proved |
| C25 | privileged calls need privileged callers | all operations | case analysis over operations with a frame lemma per operation | `C25_privileged_calls`, `C25_outsiders`, `C25_neutral` | proved |
| C26 | pausing stops user and batch operations | all operations | case analysis over operations with a frame lemma per operation | `C26_paused` | proved |
| C27 | configuration changes only through its owner setter | all operations | case analysis over operations with a frame lemma per operation | `C27_configuration` | proved |
| C28 | quotes equal execution and views do not change state | views | a loaded and committed cache leaves storage unchanged; quotes compared with C01/C02 | `C28_deposit_quote`, `C28_redemption_quote`, `C28_views_change_nothing` | proved |
| C29 | whitelisting is atomic with its first delegation | whitelisting and its callback | registry invariant; counterexample before the token exists; a provider whose callback failed stays out, by induction over the history | `C29_false`, `C29_joins_partial`, `C29_refund_partial`, `C29_once_partial`, `C29_limbo`, `C29_limbo_gas` | partial |
| C30 | number of providers stays within maxDelegationAddresses | the endpoints concerned | reachable counterexample evaluated by the kernel; the part that holds by invariant | `C30_false`, `C30_unbounded`, `C30_partial`, `C30_tight`, `C30_whitelist_partial` | partial |
| C31 | provider lists are consistent and permanent | provider lists and records | registry invariant, induction over histories | `C31_lists_consistent`, `C31_never_removed` | proved |
| C32 | providers are served round-robin | batch endpoints, selection module | inductions over provider lists and the distribution loop | `C32_round_robin`, `C32_newcomer_last`, `C32_nothing_else` | proved |
| C33 | scores are bounded and ordered as documented | score module | normalisation characterised by its defining inequality; monotonicity lemmas | `C33_delegation_score`, `C33_undelegation_score`, `C33_scores`, `C33_normalised`, `C33_normalisation_fails`, `C33_delegation_order`, `C33_undelegation_order`, `C33_scoring_fails`, `C33_only_score`, `C33_zero_width_blocks` | proved |
| C34 | accepted scoring weights sum to 100 | the endpoints concerned | reachable counterexample evaluated by the kernel; the part that holds by invariant | `C34_false`, `C34_partial`, `C34_exact_partial`, `C34_stored_partial`, `C34_each` | partial |
| C35 | deposits cannot be blocked for ever | deposits | reachable counterexample; absorbing set of bricked states; the only way into it | `C35_false`, `C35_trapped`, `C35_anybody`, `C35_partial`, `bricked_forever` | partial |
| C36 | one provider cannot block delegatePending | the endpoints concerned | reachable counterexample evaluated by the kernel; the part that holds by invariant | `C36_false`, `C36_blocks`, `C36_in_turn`, `C36_lasts`, `C36_partial` | partial |
| C37 | a small remainder at one provider cannot block unDelegatePending | the endpoints concerned | reachable counterexample evaluated by the kernel; the part that holds by invariant | `C37_false`, `C37_partial`, `C37_jams`, `C37_refusal`, `C37_lasts` | partial |
| C38 | callbacks of well-behaved providers never fail | contract with providers (`Sys`) | invariant relating records, messages under way and provider books under per-provider order | `C38_callbacks_succeed`, `C38_none_failed`, `C38_records_match`, `C38_order_needed`, `C38_gas_needed` | proved |
| C39 | migration is price-neutral | callbacks and endpoints | inversion, with the frame stated field by field | `C39_migrate`, `C39_migratePending` | proved |
| C40 | events report the committed state | events | each endpoint's event compared with the storage committed at its end | `C40_events_report` | proved |
| C41 | claimFees is safe against re-entrancy | `claimFeesWith` with an arbitrary accumulator | counterexample with a re-entering accumulator; exactness without re-entrance | `C41_false`, `C41_partial`, `C41_exact_partial`, `C41_quiet_partial`, `C41_drain`, `C41_deposit_lost`, `C41_unbacked` | partial |
| C42 | no double claim | all operations | ledger of issued and paid amounts carried along histories | `C42_no_double_claim`, `C42_ledger_exists` | proved |
| C43 | parameter updates do not touch accounting | callbacks and endpoints | inversion, with the frame stated field by field | `C43_changeParams`, `C43_changeAdmin` | proved |
| C44 | withdrawn stake moves exactly from unbonding to withdrawable | all operations | one global invariant on sums over accounts, providers and promises, preserved by each operation; induction | `C44_unbonding_total`, `C44_withdrawal_moves_exactly`, `C44_excess_stranded` | proved |
| C45 | a delegation batch is complete and proportional to the scores | `delegatePending`, selection, scores | distribution loop characterised against fair shares computed in the specification | `C45_complete`, `C45_fair_shares`, `C45_all_sent`, `C45_no_scores` | proved |
| C46 | outgoing calls go only to registered providers | all operations | the promises appended by each operation, by case analysis | `C46_calls`, `C46_targets`, `C46_claimRewards`, `C46_withdrawPending`, `C46_whitelist` | proved |
| C47 | settings take effect exactly | setters | inversion; exact state afterwards | `C47_setters`, `C47_setters_available`, `C47_scoring`, `C47_removed` | proved |
| C48 | views agree with the pool | views | division lemmas on top of the pool invariant | `C48_exchange_rate`, `C48_rate_and_quotes`, `C48_at_least_one`, `C48_rate_never_falls`, `C48_provider_views` | proved |
| C49 | deployment starts empty and closed | `init`, operations before issuing | explicit initial state; invariant of the empty pool | `C49_deployment`, `C49_before_setup` | proved |
| C50 | exactly when a withdrawal is accepted | `delegate`, `unDelegate`, `withdraw` | every guard discharged from the invariants; the converse by inversion | `C50_withdraw_iff` | proved |
| C51 | contract and providers together are solvent | contract with providers | invariant: recorded stake, unbonding and delegations under way are covered by spare EGLD, provider books and messages; added to C07 and C08; carried over to the mocks by refinement | `C51_system_solvent`, `C51_network_solvent`, `C51_claims_needed` | proved |
| C52 | everybody can exit | contract with providers | explicit schedule of `withdrawPending`, then induction over any order of claims | `C52_exit` | proved |
| C53 | the un-delegation queue never holds dust | un-delegation queue | reachable counterexample; dust-freedom while batches are served in full | `C53_partial`, `C53_modest_partial`, `C53_leave_some_partial`, `C53_origin`, `C53_dust_stays`, `C53_dust_step`, `C53_way_out`, `C53_false` | partial |
| C54 | un-delegations are shared fairly between the providers | `unDelegatePending`, selection, scores | selection loop characterised as shortest sufficient prefix; distribution bounds by induction | `C54_givers`, `C54_complete`, `C54_first`, `C54_at_least`, `C54_at_most`, `C54_plenty`, `C54_no_scores` | proved |
| C55 | each token is issued once, by the owner, and a refused issue is refunded | token issuing and its callback | invariant on slots and outstanding issues; inversion | `C55_flag_iff`, `C55_start_iff`, `C55_start`, `C55_one`, `C55_success`, `C55_failure`, `C55_answerable`, `C55_permanent` | proved |
| C56 | EGLD is neither created nor lost | every operation; mocks | per-operation balance of the sum over all accounts; joined with the mocks' balances | `C56_egld_conserved`, `C56_network_conserves`, `C56_sums` | proved |
| C57 | rewards arrive in full and are credited once | `claimRewards`, mocks, manager | induction over the providers claimed; composition of the three steps | `C57_claim_pays_due`, `C57_rewards_end_to_end`, `C57_splitting` | proved |
| C58 | everybody can exit from the network | contract with mocks | explicit schedule as in C52, with the mocks' unbonding clock; witness for the hypothesis on funds | `C58_network_exit`, `C58_funds_needed` | proved |
| C59 | providers never refuse what the contract asks | contract with mocks | refinement of the mocks to the provider books of C38; invariant that what is asked is held | `C59_no_refusal`, `C59_records_match` | proved |
| C60 | nobody can take from an account that sends nothing | all endpoints, callbacks and transfers | balance of an account through every operation; C13 for unstake tokens; rate never falls (C03) | `C60_others_take_nothing`, `C60_position_safe` | proved |
| C61 | a deposit redeemed at once comes back almost whole | deposit and redemption arithmetic, addRewards | witness by evaluation; bound from C04 | `C61_false`, `C61_profit`, `C61_partial` | partial |
| C62 | nothing is gained by splitting | deposit and redemption arithmetic | induction on the list of parts with the rate never falling; product inequality for redemptions | `C62_deposit_parts`, `C62_redemption_parts` | proved |
| C63 | no group of accounts can profit from the contract by itself | all endpoints, callbacks and transfers | seven kinds of effect on the group's holdings, one inequality over the rationals for each; every operation is one of them | `C63_no_profit`, `C63_sums` | proved |
| C64 | a transaction changes only the parts it is for | every operation | per-operation frame lemma from the inversion of the endpoint, over all parts at once | `C64_only_its_parts`, `C64_nothing` | proved |
| C65 | events are exact | every operation, events | inversion of every endpoint and callback | `C65_events_exact` | proved |
| C66 | the log of events tells the state of the pool | every operation, events | induction over executions with C65 and C64 | `C66_log_has_figures`, `C66_revenue`, `C66_fees_announced` | proved |
| C67 | exactly when a callback fails | callbacks | the failing checks of each callback, with the registry invariant excluding the rest | `C67_callback_fails_iff` | proved |
| C68 | which position a redemption joins | `unDelegate`, minting of unstake tokens | inversion of the mint, invariant on nonces; induction over traces with C64 | `C68_position`, `C68_nothing_deferred`, `C68_one_nonce` | proved |
| C69 | exactly when each transaction is accepted | every operation; the delegation and un-delegation batches down to the scores | inversion of each endpoint in both directions; induction over the selection loops | `C69_accepted_iff` | proved |
| C70 | an LS holder gets out with the full value | contract with mocks | explicit schedule: redemption (C16, C02), one batch that takes the whole queue (C37, C54), its answers (C59), collection (C58), withdrawal (C11); frame from C64 | `C70_holder_exit`, `C70_queue_exit`, `C70_queue_stuck`, `C70_first_needed` | proved |
| C71 | the order of answers does not matter | callbacks | each callback reduced to additive changes and one provider's record (with C67 for failures); two such changes commute; induction over exchanges of neighbours, and every admissible order is reached by exchanges | `C71_any_order`, `C71_reordered_answers`, `C71_own_order_matters`, `C71_first_order_matters` | proved |
| C72 | rewards reach the holders in proportion, and nothing else raises their value | pool, callbacks | every transaction moves supply and reserve in one of three ways (credit, deposit, redemption; by C01, C02, C39, C64); the change of the rate is bounded for each, over the rationals; induction over the history | `C72_pro_rata`, `C72_all_of_it`, `C72_only_rewards`, `C72_history` | proved |
| C73 | roles are given only by those who may | every operation | the frame of C27 and C64 for each role; induction over the history of a group | `C73_handover`, `C73_after_handover`, `C73_appointed`, `C73_no_escalation` | proved |
| C74 | tokens burned by their holders are lost to them and locked for ever | every operation | inversion and frame of C64; C05 and C03 (LS tokens), C07 (unstake tokens) along the later history | `C74_burn_ls`, `C74_burn_unstakes`, `C74_counted`, `C74_ls_locked`, `C74_unstakes_locked` | proved |
| C75 | every EGLD in the contract's account is accounted for | every operation | the balance of the contract through every endpoint and callback (failing callbacks by C67); induction over histories | `C75_ledger`, `C75_history`, `C75_history_exists`, `C75_locked`, `C75_exact`, `C75_ls`, `C75_no_ls` | proved |
| C76 | rewards cannot be taken by a deposit of a moment | delegate, addRewards, claim callback, unDelegate | witness by evaluation; arithmetic of the pool; the three transactions constructed from any state with a claim in flight | `C76_false`, `C76_partial`, `C76_open` | partial |
| C77 | a group gains from rewards by what it holds when they arrive, and by nothing else | every operation | C63 for all but rewards, the rate for those; induction over histories | `C77_share` | proved |
| C78 | a callback out of gas loses its answer, for ever | starved callbacks, every operation | calls whose callback failed are never taken up again, by cases on what a transaction does to the calls; C21 | `C78_starved`, `C78_for_ever` | proved |
| C79 | what smart contracts send to the contract by plain transfers stays there and changes nothing else | plain transfers to the contract, every operation | frame of C64; C75 (EGLD, LS tokens), C03 and C05 (value of LS tokens), C07 (unstake tokens) along the later history | `C79_egld`, `C79_ls`, `C79_unstakes`, `C79_egld_locked`, `C79_ls_locked`, `C79_unstakes_locked` | proved |
| C80 | a deposit can be taken out again, whatever happens in between | deposit, redemption and withdrawal of one account, everything else in between | C01, C03, C16, C02, C12, C60, C50 and C11 put together along the history | `C80_deposit_returns` | proved |
| C81 | withdrawals after each other share what there is; with enough for all the order does not matter | withdraw, any number of times | C11 for each withdrawal, C50 for acceptance; induction over the list, sums do not change under permutation; witness by evaluation | `C81_sum_paid`, `C81_enough`, `C81_any_order`, `C81_no_priority` | proved |
| C82 | storage entries never share a key | storage keys | evaluation over all pairs of kinds of entries: equal lengths and a common prefix never occur together; then cancellation | `C82_keys_distinct`, `C82_write_read`, `C82_not_reserved` | proved |
| C83 | what is stored is read back | stored values | decoder after encoder, field by field; C82 for the entries | `C83_numbers`, `C83_provider`, `C83_attrs`, `C83_scoring`, `C83_state`, `C83_determined`, `C83_write_record`, `C83_representable` | proved |
| C84 | what users get does not depend on the dealings with providers | every operation but those with providers | a relation between worlds kept by every primitive of the model; each endpoint composed from them; C64 for what is left alone | `C84_front`, `C84_views`, `C84_behind`, `C84_quiet`, `C84_history` | proved |
| C85 | the balances of others have no influence | every operation | as C84, with the balances related on some accounts only | `C85_others`, `C85_history` | proved |
| C86 | nothing limits how often batches are sent | every operation | as C84, with the parts in question left out of the relation; a case carried over to all values of the settings | `C86_unread`, `C86_history`, `C86_at_once` | proved |
| C87 | managers can always reopen delegation | changeParams, setScoringConfig, delegatePending | explicit history built by recursion on the list of providers; acceptance from C69, amounts from C17, C18, C45 | `C87_steer`, `C87_not_overdrawn` | proved |
| C88 | managers can always reopen un-delegation | the same and unDelegatePending | induction on the number of remnants, each lifted by one batch as in C87; acceptance from C69 | `C88_restore`, `C88_fund` | proved |
| C89 | the queue is emptied by a deposit of its size | `delegate` | C15 and C14: the split of a payment equal to the queue is unique | `C89_emptied` | proved |
| C90 | out of every state everybody can be paid | the network of contract and mocks | induction on the calls on their way; refused un-delegations excluded by C59; then C89 and C58 | `C90_rest`, `C90_all_paid` | proved |
| C91 | every provider has its turn | `delegatePending`, `unDelegatePending`, every operation for the order | induction on the list of transactions: the place in the rotation falls with each batch that does not look at the provider; C32, C45, C54 | `C91_turn`, `C91_turn_back`, `C91_worth`, `C91_worth_nothing` | proved |
| C92 | a provider cannot enlarge its share by its own declarations | `changeParams` and the scores | the scores of the others do not mention the record (C43); the share is monotone in the own score, which has a maximum | `C92_false`, `C92_others_partial`, `C92_limit_partial`, `C92_batch_partial`, `C92_reached` | partial |
| C93 | the contract as its own provider adds no behaviour, but books EGLD twice | `selfServe` (Model/SelfCall) beside `step` | a deposit of the contract itself equals, in all that is read (C86), a deposit of another contract that then sends it the tokens; the unread differences are carried along by C86 | `C93_covered`, `C93_conserved`, `C93_solvent`, `C93_no_return`, `C93_hollow` | proved |
| C94 | transactions ahead of a deposit or a redemption change it by rounding only | all operations | the bound of C72 on each transaction; Bernoulli's inequality along the history; floors | `C94_rate`, `C94_redemption`, `C94_deposit`, `C94_rewards_ahead` | proved |
| C95 | requests keep to the protocol's smallest amounts | contract with mocks | invariant that the requests on their way, accepted one after the other, never leave part of an EGLD; C20 for a new batch, the provider books of C38 for the mock's own deposit | `C95_allowed`, `C95_whole`, `C95_strict`, `C95_order_needed` | proved |
| C96 | every call is an operation of the model or is refused | calls in bytes | case analysis over the 57 endpoints; the decoders inverted one argument at a time, encodings of C83 for the converse; C25 for the names | `C96_exported`, `C96_meaning`, `C96_reads`, `C96_call`, `C96_unambiguous`, `C96_payments`, `C96_expressible`, `C96_deploy`, `C96_histories`, `C96_by_name` | proved |
| C97 | the lists kept in storage are the lists of the model | storage mappers | representation invariant (segments of linked nodes) preserved by each operation; at the limit a node numbered 0 | `C97_linked`, `C97_limit`, `C97_managers` | proved |
| C98 | requests, answers and callbacks survive their way in bytes | proxies, interfaces of the mocks, callback closures | decoding after encoding, message by message; then a step-by-step correspondence of two networks, with the invariant that stored addresses have 32 bytes | `C98_served`, `C98_callback`, `C98_lossless`, `C98_gas`, `C98_network` | proved |
| C99 | the views answer exactly what is kept | the views, storage in bytes, mappers | decoding after encoding, view by view, on top of C83, C96 and C97 | `C99_views`, `C99_whole`, `C99_kept` | proved |

Notes on single properties:

* C100: False of the code: two stale methods, two endpoints without a method, and a record type that lacks two fields. Everything else is proved.
* C101: The reader is written separately from the encoder. Block number, time and the bytes of the token identifier are parameters.
* C102: Removes the assumptions on sizes from C83, C99 and C100 for states reached by bytes.
* C103: The claim is false of the code (C103_false): only the lower 32 bits of the limit count for un-delegation, so with a multiple of 2^32 or from 2^64 on nobody can ask back anything (C103_blocked, for all states and amounts). C103_partial: once a limit below 2^32 is set, whatever it was before, every valid batch works in histories without failed delegations.
* C104: The claim is false of the code (C104_false): the messages for a limit of zero are exchanged between the two setters, and with a limit of which the machine keeps 0 (C103) the contract says no provider is available although one has stake. All other refusals are proved to tell the truth. Errors of the framework and the chain carry no message of the contract and are not covered; one of them stands where a message was meant (C104_silent).
* C105: LS tokens that come with a whitelisting are counted as a deposit of the EGLD the whitelisting had taken; a whitelisting whose callback failed gives nothing back.
* C106: The claim is false of the code (C106_false): addRewards emits only a general event, so the EGLD it adds to the reserve appears in no amount. C106_partial: without addRewards the log adds up. C106_step and C106_history give the exact account for all transactions and histories, with addRewards counted in.
* C107: The claim is false of the code (C107_false): migrate credits LS tokens for an amount it only names, and the owner chooses who may call it. C107_theft: out of every state with an active contract the owner and any contract can take all pending EGLD, with supply and rate unchanged. C107_partial: without migrate the reserve is always covered; C107_covered_iff says exactly when it is.
* C111: The case with no LS tokens in other hands is C61_profit, where the attack pays.
* C112: The claim is false of the code for claimRewards (C112_false): at 600 million gas 238 providers are too many, and as providers are never removed rewards can never be claimed again (C112_never_again). Everything else is proved; C112_claim_fits_partial and C112_claim_kept_partial say when claims fit. Only the gas set aside for the contract's own calls is modelled, so what fits here may still lack the gas to run; what does not fit here fails.
* C113: The claim is false of the code: the period in force when a redemption arrives decides, and the owner can set any period in front of it (C113_false, C113_delay: for every state and redemption). C113_jump: with the period at zero a later redemption takes the EGLD that had come back for an earlier one. C113_in_order_partial: the order is kept as long as the period is not lowered. C113_as_announced_partial: the period announced is the period waited, unless the owner changes it in between.
* C114: The claim is false of the code: claimRewards always names every listed provider, in one call that fails as a whole (C114_false). C114_blocked: for every listed provider that cannot pay, through every history in which it is not helped; C114_nothing: the failure changes nothing in the contract; C114_cure: paying in what is missing is enough. C114_partial: when all can pay, all rewards arrive.
* C115: The claim is false of the code: maturity is a date, the EGLD has to come from a deposit or from a provider, and only managers send for it (C115_false). C115_waits: for every state with nothing withdrawable and every history without deposit or collection, of any length. C115_in_all: what withdrawals pay is bounded by what came in. C115_partial: with enough withdrawable every matured token is paid in full.
* C116: Delegations already on their way to the provider may still arrive; stake and delegations in flight together do not grow.
* C117: Spec.consults is the table of settings each transaction consults; C117_exact shows that no entry of it is superfluous.
* C118: The two addresses that the code writes out - the zero address, tested for by the migration, and the delegation manager, recorded in events - keep their names.
* C119: When EGLD joins the pool for the first stake of a provider, and when rewards are credited, is up to the provider and the delegation manager: these answers are deeds, and so is the payment of fees to the accumulator. Whether a redemption is paid at once or with unstake tokens is not a deed: both count the same here; how long unstake tokens have to wait is the subject of C113 to C115.
* C120: Time is the block epoch; rounds and timestamps are not read by the code (require_min_rounds_passed is empty).
* C121: A whitelisting in flight is not entrusted: its EGLD belongs to the caller until the provider confirms. C121_covered needs honest reports of rewards, as C09.
* C122: A foreign accumulator is given by the calls it accepts; calls it makes back into the contract are the subject of C41. That a synchronous call of an account without code fails is the VM.
* C123: Identifiers are abstract in the model. The one look the code takes at their bytes (is_valid_esdt_identifier in utils/un_delegation.rs) is passed by every identifier the protocol gives; renamings are to such identifiers.
* C18: Assumes fewer than 2^32 whitelisted providers (the code casts the list length to a 32-bit usize).
* C19: The claim is false of the code (C19_false: room is computed from the declared total, which no delegation updates). C19_partial: the per-batch bounds that do hold. C19_twice_partial: over any history in which the cap is not changed and no un-delegation there fails, the net stake stays below twice the cap (an example meets the bound; another shows 44 EGLD at a cap of 15 after a failed un-delegation). C19_declared_partial: within the cap, if the declared total counts the contract's own stake whenever a batch is sent.
* C29: The refund clause is false before the LS token is issued (C29_false: the callback panics, record and payment are stuck). The other clauses hold in every reachable state, the refund clause once the token is issued. C29_limbo says exactly when the callback fails, and that then, or when it finds no gas (C29_limbo_gas), the provider can never be listed or whitelisted again.
* C30: The claim is false of the code (C30_false: the limit is compared with <=; C30_unbounded: for every limit any number of providers is reachable, since whitelistings under way are not counted). C30_partial: with at most k whitelistings under way at a time and a limit that is never lowered, at most k more than the limit; C30_tight: that many are reached, for every limit and every k.
* C34: The claim is false of the code (C34_false: weights are added modulo 2^64). C34_partial: the sum is 100 modulo 2^64, hence 100 without overflow. C34_exact_partial, C34_stored_partial, C34_each: the sums let pass, and ever in force, are exactly 100, 2^64 + 100 and 2^65 + 100.
* C35: The claim is false of the code (C35_false: anybody can add rewards before the first deposit; C35_anybody: from every reachable state in which no LS tokens exist, by every account and with every amount). C35_partial: the only transactions that can brick the pool, and only while no LS tokens exist. C35_trapped: the reserve of such a pool never gets smaller and nobody ever owns a share of it.
* C36: The claim is false of the code (C36_false: a provider admin declares a cap below the stake already there; C36_in_turn: the admin of the provider at the front of the rotation can do so in every state with stake there; C36_lasts: only another declaration, a failed delegation to it or a fall of its stake ends the blockade). C36_partial: with consistent eligible providers and room at one of them, every valid batch succeeds. C87: managers can always lift the blockade.
* C37: The claim is false of the code (C37_false: a failed delegation can leave 0 < net < 1 EGLD at a provider, then every un-delegation batch fails; C37_refusal: in every state with suitable figures one refusal by the provider to be asked first does so; C37_lasts: only stake sent to it, or another refusal of its, ends the blockade). C37_partial: it holds in every history in which no delegation failed. C88: managers can always lift the blockade.
* C38: Providers are modelled after delegation-mock; withdrawals are covered too. C38_order_needed, C38_gas_needed: without per-provider order, or with a callback out of gas, it fails.
* C41: The claim is false of the code (C41_false: the reserve is zeroed in storage only after the synchronous call). C41_partial: exact payment when the accumulator does not touch this contract while being paid. C41_exact_partial: for every accumulator, the figures afterwards are those before the call with the fees cleared, the rest is what the accumulator left. C41_quiet_partial: transactions which neither change nor use the figures (transfers, settings, provider parameters and so on) made during the payment do no harm, the outcome is that of making them afterwards. C41_drain: in every state the fees can be taken exactly as often as the contract's EGLD lasts. C41_deposit_lost, C41_unbacked: a deposit made during the call mints tokens no figure knows of.
* C51: No order of requests and answers is assumed and callbacks may run out of gas. C51_claims_needed: with rewards reported but not sent it fails.
* C53: False of the code: a batch which the chosen providers cannot serve completely returns its remainder to the queue, and that remainder can be below one EGLD (C53_false: half an EGLD stuck in the queue, a provider still holding one EGLD of stake and a matured holder who cannot be paid). C53_dust_stays: while it is dust every unDelegatePending fails. C53_partial proves the claim for all executions in which every un-delegation batch is served completely. C53_modest_partial: a rule for the managers that ensures it, asking for no more than one EGLD less than the provider whose turn it is holds. C53_origin: in every state dust comes only from a batch asked for the whole queue and served in part; hence C53_leave_some_partial, the simplest rule: never ask for the whole queue. C53_dust_step: dust never changes its amount, and exactly three things take it away; C53_way_out: a deposit of exactly the dust is always one of them.
* C54: maxSelectedProviders is assumed below 2^32 (usize of the virtual machine). The bound by the proportional part assumes that the scores are not all zero; C54_no_scores says exactly what is asked from whom when they are.
* C55: The callback is the framework's default_issue_and_set_roles_cb (DefaultIssueCallbacksModule, included in lib.rs), modelled from its documented behaviour since the framework's source is not in the repository. That the ESDT system contract never hands out an existing identifier is assumed (issued refuses the identifier of the other token).
* C57: The end-to-end theorem assumes a fee rate of at most 10000; above it rewards are credited nowhere (C23_rewards_lost).
* C58: C58_funds_needed: the hypothesis that the mocks hold what they owe is needed, because the repository's mock pays rewards out of delegated EGLD.
* C61: False of the code: with one unit of LS token in existence and a gift, a deposit of 200 EGLD redeemed at once returns 150 (C61_false), and the 50 EGLD can be taken by whoever prepared it (C61_profit). C61_partial gives the exact bound on the loss: less than the value of one unit of LS token; hence 99.9% whenever one unit is worth at most a thousandth of the deposit. C111: the attack does not pay once others hold some units of LS token.
* C65: Block nonce and timestamp of the events are not modelled.
* C69: The three bounds below 2^32 keep the 32-bit list arithmetic of the selection from wrapping.
* C70: C70_queue_stuck and C70_first_needed show that the condition on the first provider is needed: with two providers of 1.5 EGLD a redemption of 1.2 EGLD stays queued.
* C71: The last two theorems show that both exceptions in the statement are needed.
* C73: C73_handover states the protocol's ChangeOwnerAddress as modelled; the other three are about the contract.
* C74: The first three describe the burn as modelled; the last two are about the contract.
* C76: False of the code: a deposit made while a claim is in flight and redeemed after its answer, in the same epoch and paid out at once, takes nine tenths of the reward (C76_false). C76_partial gives what such a deposit receives exactly, and bounds the gain by its share of the reward. C76_open shows that the attack is open to everybody in every state with a claim in flight, and yields the full share less two units of rounding.
* C78: C78_starved describes the virtual machine as modelled; C78_for_ever is about the contract. The file has a case in which one callback without gas keeps a holder from being paid.
* C79: The first three describe the transfers as modelled; the last three are about the contract.
* C81: C81_no_priority is the case in which the order matters; C81_any_order is for an honest delegation manager.
* C82: Names as in the storage_mapper attributes; the sub-keys of set mappers and callback closures are the framework's (not in the repository).
* C83: Byte formats are the framework's. The token slots and the sets are left out of Represents.
* C86: States what the code does; the README says once per day.
* C87: Fewer than 2^32 providers; figures given to the manager's whitelist endpoint honest, as in C69.
* C88: As C87.
* C89: Repairs the states of C53_false and C70_first_needed.
* C90: In the network with the repository's mocks.
* C92: False of the code: the admin's figures are taken at face value.
* C93: C93_hollow is the concrete history in which the reserve grows without EGLD and rewards are lost to the contract itself.
* C94: C94_rewards_ahead shows that the hypothesis on rewards is needed.
* C95: In the network with the repository's mocks, requests to each served in order. C95_order_needed shows the order is needed.
* C96: The checks made before the body of an endpoint runs are the framework's and modelled from its documented behaviour; the table of names, payments and argument types is compared with the Rust text by tools/abi.py. The bodies of plain views are not run.
* C97: The mappers are the framework's, modelled from its documented behaviour. C97_limit shows that the bound of 2^32 operations in C97_linked cannot be raised.
* C98: The other side is the repository's mocks. How the framework encodes arguments, keeps closures and reads results is part of the trusted base.
* C99: How the framework encodes results is part of the trusted base; the views of token identifiers are left out because their encoding is not in the repository.

## Axioms per theorem

* none: `C104_texts`, `C83_state`
* Classical.choice, Quot.sound, propext: `C01_delegate_mints_pro_rata`, `C02_unDelegate_pays_pro_rata`, `C03_rate_never_falls`, `C03_quote_never_falls`, `C04_round_trip`, `C05_supply_is_total`, `C05_unburnt`, `C06_reserve_positive`, `C07_unstake_tokens_covered`, `C08_reserve_backed`, `C08_reserve_backed_no_migration`, `C09_solvent`, `C09_no_shortfall`, `C10_only_matured`, `C10_immature_fails`, `C100_requests_partial`, `C100_answers_partial`, `C100_record`, `C100_stale`, `C100_missing`, `C100_false`, `C101_read`, `C101_distinct`, `C101_pool`, `C102_fits`, `C102_views`, `C102_determined`, `C103_false`, `C103_count`, `C103_blocked`, `C103_partial`, `C104_partial`, `C105_step`, `C105_history`, `C105_all`, `C105_entries`, `C106_partial`, `C106_step`, `C106_history`, `C106_bytes`, `C107_false`, `C107_theft`, `C107_covered_iff`, `C107_partial`, `C108_step`, `C108_history`, `C108_at_most`, `C108_at_least`, `C109_step`, `C109_history`, `C109_in_order`, `C11_withdraw_one_to_one`, `C110_step`, `C110_history`, `C110_principle`, `C111_dealings`, `C111_does_not_pay`, `C112_false`, `C112_needs`, `C112_batches_fit`, `C112_never_again`, `C112_claim_fits_partial`, `C112_claim_kept_partial`, `C113_delay`, `C113_in_order_partial`, `C113_as_announced_partial`, `C114_false`, `C114_blocked`, `C114_nothing`, `C114_partial`, `C115_false`, `C115_waits`, `C115_in_all`, `C115_partial`, `C116_stays_closed`, `C116_refusal_closes`, `C117_exact`, `C118_renamed`, `C118_history`, `C118_reachable`, `C118_peers`, `C118_equal`, `C119_step`, `C119_history`, `C119_same`, `C119_account`, `C119_idle`, `C119_others`, `C119_covered`, `C12_maturity_fixed`, `C12_stays_matured`, `C120_later`, `C120_history`, `C120_deployed`, `C120_same`, `C120_maturity`, `C121_step`, `C121_history`, `C121_promises`, `C121_covered`, `C121_closed`, `C122_no_taker`, `C122_agrees`, `C122_paid_iff`, `C122_redirect`, `C13_registered_nonce`, `C13_one_unit`, `C13_topUp_never_fails`, `C13_users_never_burned`, `C14_delegate_split`, `C14_unDelegate_split`, `C15_deposit_accepted`, `C15_some_deposit_accepted`, `C15_deposit_iff`, `C16_redemption_accepted`, `C16_redemption_iff`, `C17_delegatePending_exact`, `C18_delegation_targets`, `C19_partial`, `C19_twice_partial`, `C19_declared_partial`, `C20_unDelegatePending_exact`, `C21_counters_in_flight`, `C21_delegations_in_flight`, `C22_failed_delegation`, `C22_failed_undelegation`, `C23_rewards_split`, `C23_rewards_lost`, `C24_claimFees_succeeds`, `C25_privileged_calls`, `C25_outsiders`, `C26_paused`, `C27_configuration`, `C28_deposit_quote`, `C28_redemption_quote`, `C29_joins_partial`, `C29_refund_partial`, `C29_once_partial`, `C29_limbo`, `C29_limbo_gas`, `C30_unbounded`, `C30_partial`, `C30_tight`, `C30_whitelist_partial`, `C31_lists_consistent`, `C31_never_removed`, `C32_round_robin`, `C32_newcomer_last`, `C32_nothing_else`, `C33_delegation_score`, `C33_undelegation_score`, `C33_normalisation_fails`, `C33_delegation_order`, `C33_undelegation_order`, `C33_scoring_fails`, `C34_exact_partial`, `C34_stored_partial`, `C34_each`, `C35_false`, `C35_trapped`, `C35_anybody`, `C35_partial`, `bricked_forever`, `C36_false`, `C36_blocks`, `C36_in_turn`, `C36_lasts`, `C36_partial`, `C37_false`, `C37_partial`, `C37_jams`, `C37_refusal`, `C37_lasts`, `C38_callbacks_succeed`, `C38_none_failed`, `C38_records_match`, `C39_migrate`, `C40_events_report`, `C41_drain`, `C41_deposit_lost`, `C41_unbacked`, `C42_no_double_claim`, `C42_ledger_exists`, `C44_unbonding_total`, `C44_withdrawal_moves_exactly`, `C44_excess_stranded`, `C45_complete`, `C45_fair_shares`, `C45_all_sent`, `C45_no_scores`, `C46_calls`, `C46_targets`, `C46_claimRewards`, `C46_whitelist`, `C47_setters`, `C47_removed`, `C48_at_least_one`, `C48_rate_never_falls`, `C48_provider_views`, `C49_before_setup`, `C50_withdraw_iff`, `C51_system_solvent`, `C51_network_solvent`, `C51_claims_needed`, `C52_exit`, `C53_partial`, `C53_modest_partial`, `C53_leave_some_partial`, `C53_origin`, `C53_dust_stays`, `C53_dust_step`, `C53_way_out`, `C53_false`, `C54_givers`, `C54_complete`, `C54_first`, `C54_at_least`, `C54_at_most`, `C54_plenty`, `C54_no_scores`, `C55_flag_iff`, `C55_start_iff`, `C55_one`, `C55_success`, `C55_failure`, `C55_permanent`, `C56_egld_conserved`, `C56_network_conserves`, `C56_sums`, `C57_claim_pays_due`, `C57_rewards_end_to_end`, `C57_splitting`, `C58_network_exit`, `C59_no_refusal`, `C59_records_match`, `C60_others_take_nothing`, `C60_position_safe`, `C61_partial`, `C62_deposit_parts`, `C62_redemption_parts`, `C63_no_profit`, `C63_sums`, `C64_only_its_parts`, `C65_events_exact`, `C66_log_has_figures`, `C66_revenue`, `C66_fees_announced`, `C67_callback_fails_iff`, `C68_position`, `C68_nothing_deferred`, `C68_one_nonce`, `C69_accepted_iff`, `C70_holder_exit`, `C70_queue_exit`, `C70_queue_stuck`, `C70_first_needed`, `C71_any_order`, `C71_reordered_answers`, `C72_pro_rata`, `C72_all_of_it`, `C72_only_rewards`, `C72_history`, `C73_after_handover`, `C73_appointed`, `C73_no_escalation`, `C74_burn_ls`, `C74_burn_unstakes`, `C74_counted`, `C74_ls_locked`, `C74_unstakes_locked`, `C75_ledger`, `C75_history`, `C75_locked`, `C75_exact`, `C75_ls`, `C75_no_ls`, `C76_partial`, `C76_open`, `C77_share`, `C78_for_ever`, `C79_egld`, `C79_ls`, `C79_unstakes`, `C79_egld_locked`, `C79_ls_locked`, `C79_unstakes_locked`, `C80_deposit_returns`, `C81_sum_paid`, `C81_enough`, `C81_any_order`, `C82_keys_distinct`, `C82_write_read`, `C82_not_reserved`, `C83_provider`, `C83_attrs`, `C83_scoring`, `C83_determined`, `C83_write_record`, `C83_representable`, `C84_behind`, `C84_quiet`, `C84_history`, `C86_at_once`, `C87_steer`, `C87_not_overdrawn`, `C88_restore`, `C88_fund`, `C89_emptied`, `C90_rest`, `C90_all_paid`, `C91_turn`, `C91_turn_back`, `C91_worth`, `C92_batch_partial`, `C93_covered`, `C93_conserved`, `C93_solvent`, `C93_no_return`, `C94_rate`, `C94_redemption`, `C94_deposit`, `C95_allowed`, `C95_whole`, `C95_strict`, `C96_exported`, `C96_meaning`, `C96_reads`, `C96_call`, `C96_unambiguous`, `C96_payments`, `C96_expressible`, `C96_histories`, `C96_by_name`, `C97_linked`, `C97_limit`, `C97_managers`, `C98_served`, `C98_callback`, `C98_lossless`, `C98_gas`, `C98_network`, `C99_views`, `C99_whole`, `C99_kept`
* Quot.sound, propext: `C100_count`, `C100_deploys`, `C103_delegations`, `C104_false`, `C104_silent`, `C106_false`, `C106_history_exists`, `C108_history_exists`, `C109_history_exists`, `C110_backing`, `C110_solvent`, `C112_owner_can`, `C113_false`, `C113_jump`, `C114_cure`, `C116_reopen`, `C117_apart`, `C117_history`, `C117_free`, `C119_all`, `C121_history_exists`, `C123_renamed`, `C123_history`, `C123_deployed`, `C123_same`, `C123_slots`, `C19_false`, `C24_claimFees_exact`, `C25_neutral`, `C28_views_change_nothing`, `C29_false`, `C30_false`, `C33_scores`, `C33_normalised`, `C33_only_score`, `C33_zero_width_blocks`, `C34_false`, `C34_partial`, `C38_order_needed`, `C38_gas_needed`, `C39_migratePending`, `C41_false`, `C41_partial`, `C41_exact_partial`, `C41_quiet_partial`, `C43_changeParams`, `C43_changeAdmin`, `C46_withdrawPending`, `C47_setters_available`, `C47_scoring`, `C48_rate_and_quotes`, `C49_deployment`, `C55_start`, `C55_answerable`, `C58_funds_needed`, `C61_false`, `C61_profit`, `C64_nothing`, `C71_own_order_matters`, `C71_first_order_matters`, `C73_handover`, `C75_history_exists`, `C76_false`, `C78_starved`, `C81_no_priority`, `C83_numbers`, `C84_front`, `C85_others`, `C85_history`, `C86_unread`, `C86_history`, `C91_worth_nothing`, `C92_false`, `C92_others_partial`, `C92_limit_partial`, `C92_reached`, `C93_hollow`, `C94_rewards_ahead`, `C95_order_needed`, `C96_deploy`
* propext: `C110_rate`, `C48_exchange_rate`, `C84_views`
