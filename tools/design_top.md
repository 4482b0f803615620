# Formal model of XOXNO/rs-liquid-staking-sc in Lean 4

This file says what is modelled, how each property is stated and proved, what has to be trusted, and what the proofs found.
The table and the list of axioms are generated (`tools/design.py`) from `MANIFEST.json`, `properties.jsonl` and Lean's own `#print axioms`.

## Layout

| where | what |
|---|---|
| `lean/Verif/Model` | the model: one Lean function per Rust function, each citing file and lines |
| `lean/Verif/Spec` | the vocabulary of the statements, defined without the model's helpers |
| `lean/Verif/Props` | the property theorems, each with a concrete case that meets its hypotheses |
| `lean/Verif/Proofs` | lemmas and invariants |
| `lean/Verif/TestReplay` | the repository's own tests replayed on the model, checked by the kernel (`decide`): tests of the model, not proofs |
| `tools` | generators of `properties.jsonl`, `MANIFEST.json`, this file; the mutation and monitor tools |
| `seeded/LOG.jsonl` | wrong programs tried against the theorems |

## The model

* `World` is the storage of the contract, the ledgers (EGLD of every account, LS token, unstake tokens by nonce), the block epoch, the
  promises in flight, the issue calls awaiting an answer, and the events emitted.
* Every endpoint, view and callback of the liquid-staking contract is a total function into `Except Err`. Every `require!`, `sc_panic!`,
  negative `BigUint` subtraction, division by zero, decoding of an empty entry and `unwrap` of nothing is an error value.
* `BigUint` is `Nat`; `u64` is `UInt64` and wraps (the contract is built with `overflow-checks = false`); `usize` is 32 bits.
* `Op` lists everything that can happen: every endpoint by any caller with any argument and payment, the delivery of any outstanding
  callback in any order with any outcome and any EGLD attached, the answer to an issue call, transfers between users, plain transfers
  of smart contracts to the contract (it is deployed payable by smart contracts), holders burning tokens, EGLD reaching users, the handover of the contract, the passing of epochs. `step` runs one; a failed transaction changes nothing. `Reachable` means: by any finite list of these
  from any deployment.
* A callback that fails, or runs out of gas (`Op.starve`, at any time), is consumed, keeps the EGLD that came with it and is recorded in `dead`.
* `Model/Accum` has the call to the accumulator in bytes (`deposit`, no arguments, the fees) and what the contracts of the repository answer to it.
* `claimFees` calls the accumulator synchronously; in `claimFeesWith` the accumulator's behaviour is any function on the world
  (property C41), elsewhere it accepts or refuses and does not call back.
* `Sys` (Model/Providers) puts the contract together with the providers; the provider side follows `delegation-mock`. Requests and answers
  travel separately, and a callback can run out of gas (`SysOp.lose`). It is used where a property is about contract and providers together (C38, C51, C52).
* `Net` (Model/Mock) puts the contract together with the repository's own mocks: `delegation-mock` with its reward and unbonding rules and
  `delegation-manager-mock`. Every request is served by the mock's code and every answer is what that code returns (C56–C59, C70, C95).
  `NetReachable` keeps each mock's requests and answers in order and gives every callback gas; `AnyNet` does neither (C51, C56, C57).
* `Model/Abi` reads calls as they arrive (a name, arguments in bytes, EGLD, tokens) and says which operation each is, or why it is refused (C96).
* `Model/Mapper` is how the lists of providers and managers are kept in storage: linked nodes, numbered items (C97). Elsewhere they are lists.
* `Model/Wire` is what travels between the contract and the mocks in bytes: requests, closures, answers (C98). Elsewhere promises are kept decoded.
* `Model/Views` is what the views answer in bytes, from storage in bytes (C99).
* `Model/Proxy` is the client generated for the contract (C100).
* `Model/Logs` gives the events in bytes (C101).
* `Model/Messages` gives the texts of refusals (C104).

Statements are written with the functions of `lean/Verif/Spec`: `reserve`, `supply`, `egldOf`, `lsOf`, `unstakeOf`, `pendingEgld`,
`toUndelegate`, `withdrawable`, `provider`, `figure`, … which only read the world; with arithmetic written out (`lsFor`, `egldFor`,
the scores, the fair shares); and with sums given as `IsSum f n`, not by the model's folds.

## What is not modelled

* The gas the code uses: a transaction without it fails and changes nothing, a callback without it is `Op.starve`. (The gas set aside for the contract's own calls is modelled in `Model/Gas`, for C112.) Block nonce and timestamp in events. That the VM refuses direct calls of `init`, `upgrade` and the callbacks is assumed, as are the framework's checks of payments and arguments.
* Compilation from Rust to WebAssembly and the virtual machine itself. The framework's types (`BigUint`, mappers, `ManagedDecimal`) are
  modelled from their documented behaviour: their source is not in the repository.
* `upgrade` (empty body) replacing the code. (The handover of the contract to another owner, a protocol function, is modelled: `Op.changeOwner`.)
* Contract accounts as users that run code when paid (except the accumulator, C41): `direct_egld` runs none. A recipient refusing a plain transfer
  is a failed transaction, a payment followed by `giveEgld`, or, in a callback, `Op.starve`.
* Tokens other than the contract's own two: a payment in them is accepted or refused as the code does, but their balances are not tracked.
* Calls the contract makes to itself, possible only when a manager whitelists its own address: left out of `step`, added by
  `Model/SelfCall` (`selfServe`), and shown to reach no state that `step` does not reach up to what is never read (C93).
* Unstake-token nonces and event counts are unbounded numbers.
* Outside `Net`, rewards are an arbitrary outcome of the `claimRewards` promise. In `Net` nobody but the contract uses the mocks, anybody
  may deposit at a mock (the code allows only its owner), and `claimMultiple` passes the rewards on without a balance of its own.
* `proxy/*.rs` are generated call builders; they contain no behaviour of their own.

## Trusted base

* Lean 4.33.0's kernel (and, for reading the statements, its elaborator), and the Mathlib lemmas used, which the same kernel checks.
* The model: that `lean/Verif/Model` says what the Rust code does. It was written function by function from the text; the 176 modules
  include a replay of the repository's tests with the figures the tests expect.
* The specifications in `lean/Verif/Spec` and the statements in `lean/Verif/Props`: that they say what `properties.jsonl` says.
* No axioms were added; no `sorry`, `admit`, `native_decide` or `bv_decide`. Every theorem in the manifest depends only on axioms among
  `propext`, `Classical.choice`, `Quot.sound` (exact list per theorem at the end).

## What the proofs found

The first group are properties that are false of the code; the theorem `Cnn_false` is a concrete reachable counterexample, and
`Cnn_partial` is what does hold.

| | finding | where |
|---|---|---|
| C19 | the room under a provider's cap is computed from the total declared by its admin, which no delegation updates: successive batches exceed the cap | selection.rs:400-404 |
| C29 | whitelisting before the LS token is issued: success and failure callbacks both panic (`StorageCache::new`), the record stays, the EGLD is stuck | callback.rs:111-140 |
| C30 | `maxDelegationAddresses` is compared with `<=`, so one more is accepted; and the check is made before the promise, so whitelistings in flight together all pass | delegation.rs:37-46 |
| C34 | weights are added as wrapping `u64`: (2^64-1, 1, 100) is accepted | config.rs:118-121 |
| C35 | `addRewards` before the first deposit leaves reserve > 0 with supply 0; then every deposit is worth zero LS and fails, for ever (`bricked_forever`) | migrate.rs:73-82, liquidity_pool.rs:59-70 |
| C36 | the admin of one provider can declare a cap below the stake it has; `delegatePending` then fails for everyone | selection.rs:400-404 |
| C37 | after a failed delegation a provider can be left with a net stake between 0 and 1 EGLD; every `unDelegatePending` then fails | selection.rs:156-162 |
| C41 | `claimFees` zeroes the fees in storage only after the synchronous call: an accumulator calling back is paid again, and the cache written back afterwards overwrites what happened meanwhile | manage.rs:242-259 |
| C53 | a batch the providers cannot serve completely returns its remainder to the queue; the remainder can be below 1 EGLD, and then it cannot be asked back and its holders are not paid | manage.rs:109-177 |
| C61 | no smallest supply and no bound the depositor can set on the rate: leaving one unit of LS token and then adding rewards drives the rate so high that a later deposit of 200 EGLD is worth 150, to the gain of whoever did it | liquidity_pool.rs:59-70, migrate.rs:73-82 |
| C76 | rewards are credited when the answer to the claim arrives, to whoever holds LS tokens then: a deposit made while the claim is in flight and redeemed right after takes nine tenths of the reward without having been staked | callback.rs:90-108, lib.rs:102-140 |
| C92 | the declared number of nodes and rate of return enter the score as they are: by changing them a provider's admin raises its part of a batch from 36 to 106 of 150 EGLD | delegation.rs:113-147, score.rs:9-107 |
| C93 | the contract's own address can be whitelisted as a provider: every batch to it books the same EGLD again and mints LS tokens nobody can use, which share in later rewards | delegation.rs:29-96, manage.rs:84-98, lib.rs:102-114 |
| C100 | the published client is out of date: `delegate_rewards` and `rewards_reserve` call endpoints that do not exist, `claimFees` and `getFeesReserve` have no method, and the record of a provider cannot be read because two fields are missing | proxy/proxy_liquid_staking.rs:459-466, 589-596, 844-858; structs.rs:6-17 |
| C103 | the limit of providers per batch is cut to 32 bits for un-delegation: with 2^32 (or any multiple, or from 2^64 on) no stake can be asked back, with 2^32 + 1 only from one provider per batch | selection.rs:133-147, config.rs:88-94 |
| C104 | `setMaxAddresses(0)` is refused with the message about selected providers and `setMaxSelectedProviders(0)` with the one about addresses; `changeDelegationContractParams` of an unknown provider fails to decode before the message meant for it | config.rs:81-95, delegation.rs:114-131 |
| C106 | `addRewards` raises the reserve but announces no amount (a general event only), so the amounts in the log do not add up to the reserve | migrate.rs:71-82 |
| C107 | `migrate` mints LS tokens for an amount that is only named, not paid, and the owner chooses the contract that may call it: out of every state owner and that contract can take all EGLD waiting in the pool | migrate.rs:17-42, 84-93 |
| C112 | `claimRewards` names every provider in one call and sets aside 2.5 million gas for each: from 238 providers on it needs more than the 600 million a transaction can have, providers are never removed, so rewards can never be claimed again | manage.rs:220-239 |
| C113 | the unbond period in force when a redemption arrives decides: in front of it the owner can set any period, up to 2^64 epochs or none, and with none a later redemption takes the EGLD that came back for an earlier one | config.rs:97-101, un_delegation.rs |
| C114 | `claimRewards` claims from every listed provider in one call, which fails as a whole: one provider that cannot pay holds up the rewards of all others for as long as it is not helped; no endpoint claims from some of them, and a provider cannot be taken off the list | manage.rs, delegation_manager.rs |
| C115 | a matured unstake token is refused as long as nothing is withdrawable, and with no deposits and no manager collecting nothing ever becomes withdrawable: holders cannot start the return of their EGLD themselves | lib.rs, manage.rs |

Found on the way, part of proved statements:

* With a fee rate above 10000 rewards are credited nowhere (C23_rewards_lost).
* Answers of one provider arriving out of order make callbacks fail and lose track of stake (C38_order_needed).
* A queue can get stuck: when every provider with stake holds more than the queue but less than 2 EGLD, `unDelegatePending` is accepted
  and takes nothing, e.g. two providers of 1.5 EGLD and a redemption of 1.2 EGLD (C70_queue_stuck).
* A withdrawal whose answer overtakes the un-delegation before it is lost to the accounting (C71_own_order_matters).
* One callback without gas keeps the EGLD of an un-delegation outside the books and its holders unpaid; nothing repairs it (C78).
* A zero-width scoring range hit exactly blocks every batch (C33_zero_width_blocks).
* `maxSelectedProviders` of 2^32 or more is truncated when cast to `usize` (hypothesis of C54, C18).
* `withdraw` called with plain EGLD keeps the EGLD outside every figure (only adds to the slack of C09).
* `changeDelegationContractParams` on an unknown provider fails with a decoding error instead of its own message.

## The README against the code

| README | code |
|---|---|
| instant unstaking at no fee when EGLD is waiting | holds up to rounding: the instant part is the largest that leaves no dust, at the same rate as the deferred part (C14) |
| otherwise a 10-day unbonding period, represented by an NFT | the period is a setting; the maturity is fixed when the tokens are given out and later settings do not move it (C12, C50) |
| batches once per day | nothing in the code limits how often (C86) |
| up to 15–20 providers per batch | the number is a setting, cut to 32 bits for un-delegation (C103) |
| protocol updates by public endpoints, without admin wallets | delegation, un-delegation, collection and claims are reserved to managers (C25); only `claimFees` and `addRewards` are open |
| providers join freely with no constraints | whitelisting is reserved to managers (C25) and limited in number (C30) |
| delegation cannot be steered by large players | shares follow scores (C45), but scores use what the providers' admins declare (C92); a manager can send a whole batch to one provider (C87_steer) |
| un-delegation is spread over providers | shares follow the un-delegation scores (C54); a small remainder at one provider can stop all (C37) |
| rewards are compounded, with a cut by minting xEGLD | the cut is taken in EGLD, nothing is minted (C23, C24) |
| `delegateRewards` | does not exist; only the published client still names it (C100) |

## How the theorems were tested

* `tools/mutants.py` lists wrong versions of the model: wrong boundaries, missed cases, swapped arguments, dropped updates.
* `tools/mutate.py run` puts the whole development in one file with one edit and records which property theorems no longer check.
* A proof can break although its statement is still true. So `tools/mutate.py mon` also runs executable readings of the statements
  (`tools/monitor.lean.txt`) on pseudo-random executions of the edited model and records which statements became false. The unedited
  model violates none.
* `seeded/LOG.jsonl` has one line per attempt. `failed` lists theorems seen to fail when everything was rebuilt with the edit.
  Where `rebuilt` is false there was no such build: only the statements were evaluated on executions of the edited program
  (`statements_false_on_random_runs`), and `failed` is null.
* Correction: up to commit bb96ce8 the log listed theorems of C54, C69 and C70 as failed for many edits that had nothing to do with them.
  Two names clashed when the modules were put into one file, so these theorems failed there even without an edit.
  The names are fixed, `mutate.py run` now needs a baseline that passes, and lines not measured again since list these theorems as `undecided`.
* Correction: up to commit 1afd4fe seven lines (commit-none, dp-queue, is-slot, sc-noop, ch-credit, ac-wl-cap, nv-minimum) listed every
  theorem as failed. Their builds had stopped after 100 errors, so most theorems were never reached. `mutate.py` now lifts that limit and
  records nothing for a build that does not finish; until measured again these lines list only what was seen to fail.

