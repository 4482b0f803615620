h("C01 C02", "`delegate`, `unDelegate`, pool and token functions", "inversion of the endpoint to an explicit state afterwards; the split is arithmetic")
h("C03", "all operations", "for each operation reserve × old supply does not fall against old reserve × supply; induction over histories")
h("C04", "`delegate` then `unDelegate`", "C01 and C02 composed; division lemmas")
h("C05 C06 C07 C08 C09 C21 C44", "all operations", "one global invariant on sums over accounts, providers and promises, preserved by each operation; induction")
h("C10 C11", "`withdraw` and its loop", "induction over the list of payments")
h("C12 C13", "unstake-token registry, clean-up", "registry invariant; maturity followed through histories by induction")
h("C14", "`get_action_amount`", "case analysis against an independent optimality specification")
h("C15 C16 C50", "`delegate`, `unDelegate`, `withdraw`", "every guard discharged from the invariants; the converse by inversion")
h("C17 C18 C20 C32", "batch endpoints, selection module", "inductions over provider lists and the distribution loop")
h("C19 C30 C34 C36 C37", "the endpoints concerned", "reachable counterexample evaluated by the kernel; the part that holds by invariant")
h("C22 C23 C24 C39 C43", "callbacks and endpoints", "inversion, with the frame stated field by field")
h("C25 C26 C27", "all operations", "case analysis over operations with a frame lemma per operation")
h("C28", "views", "a loaded and committed cache leaves storage unchanged; quotes compared with C01/C02")
h("C29", "whitelisting and its callback", "registry invariant; counterexample before the token exists; a provider whose callback failed stays out, by induction over the history")
h("C31", "provider lists and records", "registry invariant, induction over histories")
h("C33", "score module", "normalisation characterised by its defining inequality; monotonicity lemmas")
h("C35", "deposits", "reachable counterexample; absorbing set of bricked states; the only way into it")
h("C38", "contract with providers (`Sys`)", "invariant relating records, messages under way and provider books under per-provider order")
h("C40", "events", "each endpoint's event compared with the storage committed at its end")
h("C41", "`claimFeesWith` with an arbitrary accumulator", "counterexample with a re-entering accumulator; exactness without re-entrance")
h("C42", "all operations", "ledger of issued and paid amounts carried along histories")
h("C45", "`delegatePending`, selection, scores", "distribution loop characterised against fair shares computed in the specification")
h("C46", "all operations", "the promises appended by each operation, by case analysis")
h("C47", "setters", "inversion; exact state afterwards")
h("C48", "views", "division lemmas on top of the pool invariant")
h("C49", "`init`, operations before issuing", "explicit initial state; invariant of the empty pool")
h("C51", "contract with providers", "invariant: recorded stake, unbonding and delegations under way are covered by spare EGLD, provider books and messages; added to C07 and C08; carried over to the mocks by refinement")
h("C52", "contract with providers", "explicit schedule of `withdrawPending`, then induction over any order of claims")
h("C53", "un-delegation queue", "reachable counterexample; dust-freedom while batches are served in full")
h("C54", "`unDelegatePending`, selection, scores", "selection loop characterised as shortest sufficient prefix; distribution bounds by induction")
h("C55", "token issuing and its callback", "invariant on slots and outstanding issues; inversion")
h("C56", "every operation; mocks", "per-operation balance of the sum over all accounts; joined with the mocks' balances")
h("C57", "`claimRewards`, mocks, manager", "induction over the providers claimed; composition of the three steps")
h("C58", "contract with mocks", "explicit schedule as in C52, with the mocks' unbonding clock; witness for the hypothesis on funds")
h("C59", "contract with mocks", "refinement of the mocks to the provider books of C38; invariant that what is asked is held")
h("C60", "all endpoints, callbacks and transfers", "balance of an account through every operation; C13 for unstake tokens; rate never falls (C03)")
h("C61", "deposit and redemption arithmetic, addRewards", "witness by evaluation; bound from C04")
h("C62", "deposit and redemption arithmetic", "induction on the list of parts with the rate never falling; product inequality for redemptions")
h("C63", "all endpoints, callbacks and transfers", "seven kinds of effect on the group's holdings, one inequality over the rationals for each; every operation is one of them")
h("C64", "every operation", "per-operation frame lemma from the inversion of the endpoint, over all parts at once")
h("C65", "every operation, events", "inversion of every endpoint and callback")
h("C66", "every operation, events", "induction over executions with C65 and C64")
h("C67", "callbacks", "the failing checks of each callback, with the registry invariant excluding the rest")
h("C68", "`unDelegate`, minting of unstake tokens", "inversion of the mint, invariant on nonces; induction over traces with C64")
h("C69", "every operation; the delegation and un-delegation batches down to the scores", "inversion of each endpoint in both directions; induction over the selection loops")
h("C70", "contract with mocks", "explicit schedule: redemption (C16, C02), one batch that takes the whole queue (C37, C54), its answers (C59), collection (C58), withdrawal (C11); frame from C64")
h("C71", "callbacks", "each callback reduced to additive changes and one provider's record (with C67 for failures); two such changes commute; induction over exchanges of neighbours, and every admissible order is reached by exchanges")
h("C72", "pool, callbacks", "every transaction moves supply and reserve in one of three ways (credit, deposit, redemption; by C01, C02, C39, C64); the change of the rate is bounded for each, over the rationals; induction over the history")
h("C73", "every operation", "the frame of C27 and C64 for each role; induction over the history of a group")
h("C74", "every operation", "inversion and frame of C64; C05 and C03 (LS tokens), C07 (unstake tokens) along the later history")
h("C75", "every operation", "the balance of the contract through every endpoint and callback (failing callbacks by C67); induction over histories")
h("C76", "delegate, addRewards, claim callback, unDelegate", "witness by evaluation; arithmetic of the pool; the three transactions constructed from any state with a claim in flight")
h("C78", "starved callbacks, every operation", "calls whose callback failed are never taken up again, by cases on what a transaction does to the calls; C21")
h("C79", "plain transfers to the contract, every operation", "frame of C64; C75 (EGLD, LS tokens), C03 and C05 (value of LS tokens), C07 (unstake tokens) along the later history")
h("C80", "deposit, redemption and withdrawal of one account, everything else in between", "C01, C03, C16, C02, C12, C60, C50 and C11 put together along the history")
h("C81", "withdraw, any number of times", "C11 for each withdrawal, C50 for acceptance; induction over the list, sums do not change under permutation; witness by evaluation")
h("C77", "every operation", "C63 for all but rewards, the rate for those; induction over histories")
h("C82", "storage keys", "evaluation over all pairs of kinds of entries: equal lengths and a common prefix never occur together; then cancellation")
h("C83", "stored values", "decoder after encoder, field by field; C82 for the entries")
h("C84", "every operation but those with providers", "a relation between worlds kept by every primitive of the model; each endpoint composed from them; C64 for what is left alone")
h("C85", "every operation", "as C84, with the balances related on some accounts only")
h("C86", "every operation", "as C84, with the parts in question left out of the relation; a case carried over to all values of the settings")
h("C87", "changeParams, setScoringConfig, delegatePending", "explicit history built by recursion on the list of providers; acceptance from C69, amounts from C17, C18, C45")
h("C88", "the same and unDelegatePending", "induction on the number of remnants, each lifted by one batch as in C87; acceptance from C69")
h("C89", "`delegate`", "C15 and C14: the split of a payment equal to the queue is unique")
h("C90", "the network of contract and mocks", "induction on the calls on their way; refused un-delegations excluded by C59; then C89 and C58")
h("C91", "`delegatePending`, `unDelegatePending`, every operation for the order", "induction on the list of transactions: the place in the rotation falls with each batch that does not look at the provider; C32, C45, C54")
h("C92", "`changeParams` and the scores", "the scores of the others do not mention the record (C43); the share is monotone in the own score, which has a maximum")
h("C93", "`selfServe` (Model/SelfCall) beside `step`", "a deposit of the contract itself equals, in all that is read (C86), a deposit of another contract that then sends it the tokens; the unread differences are carried along by C86")
h("C94", "all operations", "the bound of C72 on each transaction; Bernoulli's inequality along the history; floors")
h("C95", "contract with mocks", "invariant that the requests on their way, accepted one after the other, never leave part of an EGLD; C20 for a new batch, the provider books of C38 for the mock's own deposit")
h("C96", "calls in bytes", "case analysis over the 57 endpoints; the decoders inverted one argument at a time, encodings of C83 for the converse; C25 for the names")
h("C97", "storage mappers", "representation invariant (segments of linked nodes) preserved by each operation; at the limit a node numbered 0")
h("C98", "proxies, interfaces of the mocks, callback closures", "decoding after encoding, message by message; then a step-by-step correspondence of two networks, with the invariant that stored addresses have 32 bytes")
h("C99", "the views, storage in bytes, mappers", "decoding after encoding, view by view, on top of C83, C96 and C97")
h("C100", "the generated client", "method by method against the tables of C96 and C99; concrete refutations")
h("C101", "events in bytes", "a separate reader, field by field; with C66 for the figures")
h("C102", "sizes in storage", "invariant over calls in bytes (C96, C27, the steps of a record); amounts from C07 and C08")
h("C103", "limit of providers per batch", "length of the selection against the machine word; witness with the limits of the setter; congruence of delegation in the limit")
h("C104", "every endpoint and helper that can refuse", "a predicate on the errors of a computation, carried through binds; induction over the loops; the split of a payment never leaves dust")
h("C105", "every operation", "an exact balance of the group for each operation, with two inequalities for deposits and redemptions and the rate (C72) for those of others; sums over finite sets of accounts; induction over histories")
h("C106", "events, every operation", "the events of each operation (C65) against the change of the reserve; induction over histories; the reader of C101 for the bytes")
h("C107", "migration, backing of the reserve", "three transactions composed from C39, C16 and C14 with the arithmetic of minting; C08 and induction over histories")
h("C108", "fees, events, payments to the accumulator", "C24, C65 and C66 summed over histories; the rounding of each claim bounded and added up")
h("C109", "records of providers, answers", "C64 for everything but answers, inversion of the four callbacks for those; summed over histories")
h("C110", "all of it", "inversion of every transaction into one move of a machine of thirteen numbers; the three properties of the machine by cases on its moves")
h("C111", "every operation", "a potential: what the group owns and n times the rate; one inequality each for what the group does, for deposits and for redemptions of others; induction over histories")
h("C112", "the gas of promises", "the promises of each transaction (C17, C20, C22), with machine words for the product; the list of providers only grows (C31); a history with 238 providers evaluated")
h("C113", "redemptions and the unbond period", "the maturity fixed by a redemption (C12) with the clock and the period along histories (C64); acceptance of a redemption under any period by C16 and the uniqueness of the split of C14; histories evaluated")
h("C114", "`claimRewards`, mocks, manager", "the mock of the provider does not change along histories without help, and what is due grows with the epoch; the failure of the claim by C57, the list of providers by C31")
h("C115", "withdrawals and where their EGLD comes from", "the three operations that touch the withdrawable EGLD (C64 for all others); induction over histories; C50 and C11 for the partial statement")
h("C116", "providers closed to delegations", "the operations that touch eligibility, stake and delegations in flight (C64 for all others); induction over histories; inversion of the declaration")
h("C117", "influence of the settings", "a relation between two runs that keeps all parts but the settings in question, preserved by every operation that does not consult them; concrete pairs of reachable states for the exactness")
h("C118", "renaming of accounts", "every function of the model commutes with an injective renaming of addresses (of balances, lists, records, calls, events); for peers, the exchange of two accounts composed with the relation of C86")
h("C119", "deeds and purses", "one case for every transaction, from the effects proved in C01, C02, C11 and C39 and the parts a transaction touches (C64), summed over the group")
h("C120", "shift of all epochs", "every function of the model commutes with the addition of a number of epochs; comparisons need room below 2^64, additions do not; for histories, an invariant that bounds all epochs in the state")
h("C121", "flow of EGLD to and from one provider", "the book of answers (C109) and the counters of calls in flight (C21) give the flow of one transaction; the sum over providers from C07 and C08")
h("C122", "interfaces in bytes", "the name of the function is compared with all exported names; refinement of the endpoint with the answer given; payment from C24")
h("C123", "renaming of tokens", "every function of the model commutes with an injective renaming of the identifiers; a fresh deployment has none")
