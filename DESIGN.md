# Formal model of osmosis-labs/orderbook (sumtree-orderbook) in Lean 4

Contents: 1 what is modelled, 2 the argument, 3 plan per property, 4 trusted base, 5 what is not modelled,
6 findings about the code, 7 tests of the theorems against wrong programs, 8 how to read the proofs.

## 1. What is modelled

The contract `contracts/sumtree-orderbook` of /repo, function by function (paths relative to
`/repo/contracts/sumtree-orderbook/src`). Every definition of `Verif/Model` carries a comment with the file and lines it models.

| Rust | Lean module |
|---|---|
| cosmwasm_std `Decimal256` / `Uint*` arithmetic used by the contract | `Model/Num.lean` |
| `cw_storage_plus::Map` (ordered, iterable) | `Model/SMap.lean` |
| JSON texts: msg.rs, types/*.rs, `cw_serde`/serde-json-wasm reading and writing | `Model/Json.lean` (C81–C83) |
| the byte keys, writes and iteration of `cw_storage_plus` under the declarations of state.rs, auth.rs, node.rs, tree.rs | `Model/Storage.lean` (C69–C71 relate it to the typed store used everywhere else) |
| types/*.rs, state.rs (storage layout, order ids, directional liquidity), storage/error monad, responses and events | `Model/Types.lean` |
| error.rs: errors (`Model/Num.lean`) and their texts | `Model/ErrText.lean` |
| constants.rs, tick_math.rs | `Model/TickMath.lean` |
| sumtree/node.rs, sumtree/tree.rs (pointer level, through storage) | `Model/SumTree.lean`, `Model/Delete.lean` (`delete`, `sync_range_and_value_up`: public, called by tests only) |
| tick.rs, the rest of state.rs | `Model/Tick.lean` |
| order.rs | `Model/Order.lean` |
| orderbook.rs, auth.rs | `Model/Auth.lean` |
| sudo.rs | `Model/Sudo.lean` |
| query.rs, the query half of contract.rs and state.rs | `Model/Query.lean` |
| contract.rs (instantiate, execute, migrate, reply), msg.rs; bank module and transaction semantics (environment) | `Model/World.lean` |
| contract.rs: the entry points from text to text | `Model/Entry.lean` (C101) |
| (environment) transfers that call back into the contract, transactions of several messages | `Model/Reenter.lean` (C99) |

Conventions

* A function that reads or writes storage is a function `Store → Res α` (`M α`), where `Res` carries the *storage also in the
  error case*: an `Err` that is caught (batch claim) keeps earlier writes, exactly as in Rust. A Rust panic is the error value
  `Err.panic`; it is never caught (batch claim re-raises it).
* `Decimal256` is its `Nat` numerator (atomics, 10^18 per unit) with explicit 2^256 range checks; `Uint128`, `u64`, `i32` weights
  are `Nat`/`Int` with explicit range checks where the Rust code checks, wraps or panics. `i64` ticks are `Int` (every arithmetic on
  ticks happens under the MIN_TICK..MAX_TICK check). Deserialisation rejects out-of-range integers: the `wellTyped` check at the
  entry points.
* `cw_storage_plus` maps are key-sorted association lists.
* Recursion through stored pointers takes a fuel argument; running out of fuel is the explicit error `Err.diverge`, proved
  unreachable on reachable stores (C31–C33).
* A *world* is the contract's store and the bank's balances. `step` is one transaction (user message, governance/pool call,
  migration, other people's transfers and mints) with the funds attached; a failure rolls everything back. `Reachable ch w`:
  `w` is reached from a world right after a successful instantiation (any denoms, any bank state) by any list of operations, failed
  ones included. `ReachableIn ch n w` counts them.

## 2. The argument

The backbone is a refinement to a small abstract specification (`Verif/Spec.lean`): per tick and side, the list of all orders ever
placed, oldest first, each with placed / filled / claimed amounts and a cancelled flag. The bookkeeper `Book.observe` updates it only
from what an outside observer sees (messages, events, and liquidity queried before and after); a swap fills the queue greedily from
the front. `Traced ch n w b` says that the bookkeeper's book is `b` when the world is `w`. The relation `Rel` ties the concrete store
(ETAS, cumulative totals, realized cancels, sumtree in storage, order map, pointers) to the queue and is preserved by every accepted
operation (`Proofs/*`, main lemma `Traced.rel`). The closed form behind it: with P_i the amount placed before order i and c_i claimed
from it, the stored start of order i is P_i + c_i; a cancelled order is the sumtree leaf [P_i + c_i, P_i + Q_i); ETAS = S + r, where S is
the total filled and r the realized cancels. The properties are then corollaries about queues, proved in `Props/*`.

The sumtree is handled at pointer level: `Rep` (Proofs/Tree/Rep.lean) relates the node map to a pure tree; insertion, splitting,
rotations, rebalancing and the prefix-sum walk are verified against pure tree functions, and these against sorted lists of leaves.

Specification files (small, independent of the proofs): `Spec` (queue), `SpecPrice` (real-valued prices), `SpecObs` (what is observable:
payments, balances, log, claimable amounts), `SpecSwap` (a swap request), `SpecBook`, `SpecEcon` (reference matching engine),
`SpecQuery`, `SpecSync`, `SpecTx`, `SpecTree`, `SpecIso`, `SpecErr`, `SpecAdmin`, `SpecAuth` (configuration state machine), `SpecLog` and
`SpecConf` (a client that reads only events), `SpecSetup`, `SpecFlow`, `SpecExit`, `SpecDelete` (trees with one-child nodes), `SpecRef`, `SpecAns` (the reference exchange and its queries), `SpecStore` (byte storage).

## 3. Plan per property

| Property | Plan |
|---|---|
| C01–C02 | closed form of `tick_to_price`; case analysis on the exponent, monotone arithmetic |
| C03, C04 | exact integer division lemmas on `amount_to_value` against rational prices (SpecPrice) |
| C05, C07 | exact characterisation of `place_limit` (Proofs/Place) |
| C06 | id counter invariant; uniqueness by induction over histories |
| C08, C09, C10 | exact characterisation of `cancel_limit` after the tick is synced (Proofs/Cancel, Reach) |
| C11, C14, C28 | corollaries of the refinement `Rel` |
| C12, C13, C15 | characterisation of `claim_order` (Proofs/Claim, ClaimObs); fee arithmetic |
| C16 | induction over the key list; the invariant excludes failures after an order was touched |
| C17 | superadditivity of rounding down |
| C18, C22, C23, C24 | analysis of the swap dispatch and induction over the tick loop (Proofs/Market, SwapRel) |
| C19, C60 | quote and swap run the same loop; equality of results; exact characterisation through C48 |
| C20, C21 | loop invariant: earlier fills are at better ticks; rounding lemmas per fill |
| C25, C58 | pointer invariant; exact pointer updates of place and swap |
| C26 | sum invariant of tick and directional liquidity |
| C27, C46 | balance invariant with per-side received/paid counters; every debt payable; explicit exit strategy |
| C29, C42 | sync against sequential realization of cancelled orders; the query against the state after the sync |
| C30 | the pointer walk equals the sequential realization loop on the leaves (Proofs/Tree/Walk) |
| C31, C32, C33 | representation predicate, AVL insertion with exact weights, height ≤ logarithmic; all failures of insertion excluded |
| C34, C35 | frame properties of every operation |
| C36, C37, C38, C39, C59 | case analysis of auth/sudo dispatch against a reference state machine + induction over histories |
| C40, C41, C43, C45 | query functions against filters of the sorted maps; paging by induction |
| C44, C47 | transaction semantics of the world model; every outflow is matched with its reason |
| C48 | the tick loop equals a pure reference engine over the price levels |
| C49, C50 | decision procedure for the first failing check, compared with the handler |
| C51, C61 | a fold over the event log equals the stored orders / configuration (induction over histories) |
| C52, C53, C54, C55 | economics of the reference engine: monotonicity, affordability, comparison with any other execution, splitting |
| C62 | the engine stops at the first level if its charge is cut to zero; invariant of the open amounts at the top tick over histories |
| C63 | case analysis of every operation through the bank model (`send`, `sendAll`, `dispatch`); finite sums over accounts, induction over histories |
| C64 | induction over the list of live orders: each exit (C46) removes its order, keeps all others and takes from nobody |
| C65 | complete effect of one claim attempt (queues, tick values, sumtree roots, messages); two attempts commute cell by cell; induction over the permutation |
| C66 | any stored tree (`SpecDelete.LooseTree`), any node; proof by contexts (the path to the root with the other subtrees): `sync_range_and_value_up` repairs a context around up-to-date children, `delete` prunes it; the trees of reachable books are such trees. Limitation proved too: a root with only a right child rejects insertions (finding 16) |
| C67 | `SpecRef`: a complete executable-in-principle exchange on FIFO queues; forward simulation with the abstraction function that reads the reference state off the store and the bookkeeper's queues, one lemma per message for the decision (checks), the effect and the money; induction over the history |
| C68 | `SpecAns`: the answer of the reference exchange to each query; invariant that the two bookkeeping numbers per tick side agree with the stored accumulators along every history; sorted lists with the same members are equal |
| C69 | the length-prefixed key layout of `cw_storage_plus` as a function on cells; cancellation of length prefixes, big-endian and sign-flip encodings are strictly monotone, namespaces compared one by one |
| C70 | `SpecStore.Holds`: what it means that a byte storage holds a typed store; every handler is a sequence of well-typed writes (a Hoare-style calculus, `Proofs/Writes`), so every reachable store has a byte storage, unique by extensionality; prefix ranges with carry in the upper bound (`Proofs/Range`), decoded entry by entry against the sorted typed maps |
| C71 | each write (`Item`, `Map`, `IndexedMap` with both `MultiIndex`es) against the effect on cells; induction over the writes of a transaction |
| C72 | per-operation effect on the two kinds of counters (invariant relation `StoreStep`), induction over the history |
| C73, C74 | `Model/Refuse`: the chain with a bank that refuses transfers by an arbitrary predicate, which may change at every operation; acceptance reduces to the chain without refusals plus a condition on the transfers; recipients of transfers from the invariant relation |
| C75, C76 | `Model/Text`: digits, signs, decimals (padding, trimming), coins and whole responses as strings, and Rust's readers; the client of `SpecText` looks attributes up by name and reads digits; every accepted response has one of seven shapes, whose text reads as its structured form, then C51 and C61. The spot price and quote queries go through these texts in the model as in the code |
| C77, C78, C79 | symmetry: renaming accounts and denoms and changing times (`SpecSym`) commutes with every function of the reference exchange, its checks, effects, money and queries; C67 and C68 carry this over to the contract. Depth: two reference states that look alike stay alike under swaps |
| C80 | locality: the reference matching stops at the first level it leaves alone (induction over the list of levels); lists of levels of two books that agree down to a level share their prefix |
| C81 | JSON texts of messages: writer and reader (`Model/Json.lean`) modelled character by character; the reader inverts the writer by induction over the value, then per type; strictness and field order from the reader's field table |
| C82 | every write carries values within their Rust types (`Write.Ok`, induction over the write calculus of C71), so every cell's text reads back |
| C83 | answers: ranges from C82's invariant (counts: at most as many orders as ids given out), then as C81 |
| C84 | a decoder of published texts (`SpecText.lean: decode`) inverts the printing of every response; responses have one of seven shapes (case analysis over all messages); with C67 for histories |
| C85 | invariant over histories tying each order's claimed quantity to the events' totals (upper and lower bound per claim by C12/C13, floors by C17) |
| C86 | on the reference exchange of C67: every operation is a change (queue maps, pointer maps, counter, configuration) that depends only on what it looks at; independent changes commute and do not touch what the other looks at; balances are sums (C63); transported back by C67 |
| C87 | vocabulary in SpecSurplus (surplus, gain, gains); the transition relation of Reach gives, operation by operation, the change of the open totals and of the unclaimed fills weighted with the exact unit value; balances by C63; swap gain from C22 and C21; histories by induction |
| C88 | vocabulary in SpecProgress (what a front end computes from three answers); C40, C41, C42 identify the answers with the book's queue, `rz`/`posFill` of Queue turn the reading into the FIFO fill; C09, C11, C12 give acceptance and payout; C52's evolution and `fillQ` give place keeping and the next fill |
| C89 | vocabulary in SpecCost, over the storage cells of Model/Storage; a calculus of computations that read and write only given cells (Proofs/Cost), applied function by function to the tree (CostTree), the store (CostStore), the sync (CostSync) and the handlers (CostBook, CostStep); recursion depth from C32's height bound. The model's recursion bound reads the node counter of the tick; the code does not: the counts include that cell; administration and governance: the same calculus message by message (Props/CostAdmin) |
| C90 | the JSON grammar and the published forms written as relations in SpecWire, independently of the parser and readers of Model/Json; parser sound and complete for the grammar (Proofs/Grammar), each reader equivalent to its form (Proofs/Wire, WireTypes) |
| C91 | every text that the writer produces belongs to the grammar without raw control characters (Props/Wire), and the readers' equivalences applied to C81–C83's round trips |
| C92 | error.rs's texts in Model/ErrText; the wording of each condition written in SpecSays as pieces (words and numbers that can be read back); every error's text is split into its pieces (Props/Says), then C49, C50, C59 with wordings |
| C93 | invariant `Tidy` over histories (Props/Size): every stored node is one of its side's tree (cancel keeps the ids and changes nothing outside the new tree: `cancelTree_spec`), roots and counters only on used ticks; then every occupied cell is in an explicit list whose length is counted, and distinct order ids bound ticks, live and cancelled orders by placements |
| C94 | upper bound: `loop_cut` (a level with liquidity that the loop leaves alone ends it, whatever follows) with the calculus of C89; lower bound: put one unit on the level in another world, and the loop must take it (`loop_hits`), so the cell cannot be outside the set; litter: C05, C07 and C09 for a placement and its cancel, by induction on the levels |
| C95 | per swap: charges (C21, C22) are worth at least what was taken, tick by tick, and a plain swap above 10^18 is refunded nothing unless its last price is below one, where it loses more than all rounding; liquidity comes from placements only; others' operations do not pay outsiders (C63, C74); induction over the history |
| C96 | per operation: a deposit becomes the worth of the new order, a refund is what was left, a claim pays at most the exact value it takes off (C87's rounding), a swap adds to each of the coalition's orders what it takes, at the order's price, and its charge covers these values (C21, C22); the others' orders that are not better than the price get their worth; induction over the history with the invariants "outsiders' open orders lie around the price" and "no open bid above 10^18" |
| C97 | the other direction of C96, per operation: balances change by payments and transfers (C63); a claim takes the exact value off the order and pays the owner at least 94% of the rounded value; a fill of an order at its own price does not lower its worth when the price is on the maker's side; induction over the history |
| C98 | induction over the list of the accounts' live orders: claim and cancel of one order touch only that order (C09, C12) and pay what it was worth (C64's step lemma); the list exists for every reachable book; with C97 applied to the history extended by the exits |
| C99 | Model/Reenter: a big-step relation `Runs` in which calls and queries may happen before and after every transfer. Every run is simulated by the sequence of its calls: same store at every moment; the sequence's bank differs from the real one by transfers that are early (payouts) or late (payments), so nobody but the contract is ever poorer there, and solvency (C01) pays the early ones |
| C100 | the checklist of every query in SpecQuerySays; the quote by the lemmas of C50 (same engine), the tick queries by induction over the ids, the others by C26, C43; wordings as in C92 |
| C101 | Model/Entry: the entry points from text to text; SpecLive: sessions with the reference exchange (inductive, one rule per kind of reply). Composition of C67 (steps), C68 (answers), C84 (events), C90/C91 (grammar), C92/C100 (wordings) along the session |
| C102 | a relation of queues that look alike (same shown orders, same totals): they have the same fill frontier (what is open is strictly decreasing in it), hence the same live orders and due cancels; preserved by appending, changing a live order and filling; through the reference exchange (C67, C68). `C102_hidden`: two witnesses that the hidden values matter |
| C103 | only placements add liquidity (`StoreStep` cases), then C53 (best execution) applied at the earlier book to what the later swap took, whose exact cost its charges cover (C21, C22); exact version by C54 and the first step of the reference matching engine |
| C104 | C28, C25, C27, C42 read through the queries; that a side without live orders has no liquidity and no gap by the fill frontier of C102; clearing by C64 |
| C105 | Model/Octets: the entry points and the storage on bytes. UTF-8 by the library's decode/encode round trip; replies by C101 on the decoded calls; the byte storage is the image of the raw storage of C70 cell by cell (`Enc`: same keys, every value encoded), each write keeps this, so existence, uniqueness and iteration come from C70, C71 and decoding from C69 |
| C106 | the reference engine of C48 on sorted levels either empties the side at the cost of its capacity or had no more than that and used it up (`match_capacity`, by induction on the levels: what is left after buying all an input pays for buys no unit at this or any worse price); put into the checklists of C50 and C100 |
| C107 | two copies of the reference exchange (C67) that differ in configuration and balances only stay such copies: checklists and effects do not read what differs, except that claims split by the fee (`split_alike`, using that bounties and fees stay below their maxima); answers by C68 |
| C108 | the reference exchange (C67) under a renaming of ids: all checks and effects look at the live entries of a queue only, and the renamed exchange with the dead entries dropped is stepped alongside (`ids_core`); come-and-gone orders (`skip`) and exchanged placements (`swapIds`) are instances |
| C109 | on the reference exchange (C67), stepped on two worlds at once: queues that agree up to `claimed` have the same open amounts, fills and levels (`openTotal_left`, `fillQ_unclaimed`); claims change `claimed` only; a cancellation accepted in one is accepted in the other, or refused for its unclaimed fill |
| C110 | directly from the definitions: floor and ceiling of rationals as integer divisions (`floor_ratio`, `ceil_ratio`), powers of ten below 2^256 by their exponent (`ten_pow_lt`) |
| C111 | vocabulary in SpecReads over the storage cells of Model/Storage; each query from the cells it reads (Props/Reads): listings are filters of key-sorted maps, which the cells within the filter determine; the trees through `prefix_uses` of C89 |
| C56, C57 | characterisation of instantiate and of the unsupported messages |

Every property theorem stands next to an `example` that evaluates (in the kernel) a concrete history meeting its hypotheses; the demo
histories are in `Proofs/Demo.lean`. No theorem bounds the length of a history. Those that depend on
free ids assume `World.HasRoom` (Spec.lean): order ids below 10^17 and node ids of every tick below 10^19, out of 2^64. C72 says what
uses ids up (placements; claims and cancels naming the tick) and that every history of fewer than 10^16 operations has room. Solvency
(C27) assumes only that fewer than 10^18 orders have ever been placed.

## 4. Trusted base

* Lean 4.33.0's kernel. Axioms of every theorem in MANIFEST.json (`#print axioms`): `propext`, `Classical.choice`, `Quot.sound`, and
  nothing else. No axioms are added, no `native_decide`; `decide +kernel` (kernel evaluation) is used for concrete examples.
* The reading of the Rust source into `Verif/Model` (line citations in each definition). Evidence for it, not part of any proof:
  `Verif/Conformance` replays the repository's own unit tests on the model. `tools/gen_conformance.py` translates the case tables of
  `src/tests/test_*.rs` and `src/sumtree/test/*.rs` into `*Cases.lean`; the test loops are transcribed by hand in `*Tests.lean`; the kernel
  evaluates each case (`decide +kernel`). All of them pass, down to the node ids and rotations drawn in the comments of the Rust tests.
  Left out: cases too large for kernel evaluation (1010 ticks, 400 orders, 1000 random leaves) and the randomised unit tests. The end-to-end
  tests run in the model of the chain (`Conformance/E2E.lean`, helper functions transcribed; the fuzz tests with 60 operations and another
  source of random numbers). These are tests, bounded by nature; no property of MANIFEST.json rests on them.
* Library semantics, from their documentation (the sources are not in the sandbox): `Uint128`/`Uint256`/`Decimal256` checked
  operations, `Decimal256` multiplication and division round down, `to_uint_ceil`/`to_uint_floor`, `checked_*` return errors while operators panic on
  overflow; formatting and reading of integers and decimals as written down in `Model/Text.lean`; `Item`/`Map`/`IndexedMap`/`MultiIndex` of cw-storage-plus 1.2:
  the key layout, `replace`, prefix ranges and key decoding as written down in `Model/Storage.lean` (that the cells are then
  independent, iterate in numeric order, and that the indexes agree with the primary map is proved: C69–C71); `may_load`/`load`/`unwrap_or_default`; `cw_utils::nonpayable`/`must_pay`; serde-json-wasm's
  grammar, escapes, nesting limit and strictness as written down in `Model/Json.lean`; `as usize` on wasm32 truncates to 32 bits.
* Chain semantics: transactions are atomic; a message's funds arrive before the handler runs; submessages are run in order, a failing
  `reply_on_error` submessage calls `reply`; the bank refuses zero and uncovered sends and otherwise moves exactly the amount
  (blocked addresses and send restrictions: `Model/Refuse.lean`, C73, C74; hooks that call the contract again before the message is finished: `Model/Reenter.lean`, C99); the pool module moves `token_in` from the swap's sender to
  the contract before it calls `sudo`; the contract is never the sender of a message (it sends bank messages only);
  `addr_validate` is an arbitrary fixed predicate on strings; the supply query used by `instantiate` is an arbitrary function
  (0 where it fails).

## 5. What is not modelled

Gas and any other resource limit; contract version metadata (cw2) in instantiate/migrate; the texts of the libraries' own errors and of the bank's inside `ReplyError`
(the contract's own texts are in Model/ErrText); floating point numbers in JSON (no field is one); `#[cfg(test)]` code and bin/schema.rs. Everything else of `src` is modelled.

## 6. Findings

Behaviour of the code that a user may not expect; each is a theorem or a kernel-checked example in the file named.

1. Above a price of 10^18 the conversion that is meant to round up divides twice and can round down (Props/Price).
   The contract then loses less than 10^-18 of a unit, and only when a fill empties a bid tick priced above 10^18; this is why solvency (C27) needs the
   bound on the number of orders: each emptying is preceded by a placement.
2. As a consequence a bid of less than 341 units at the top tick charges a taker nothing and every sale into it fails: see C62 and Props/Block.
3. Governance `SetActive`/`TransferAdmin` through `sudo` is refused while the book is inactive (C38, C59).
4. A pending admin offer survives the admin's renouncement and can still be claimed (Props/Auth).
5. The best-tick pointer may point to an empty tick (C25, C58); the inverse spot price truncates to 0 above 10^18 (C43);
   `current_tick` never changes.
6. `place_limit` accepts crossed books (no matching of limit orders).
7. A swap whose output rounds to zero fails in the bank, after the contract accepted it (Props/Tx, Props/Errors).
8. A batch claim keeps writes of the claims that failed; the invariant shows that these are harmless (C16).
9. More than 2^128 units on one tick make a fill of that size fail; `total_pool_liquidity` panics from 2^128 on (C26, C50).
10. The unrealized-cancels query can report more than the next sync will realize (Props/Sync, C42).
11. `start_from` of orders_by_owner is documented as exclusive but is inclusive; limits are truncated to 32 bits (C40).
12. Rounding up per tick makes best-price-first cost the taker up to one input unit per tick more than another order of
    execution could (Props/Econ, C53).
13. Configuration messages accept attached funds and keep them (Props/AdminErrors).
14. Quotes are answered while the book is inactive (C60).
15. The quote panics for outputs of 2^128 and more although the swap itself succeeds (Props/Quote, C19).
16. `TreeNode::delete` neither rebalances nor moves a lone right child to the left; `insert` then rejects the tree (`InvalidSumtree`).
    No entry point deletes nodes (C66).
17. The comment at state.rs:70-73 says that `min`/`max` of `get_orders_by_owner` are exclusive and the page size is limited to
    `MAX_PAGE_SIZE`, 50 by default; in the code both bounds are inclusive, no maximum is applied, and the default is 100 (C40, C70).
18. Syncing a tick side whose cancellation tree is empty creates a root without storing it, so each such sync after a new fill uses up a node
    id of the tick (C72 bounds this: at most four ids per order named in a claim or cancel).
19. Transfers of a claim are all or nothing: a fee recipient who cannot receive the output denom blocks every claim that owes a fee until governance
    sets the fee to zero or another recipient, an owner who cannot receive blocks claims of the own orders by bounty hunters, and one such
    order makes a whole batch claim fail (Props/Refuse, C74).
20. `get_maker_fee` is declared to return `MakerFee` (`{"maker_fee": …}`, msg.rs:108) but returns a bare decimal (contract.rs:169, state.rs:165): a
    client generated from the schema can never decode it (C83).
21. The contract's README (line 156) gives every order query a default page size of 100; `orders_by_tick` has none (query.rs:316-348, C40), and
    its `count` counts within the bounds while that of `orders_by_owner` ignores them.
22. An instantiation with a denom that has no supply is refused with "Invalid denom" without naming it, although the error carries the denom
    (error.rs, C92).
23. Nothing ever shrinks the trees of cancelled orders or removes a price level: an order placed and cancelled at once leaves two node records
    (one order's minimal quantity is one unit, refunded in full), and on an unused tick up to four more, for good. C93 shows that this is also
    the worst that can happen: at most seven records per placement.
24. A swap walks over all stored levels from the pointer, and empty ones are never removed. C94_litter: with one unit of the deposit denom (always
    refunded) anybody can put any number of empty levels between the pointer and the first order; one placement at the best of them, cancelled
    at once, moves the pointer back and makes the next swap pass them all again. The swap's gas is thus in the hands of strangers; there is no
    minimum order size, no fee on cancels and no limit on the levels scanned.
25. A book can be crossed for good (finding 6), and then the first taker cashes in: C95 needs an uncrossed book. Above a price of 10^18 the
    rounding of finding 1 together with the refund of `swap_to_tick` gives a riskless gain of less than price/10^18 quote units (at most 341) per
    emptied bid tick; a plain swap cannot do that (Props/Worth).

26. Two values that change responses are shown by no query: the id that the next order will get, and the account that receives the maker
    fee (`MAKER_FEE_RECIPIENT` has a setter but no getter); `C102_hidden`. Everything else that matters is visible (C102), although
    `get_unrealized_cancels` is redundant: the ticks and the live orders decide it.

27. The fuzz tests assert that the same input never pays more after a market order (`decrementing_market_order_output`). This is not
    true of every book (`C103_slack_needed`): with a bid for 1 unit at price 1000 in front of a large bid at price 10, selling one unit
    pays 1, and selling another pays 10. The other assertions of the tests hold always (C104); this one holds up to one unit of input
    per tick (C103).

28. The reported spot price follows the best-tick pointer, which a placement moves and a cancellation does not move back: a small bid above
    the best one, placed and cancelled at once, leaves the spot price changed, at no cost but the gas (C108_pointer). Whoever reads the spot
    price as an oracle reads what the last visitor wanted.

## 7. Tests against wrong programs

`seeded/LOG.jsonl` lists the seeded bugs: the model definition edited, the edit, the property it breaks, which theorem fails
to prove then (the first in build order), and which theorems were strengthened because of the experiment. Because a proof script can
fail although its statement still holds, the first 182 bugs were
also run against an executable oracle: the statements of the properties evaluated on histories by the edited model; the log names the
statements found false. Later rows (empty list) only record which theorems fail. A row whose outcome is `survived` names the theorem that was
added or strengthened for it, or says that the edit is equivalent; `nu_umul` for instance led to C110.

## 8. How to read

`Verif/Props/*.lean` contains the property theorems `Cnn_…` (names as in MANIFEST.json). Read the statement, then the vocabulary it uses in
`Verif/Spec*.lean` and the entry points in `Verif/Model/World.lean` (`step`, `run`, `Reachable`) and `Verif/Model/Query.lean` (`answer`).
`Verif/Proofs/*` is of interest only for the proofs.
