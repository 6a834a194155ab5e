{"id": "C01", "title": "Tick price formula", "statement": "tick_to_price returns Ok exactly for ticks in [MIN_TICK, MAX_TICK] (an error otherwise); the price it returns is exactly the piecewise-geometric formula 10^k + n*10^(k-6) (k, n = quotient/remainder of the tick by 9,000,000, one extra decimal of precision below zero) with no decimal truncation, and it always lies in [1e-12, 340282300000000000000].", "quantifier": "every i64 tick index", "why_tests_cant": "there are 290 million valid ticks; tests pin a few dozen", "anchors": ["contracts/sumtree-orderbook/src/tick_math.rs: tick_to_price, pow_ten", "contracts/sumtree-orderbook/src/constants.rs: MIN_TICK, MAX_TICK"]}
{"id": "C02", "title": "Tick prices strictly increase", "statement": "For any two valid ticks a < b, price(a) < price(b): tick order is price order, so the book can never rank a worse price ahead of a better one, including across every power-of-ten boundary.", "quantifier": "every pair of valid ticks", "why_tests_cant": "quadratically many pairs; boundary cases at each 9,000,000 step", "anchors": ["contracts/sumtree-orderbook/src/tick_math.rs: tick_to_price"]}
{"id": "C03", "title": "Price conversion is exact, one-sided rounding", "statement": "Converting any Uint128 amount at any valid tick: rounding Down returns exactly the floor of the rational value, in both directions; rounding Up of amount*price returns exactly the ceiling. Rounding Up of amount/price returns exactly the ceiling whenever price <= 1e18; above that price the intermediate 18-decimal truncation can make it one less than the ceiling, but never by more than 1e-18 of a unit of value.", "quantifier": "every amount in [0,2^128), every valid tick, both order directions, both rounding directions", "why_tests_cant": "double rounding errors appear only for particular amount/price residues", "anchors": ["contracts/sumtree-orderbook/src/tick_math.rs: amount_to_value, multiply_by_price, divide_by_price, RoundingDirection"]}
{"id": "C04", "title": "Price conversion never overflows", "statement": "For every Uint128 amount and every valid tick, converting the amount in either direction with either rounding succeeds: no overflow error and no panic, so no order at a valid tick can become unswappable or unclaimable through arithmetic overflow.", "quantifier": "every amount in [0,2^128), every valid tick, both directions", "why_tests_cant": "extremal products are within 0.002% of 2^256; needs a proof over the whole domain", "anchors": ["contracts/sumtree-orderbook/src/tick_math.rs: amount_to_value", "contracts/sumtree-orderbook/src/constants.rs: MAX_TICK"]}
{"id": "C05", "title": "Limit order acceptance", "statement": "place_limit on an active book succeeds if and only if the tick is in range, quantity > 0, the bounty (if any) is at most 1%, and the attached funds are exactly one coin of the deposit denom (quote for bids, base for asks) with amount equal to quantity - up to overflow of the 256-bit Decimal accumulators of the tick or direction (order id exhaustion cannot occur while the 64-bit counters have room, see C72). Any other message is rejected and nothing changes.", "quantifier": "every reachable state, every sender, every funds list, every PlaceLimit message", "why_tests_cant": "unbounded message space and state space", "anchors": ["contracts/sumtree-orderbook/src/order.rs: place_limit", "contracts/sumtree-orderbook/src/contract.rs: execute"]}
{"id": "C06", "title": "Order ids are unique and never reused", "statement": "Every successful place_limit is assigned an id strictly greater than all ids ever assigned before, no two live orders on the book share an id (on any tick), and an id whose order was cancelled or fully claimed is never live again.", "quantifier": "every history of operations", "why_tests_cant": "needs induction over unbounded histories", "anchors": ["contracts/sumtree-orderbook/src/state.rs: new_order_id", "contracts/sumtree-orderbook/src/order.rs: place_limit"]}
{"id": "C07", "title": "Place has only its documented effects", "statement": "A successful place_limit adds exactly one order (with the caller as owner, placed quantity = quantity = message quantity), raises the tick's and the direction's liquidity by exactly the quantity, sends no funds out, and changes no other order, no other tick, and not the opposite side of the same tick.", "quantifier": "every reachable state and message", "why_tests_cant": "frame property over the whole storage", "anchors": ["contracts/sumtree-orderbook/src/order.rs: place_limit"]}
{"id": "C08", "title": "Only the owner can cancel", "statement": "cancel_limit by anyone other than the order's owner always fails and changes nothing.", "quantifier": "every reachable state, every sender, every order key", "why_tests_cant": "all callers and states", "anchors": ["contracts/sumtree-orderbook/src/order.rs: cancel_limit"]}
{"id": "C09", "title": "Cancel succeeds exactly when there is no unclaimed fill", "statement": "The owner's cancel_limit of a live order succeeds if and only if no part of the order has been filled since its last claim according to FIFO time priority (while u64 node ids are not used up, see C72); on success it pays the owner exactly the order's remaining quantity in the deposit denom, removes the order, and a second cancel or claim of it fails.", "quantifier": "every reachable history (any interleaving of places, swaps, cancels, claims on the tick)", "why_tests_cant": "depends on lazily synced cancellations accumulated over an unbounded history", "anchors": ["contracts/sumtree-orderbook/src/order.rs: cancel_limit", "contracts/sumtree-orderbook/src/tick.rs: sync_tick", "contracts/sumtree-orderbook/src/sumtree/tree.rs: get_prefix_sum"]}
{"id": "C10", "title": "Cancels never change other orders' fills", "statement": "A successful cancel leaves the FIFO-filled amount, the claimed amount and the queue position of every other order (same side, opposite side, other ticks) unchanged.", "quantifier": "every reachable history, every other order", "why_tests_cant": "the sumtree re-realises cancellations lazily; interference only shows up in particular orders of events", "anchors": ["contracts/sumtree-orderbook/src/order.rs: cancel_limit", "contracts/sumtree-orderbook/src/sumtree/node.rs: insert", "contracts/sumtree-orderbook/src/tick.rs: sync_tick"]}
{"id": "C11", "title": "FIFO refinement: claims pay exactly the time-priority fill", "statement": "For every history, the contract behaves like a simple per-tick, per-side FIFO queue: a swap that takes amount f from a tick fills the oldest live orders first, and claiming an order yields exactly (filled by FIFO) - (already claimed), never more and never less.", "quantifier": "every history of place, cancel, claim, batch claim, swap and admin operations on any number of ticks", "why_tests_cant": "the contract computes fills from ETAS, CTT and prefix sums instead of a queue; equivalence needs induction over histories", "anchors": ["contracts/sumtree-orderbook/src/order.rs: claim_order, run_market_order", "contracts/sumtree-orderbook/src/tick.rs: sync_tick", "contracts/sumtree-orderbook/src/sumtree/tree.rs: prefix_sum_walk", "contracts/sumtree-orderbook/src/sumtree/node.rs: insert"]}
{"id": "C12", "title": "Claim payouts conserve value and go to the right parties", "statement": "A successful claim emits transfers that sum exactly to floor(value of the claimed fill at the tick price): bounty = floor(value*bounty rate) to the caller, maker fee = floor(value*fee) to the fee recipient (when something is left), the rest to the order's owner; all in the output denom, none of zero amount, and nothing to anyone else.", "quantifier": "every reachable state, every caller, every bounty and fee configuration", "why_tests_cant": "rounding interplay of three floors over all amounts", "anchors": ["contracts/sumtree-orderbook/src/order.rs: claim_order"]}
{"id": "C13", "title": "Owner keeps at least 94% of the fill value", "statement": "In every reachable configuration the maker fee is at most 5% and every order's bounty at most 1%, so each claim pays the owner at least 94% of the fill's value at the tick price (up to nothing more than integer rounding in the owner's favour), and a bounty or fee is never larger than its configured share.", "quantifier": "every reachable state and claim", "why_tests_cant": "quantifies over all amounts and configurations", "anchors": ["contracts/sumtree-orderbook/src/order.rs: claim_order, place_limit", "contracts/sumtree-orderbook/src/orderbook.rs: set_maker_fee"]}
{"id": "C14", "title": "No double claim, full claim removes the order", "statement": "Immediately repeating a claim fails with no state change to orders and no payment; a claim that covers the whole quantity removes the order; the sum of amounts claimed from (plus refunded to) an order over any history never exceeds its placed quantity.", "quantifier": "every history", "why_tests_cant": "unbounded repetition", "anchors": ["contracts/sumtree-orderbook/src/order.rs: claim_order"]}
{"id": "C15", "title": "Claim outcome for the owner is independent of the caller", "statement": "Who calls claim_limit affects only who receives the bounty: owner's payment, the fee, the order update and success/failure are the same for every caller.", "quantifier": "every reachable state, every pair of callers", "why_tests_cant": "all pairs of callers", "anchors": ["contracts/sumtree-orderbook/src/order.rs: claim_limit, claim_order"]}
{"id": "C16", "title": "Batch claim equals sequential claims that skip failures", "statement": "batch_claim with at most 100 entries has the same effect on orders, ticks and payments as claiming each entry in turn and ignoring failures; more than 100 entries are rejected; an entry that fails never removes or reduces an order and never pays anything.", "quantifier": "every reachable state, every list of keys (duplicates and missing orders included)", "why_tests_cant": "lists are unbounded and failing entries leave partial writes behind", "anchors": ["contracts/sumtree-orderbook/src/order.rs: batch_claim_limits, claim_order"]}
{"id": "C17", "title": "Splitting a fill over several claims never pays more", "statement": "Claiming a fill in several instalments at a tick price pays in total at most what one claim of the sum pays, and less than one unit per instalment less.", "quantifier": "every tick, every way of splitting an amount", "why_tests_cant": "all partitions of all amounts", "anchors": ["contracts/sumtree-orderbook/src/order.rs: claim_order", "contracts/sumtree-orderbook/src/tick_math.rs: amount_to_value"]}
{"id": "C18", "title": "Swap slippage protection", "statement": "A successful swap_exact_amount_in / swap_to_tick pays the sender one transfer of the output denom with amount >= token_out_min_amount, equal to the amount reported in the response data; swaps with a nonzero swap fee, a zero input, equal denoms or a pair that is not this book's always fail.", "quantifier": "every reachable state and every swap message", "why_tests_cant": "all states and messages", "anchors": ["contracts/sumtree-orderbook/src/sudo.rs: dispatch_swap_exact_amount_in, validate_output_amount, ensure_swap_fee"]}
{"id": "C19", "title": "Quote equals execution", "statement": "On an active book, a positive calc_out_amt_given_in quote x that reaches the minimum means an immediately following swap_exact_amount_in with the same input by a funded sender is accepted and pays exactly x. Conversely an accepted swap pays exactly what was quoted, except that no quote is given (the query panics on the conversion to a 128-bit coin) for an output of 2^128 or more; if the contract holds less than that, acceptance and a positive sufficient quote are equivalent. (A quote of 0 is possible; the corresponding swap is rejected because the bank does not send zero coins.)", "quantifier": "every reachable state, every input coin", "why_tests_cant": "all states and inputs", "anchors": ["contracts/sumtree-orderbook/src/query.rs: calc_out_amount_given_in", "contracts/sumtree-orderbook/src/order.rs: run_market_order_internal"]}
{"id": "C20", "title": "Best price first", "statement": "A swap takes liquidity strictly in price order (highest bids first for asks, lowest asks first for bids): it takes from a tick only after every strictly better-priced tick on that side has been completely emptied.", "quantifier": "every reachable state, every swap", "why_tests_cant": "unbounded number of ticks", "anchors": ["contracts/sumtree-orderbook/src/order.rs: run_market_order_internal"]}
{"id": "C21", "title": "Swap price fairness", "statement": "At each tick a swap touches, the input it charges is at least the tick-price value of the output taken (up to 1e-18 of a unit, and exactly so when price <= 1e18) and less than one unit above it; the input charged never exceeds the input supplied.", "quantifier": "every reachable state and swap", "why_tests_cant": "rounding over all amounts and prices", "anchors": ["contracts/sumtree-orderbook/src/order.rs: run_market_order_internal", "contracts/sumtree-orderbook/src/tick_math.rs: amount_to_value"]}
{"id": "C22", "title": "Full fill or error; leftover input accounted for", "statement": "A plain swap either fails or uses up its whole input except for dust worth less than one output unit at the last price used; input = charged + refunded + absorbed dust, where the refund is sent back to the sender in the input denom and any absorbed dust is worth less than one output unit at the next available price. Where liquidity remains below the target of a bounded swap, refund and dust together cannot buy one more unit of it.", "quantifier": "every reachable state and swap", "why_tests_cant": "all liquidity shapes", "anchors": ["contracts/sumtree-orderbook/src/order.rs: run_market_order_internal", "contracts/sumtree-orderbook/src/sudo.rs: dispatch_swap_exact_amount_in"]}
{"id": "C23", "title": "swap_to_tick never crosses its target", "statement": "swap_to_tick changes no tick beyond target_tick (below it for asks, above it for bids), and a target out of range or on the wrong side of the best-price pointer is rejected.", "quantifier": "every reachable state, every target", "why_tests_cant": "all states and targets", "anchors": ["contracts/sumtree-orderbook/src/order.rs: run_market_order_internal", "contracts/sumtree-orderbook/src/sudo.rs: SwapToTick"]}
{"id": "C24", "title": "Swap conservation", "statement": "A successful swap lowers liquidity only on the opposite side, by exactly the output amount in total: the sum of per-tick decreases, the decrease of the directional total and the amount paid out are equal; orders, placed totals and the swapped side are untouched.", "quantifier": "every reachable state and swap", "why_tests_cant": "sums over unboundedly many ticks", "anchors": ["contracts/sumtree-orderbook/src/order.rs: run_market_order", "contracts/sumtree-orderbook/src/state.rs: subtract_directional_liquidity"]}
{"id": "C25", "title": "Best-tick pointers are sound", "statement": "In every reachable state no bid liquidity exists above next_bid_tick and no ask liquidity exists below next_ask_tick, so a swap started from the pointer never skips a better price.", "quantifier": "every history", "why_tests_cant": "stale pointers need particular histories", "anchors": ["contracts/sumtree-orderbook/src/order.rs: place_limit, run_market_order_internal", "contracts/sumtree-orderbook/src/orderbook.rs: create_orderbook"]}
{"id": "C26", "title": "Reported liquidity equals open interest", "statement": "In every reachable state, for each direction, GetTotalPoolLiquidity equals the sum over ticks of the tick liquidity, and each tick's liquidity equals the sum over its live orders of the not-yet-filled quantity.", "quantifier": "every history", "why_tests_cant": "global sum over unbounded books", "anchors": ["contracts/sumtree-orderbook/src/state.rs: add_directional_liquidity, subtract_directional_liquidity", "contracts/sumtree-orderbook/src/query.rs: total_pool_liquidity", "contracts/sumtree-orderbook/src/order.rs"]}
{"id": "C27", "title": "Solvency", "statement": "As long as fewer than 10^18 orders have ever been placed, and after any number of other operations, the contract's bank balance covers all its obligations at once: in each denom, the unfilled remainders of all live orders deposited in it plus the tick-price value of all filled-but-unclaimed amounts payable in it. Hence no cancel refund, claim or swap payout ever fails for lack of funds.", "quantifier": "every history, of any length, with fewer than 10^18 order placements", "why_tests_cant": "insolvency would need long histories with adverse rounding; global accounting invariant", "anchors": ["contracts/sumtree-orderbook/src/order.rs", "contracts/sumtree-orderbook/src/sudo.rs", "contracts/sumtree-orderbook/src/tick_math.rs: amount_to_value"]}
{"id": "C28", "title": "ETAS/CTT accounting invariant", "statement": "In every reachable state and for each tick side: realized cancels <= ETAS <= CTT, liquidity = CTT - ETAS - (cancels not yet realized), last sync point <= ETAS; and ETAS, CTT and realized cancels never decrease along any history.", "quantifier": "every history", "why_tests_cant": "invariant over unbounded histories", "anchors": ["contracts/sumtree-orderbook/src/types/tick.rs: TickValues", "contracts/sumtree-orderbook/src/tick.rs: sync_tick", "contracts/sumtree-orderbook/src/order.rs"]}
{"id": "C29", "title": "Tick sync never fails and is idempotent", "statement": "In every reachable state (in which the 64-bit counters have room, C72) syncing a tick succeeds (never InvalidPrefixSum, InvalidTickSync, overflow or panic); a sync raises each side's effective total amount swapped by what it realizes and changes nothing else but the last-sync marker; syncing again changes at most the last-sync markers.", "quantifier": "every reachable state, every tick", "why_tests_cant": "failure would need a particular cancel/fill pattern", "anchors": ["contracts/sumtree-orderbook/src/tick.rs: sync_tick"]}
{"id": "C30", "title": "Batched realization equals sequential realization", "statement": "The prefix sum computed by the tree walk equals the result of realizing cancellations one at a time in queue order, each only once the fill position reaches it - for every tree shape, every target and every previously realized prefix.", "quantifier": "every valid sumtree, every target ETAS, every previously realized prefix", "why_tests_cant": "the batching shortcut in the walk is only exercised by particular tree shapes", "anchors": ["contracts/sumtree-orderbook/src/sumtree/tree.rs: get_prefix_sum, prefix_sum_walk"]}
{"id": "C31", "title": "Sumtree is a valid balanced search tree in storage", "statement": "After any history, the stored sumtree of every tick side is a well-formed pointer structure (parent/child links consistent, no sharing or cycles), its leaves are exactly the cancelled orders in queue order, every internal node caches the correct sum, range and height, and sibling heights differ by at most one.", "quantifier": "every history", "why_tests_cant": "pointer-level rotations over unbounded trees", "anchors": ["contracts/sumtree-orderbook/src/sumtree/node.rs: insert, split, rebalance, rotate_left, rotate_right", "contracts/sumtree-orderbook/src/sumtree/tree.rs: get_or_init_root_node"]}
{"id": "C32", "title": "Cancellation cost is logarithmic", "statement": "The height h of the sumtree of a side with n cancellations satisfies fib-type AVL growth (n >= 2^(h/2) up to a constant), and inserting or walking never recurses deeper than the height, so the number of nodes visited by cancel/claim is O(log n) (C89 counts the storage cells).", "quantifier": "every history, every n", "why_tests_cant": "asymptotic statement over unbounded n", "anchors": ["contracts/sumtree-orderbook/src/sumtree/node.rs: insert, rebalance", "contracts/sumtree-orderbook/src/sumtree/tree.rs: prefix_sum_walk"]}
{"id": "C33", "title": "Tree insertion never fails on a reachable book", "statement": "Cancelling never hits NodeInsertionError, InvalidNodeType, ChildlessInternalNode, InvalidSumtree, Decimal256 overflow or a missing node in any reachable state.", "quantifier": "every history", "why_tests_cant": "needs the disjointness of all order intervals over a history", "anchors": ["contracts/sumtree-orderbook/src/sumtree/node.rs: insert, split, rebalance"]}
{"id": "C34", "title": "Bid and ask sides of a tick are isolated", "statement": "Orders, fills, cancels and claims on one side of a tick never change the queue, fills, liquidity or sumtree contents of the other side of that tick, although both sides share one node-id space.", "quantifier": "every history", "why_tests_cant": "aliasing in shared storage keyed by tick", "anchors": ["contracts/sumtree-orderbook/src/sumtree/node.rs: NODES, generate_node_id", "contracts/sumtree-orderbook/src/sumtree/tree.rs: TREE", "contracts/sumtree-orderbook/src/types/tick.rs: TickState"]}
{"id": "C35", "title": "Ticks are isolated", "statement": "Placing, cancelling or claiming on one tick never changes any other tick's state, orders or sumtree.", "quantifier": "every reachable state, every pair of ticks", "why_tests_cant": "frame property over all ticks", "anchors": ["contracts/sumtree-orderbook/src/order.rs", "contracts/sumtree-orderbook/src/tick.rs", "contracts/sumtree-orderbook/src/sumtree/node.rs"]}
{"id": "C36", "title": "Admin authority", "statement": "Every successful TransferAdmin, CancelAdminTransfer, RenounceAdminship, OfferModerator, SetMakerFee and SetMakerFeeRecipient was sent by the current admin; every successful SetActive execute by the current admin or moderator; every ClaimAdmin/RejectAdminTransfer (ClaimModerator/RejectModeratorOffer) by the currently offered address. All other callers fail with no change.", "quantifier": "every reachable state, every caller and auth message", "why_tests_cant": "all callers, all states", "anchors": ["contracts/sumtree-orderbook/src/auth.rs: dispatch, ensure_is_admin, ensure_is_admin_or_moderator"]}
{"id": "C37", "title": "Admin changes only by offer-and-claim or governance", "statement": "In any history the admin changes only by (a) the admin renouncing, (b) the pending offeree claiming, or (c) a sudo call; the moderator changes only by the pending moderator offeree claiming; an offer exists only because an admin made it.", "quantifier": "every history", "why_tests_cant": "unbounded histories of interleaved auth messages", "anchors": ["contracts/sumtree-orderbook/src/auth.rs", "contracts/sumtree-orderbook/src/sudo.rs"]}
{"id": "C38", "title": "Inactive book is frozen", "statement": "While the book is inactive every place, cancel, claim, batch claim and every sudo message (including SetActive and TransferAdmin) fails and changes nothing; only Auth messages can succeed, and only an admin/moderator SetActive can reactivate it.", "quantifier": "every reachable inactive state and every message", "why_tests_cant": "all states and messages", "anchors": ["contracts/sumtree-orderbook/src/contract.rs: execute", "contracts/sumtree-orderbook/src/sudo.rs: sudo, ensure_is_active, set_active"]}
{"id": "C39", "title": "Configuration is always complete", "statement": "After instantiate, in every reachable state: the book's denoms are distinct and never change, a moderator exists, a maker fee recipient exists, the maker fee is at most 5%; so a claim can never fail for want of a fee recipient after having consumed the order.", "quantifier": "every history", "why_tests_cant": "invariant over histories", "anchors": ["contracts/sumtree-orderbook/src/contract.rs: instantiate", "contracts/sumtree-orderbook/src/orderbook.rs: create_orderbook, set_maker_fee", "contracts/sumtree-orderbook/src/auth.rs"]}
{"id": "C40", "title": "Order queries are complete and paginated correctly", "statement": "orders_by_owner / orders_by_tick return exactly the live orders of that owner / tick within the bounds (both inclusive, although the message documents start_from as exclusive), ascending by (tick, id), truncated to the limit (modulo 2^32 on the 32-bit target); the count answered by orders_by_owner is the number of all live orders of the owner, whatever the bounds; paging through with successive bounds enumerates every order exactly once.", "quantifier": "every reachable state, bounds and limit", "why_tests_cant": "all pagination parameters", "anchors": ["contracts/sumtree-orderbook/src/query.rs: orders_by_owner, orders_by_tick", "contracts/sumtree-orderbook/src/state.rs: get_orders_by_owner"]}
{"id": "C41", "title": "Tick queries are complete", "statement": "all_ticks returns exactly the ticks on which an order was ever placed, within the inclusive bounds, ascending, truncated to the limit; ticks_by_id returns the requested states in request order or fails if any tick is unknown.", "quantifier": "every reachable state, bounds and limit", "why_tests_cant": "all pagination parameters", "anchors": ["contracts/sumtree-orderbook/src/query.rs: all_ticks, ticks_by_id"]}
{"id": "C42", "title": "Unrealized-cancels query", "statement": "GetUnrealizedCancels for a tick returns, for each side, exactly the total of the cancelled amounts whose turn in the queue has come (by FIFO position) and which no sync has realized yet; whenever the side was filled since its last sync this is exactly the amount by which the next sync raises the side's ETAS, and otherwise the next sync raises it by nothing.", "quantifier": "every reachable state, every tick", "why_tests_cant": "depends on tree walk over all histories", "anchors": ["contracts/sumtree-orderbook/src/query.rs: get_unrealized_cancels", "contracts/sumtree-orderbook/src/tick.rs: sync_tick"]}
{"id": "C43", "title": "Spot price", "statement": "SpotPrice for (base,quote) returns the price of the best-bid pointer tick, and for the inverted pair the 18-decimal truncated inverse of the best-ask pointer's price; it never errors or panics for the book's own pair.", "quantifier": "every reachable state", "why_tests_cant": "all reachable pointer positions", "anchors": ["contracts/sumtree-orderbook/src/query.rs: spot_price"]}
{"id": "C44", "title": "Failed operations change nothing", "statement": "An execute or sudo call that returns an error - including an error of one of its bank submessages, which reply turns into a failure - leaves the book and all balances exactly as before.", "quantifier": "every state, every message", "why_tests_cant": "all failure points", "anchors": ["contracts/sumtree-orderbook/src/contract.rs: reply, execute", "contracts/sumtree-orderbook/src/sudo.rs"]}
{"id": "C45", "title": "Queries and migration do not change state", "statement": "No query and no migrate call changes any part of the book.", "quantifier": "every state, every query", "why_tests_cant": "all states", "anchors": ["contracts/sumtree-orderbook/src/contract.rs: query, migrate"]}
{"id": "C46", "title": "Claimable orders can always be claimed", "statement": "In every reachable active state, if FIFO priority says an order has an unclaimed fill then claim_limit by anyone succeeds and the bank transfers it emits succeed: funds cannot get stuck.", "quantifier": "every reachable state in which the 64-bit counters have room (C72)", "why_tests_cant": "liveness over all histories", "anchors": ["contracts/sumtree-orderbook/src/order.rs: claim_order"]}
{"id": "C47", "title": "No unauthorized outflow", "statement": "In any single operation the contract's balance of a denom decreases only by: a refund to an order's owner by the owner's own cancel, a claim's payments for a fill, or a swap's output against input already received; auth operations and placements never move funds out.", "quantifier": "every reachable state and operation", "why_tests_cant": "all operations", "anchors": ["contracts/sumtree-orderbook/src/order.rs", "contracts/sumtree-orderbook/src/sudo.rs", "contracts/sumtree-orderbook/src/auth.rs"]}
{"id": "C48", "title": "Swaps equal a reference matching engine", "statement": "A swap in the book's pair without fee is accepted if and only if a simple reference matching engine, run over the price levels of the book best first, matches at least one unit and the minimum (and, unless bounded by a target, leaves less than one unit's worth of input); it then pays exactly what the engine matches, refunds exactly what the engine leaves over and takes from each tick exactly what the engine takes.", "quantifier": "every reachable state, every swap request", "why_tests_cant": "ranges over all books, amounts and prices; the engine is an independent functional specification", "anchors": ["contracts/sumtree-orderbook/src/order.rs: run_market_order, run_market_order_internal", "contracts/sumtree-orderbook/src/sudo.rs: dispatch_swap_exact_amount_in, dispatch_swap_to_tick"]}
{"id": "C49", "title": "Rejection reasons of user messages", "statement": "A place_limit, cancel_limit, claim_limit or batch_claim is rejected exactly if one of a short list of documented conditions fails (valid types, funds available, active book; then, for place: tick in range, positive quantity, bounty at most 1%, payment in the deposit denom, exact amount; for cancel: no funds, order live, sender is owner, no unclaimed fill; for claim: no funds, tick ever used, order live, unclaimed fill; for batch: no funds, at most 100 entries), and the error returned is that of the first failing condition. There is no other way to fail: no overflow, panic, tree or transfer error.", "quantifier": "every reachable state (in which the 64-bit counters have room, C72) and every message, sender and funds", "why_tests_cant": "tests exercise each error once; they cannot show the list of failures is exhaustive in every state", "anchors": ["contracts/sumtree-orderbook/src/order.rs: place_limit, cancel_limit, claim_limit, batch_claim_limits, claim_order", "contracts/sumtree-orderbook/src/contract.rs: execute", "contracts/sumtree-orderbook/src/error.rs"]}
{"id": "C50", "title": "Rejection reasons of swaps", "statement": "A swap_exact_amount_in / swap_to_tick is rejected exactly if one of these fails, with the error of the first: types, real sender, input owned, active book, zero swap fee, different denoms, the pair of the book, valid sender address, admissible target tick, every visited level can be matched (charge positive, amount below 2^128), unless a target allows a partial fill the leftover is worth less than one output unit at the last price, minimum output reached, output not zero. No overflow or panic is possible.", "quantifier": "every reachable state (in which the 64-bit counters have room, C72) and every swap request", "why_tests_cant": "exhaustiveness of the failure list over all books and amounts", "anchors": ["contracts/sumtree-orderbook/src/sudo.rs: dispatch_swap_exact_amount_in, validate_output_amount, ensure_swap_fee", "contracts/sumtree-orderbook/src/order.rs: run_market_order_internal"]}
{"id": "C51", "title": "The events are a complete record of the live orders", "statement": "A client that reads only the events of accepted transactions since instantiation (place, cancel, claim, also inside batches) and keeps a table of orders (enter on place, remove on cancel and on a full claim, update on a partial claim) has, at every moment, exactly the orders that the orders_by_tick query returns, with the same owner, direction, placed and remaining quantity.", "quantifier": "every history of operations from instantiation, every tick and order id", "why_tests_cant": "tests check single events; they cannot show that no sequence of operations changes an order without an event or emits an event that disagrees with the state", "anchors": ["contracts/sumtree-orderbook/src/order.rs: place_limit, cancel_limit, claim_limit, batch_claim_limits, generate_limit_claimed_event (attributes)", "contracts/sumtree-orderbook/src/query.rs: orders_by_tick"]}
{"id": "C52", "title": "A swap pays the largest amount its input affords; output is monotone in the input", "statement": "The output of an accepted swap_exact_amount_in / swap_to_tick is the largest available amount x whose cost, taking x best price first with the charge of each tick rounded up, is at most the input: an available x is at most the output iff cost(x) <= input (asks at any price, bids up to price 10^18). From the same book and to the same target, a swap with more input never pays less (all prices).", "quantifier": "every reachable book, every accepted swap, every amount x, every pair of inputs", "why_tests_cant": "maximality and monotonicity quantify over all alternative amounts and all books", "anchors": ["contracts/sumtree-orderbook/src/order.rs: run_market_order, run_market_order_internal", "contracts/sumtree-orderbook/src/sudo.rs: dispatch_swap_exact_amount_in", "contracts/sumtree-orderbook/src/tick_math.rs: amount_to_value"]}
{"id": "C53", "title": "Best execution", "statement": "No choice of amounts beats an accepted swap by more than the rounding of charges: any amounts per tick, within the liquidity and the target, whose exact unrounded total cost is at most the input minus one unit per tick the swap used, add up to at most the swap output.", "quantifier": "every reachable book, accepted swap and assignment of amounts to ticks", "why_tests_cant": "it compares the swap with every possible way of taking liquidity", "anchors": ["contracts/sumtree-orderbook/src/order.rs: run_market_order, run_market_order_internal", "contracts/sumtree-orderbook/src/sudo.rs: dispatch_swap_exact_amount_in", "contracts/sumtree-orderbook/src/tick_math.rs: amount_to_value"]}
{"id": "C54", "title": "Never better than the best price; no profitable round trip", "statement": "The output of an accepted swap, valued exactly at the best tick it takes from, is at most the input, at any price. Hence on a book with no bid above an ask, swapping an amount and swapping the proceeds back never returns more than was put in.", "quantifier": "every reachable book, every accepted swap, every pair of consecutive opposite swaps on an uncrossed book", "why_tests_cant": "rounding errors could be exploitable for some price, amount and book; only a proof over all of them excludes it", "anchors": ["contracts/sumtree-orderbook/src/order.rs: run_market_order, run_market_order_internal", "contracts/sumtree-orderbook/src/sudo.rs: dispatch_swap_exact_amount_in", "contracts/sumtree-orderbook/src/tick_math.rs: amount_to_value"]}
{"id": "C55", "title": "Splitting a swap never pays more", "statement": "Two swaps in a row pay together at most what one swap with the total input pays from the same book and to the same target (asks at any price, bids if no bid liquidity is above price 10^18).", "quantifier": "every reachable book and every split of every input", "why_tests_cant": "sub-additivity over all books, prices and splits with rounding at each tick", "anchors": ["contracts/sumtree-orderbook/src/order.rs: run_market_order, run_market_order_internal", "contracts/sumtree-orderbook/src/sudo.rs: dispatch_swap_exact_amount_in", "contracts/sumtree-orderbook/src/tick_math.rs: amount_to_value"]}
{"id": "C56", "title": "Instantiation: exact conditions and a fresh book", "statement": "Instantiate succeeds exactly if the two denoms differ, both have a non-zero supply and the three fixed addresses (governance admin, circuit-breaker moderator, maker fee recipient) are valid; it sends nothing, and the new book answers every query as a fresh one: active, the given denoms in the given roles, best bid pointer at the lowest tick and best ask pointer at the highest, no ticks, orders or liquidity, zero maker fee, the fixed roles, no offers.", "quantifier": "every pair of denoms, every chain supply and address validity", "why_tests_cant": "the acceptance condition ranges over all denoms and supplies", "anchors": ["contracts/sumtree-orderbook/src/contract.rs: instantiate", "contracts/sumtree-orderbook/src/orderbook.rs: create_orderbook", "contracts/sumtree-orderbook/src/constants.rs"]}
{"id": "C57", "title": "Unsupported messages never take effect", "statement": "sudo swap_exact_amount_out is rejected in every state with no change of balances or storage; calc_in_amt_given_out never answers; get_swap_fee always answers zero; the two spellings of calc_out_amt_given_in answer the same in every state.", "quantifier": "every state, sender and argument", "why_tests_cant": "ranges over all states and arguments", "anchors": ["contracts/sumtree-orderbook/src/sudo.rs: sudo", "contracts/sumtree-orderbook/src/contract.rs: query", "contracts/sumtree-orderbook/src/contract.rs: CalcInAmtGivenOut, GetSwapFee"]}
{"id": "C58", "title": "The best-price pointers move only with placements and fills, and exactly", "statement": "In the orderbook_state answer, an accepted bid (ask) raises next_bid_tick (lowers next_ask_tick) to its tick iff it improves it; an accepted swap sets the pointer of the side it takes from to the worst tick whose liquidity it reduced; no other field and no other operation (cancel, claim, batch claim, administration, migration, transfers, the other side) changes the answer.", "quantifier": "every reachable book and every accepted operation", "why_tests_cant": "ranges over all histories; the pointers determine the spot price and where the next swap starts", "anchors": ["contracts/sumtree-orderbook/src/order.rs: place_limit, run_market_order_internal, run_market_order, cancel_limit, claim_order", "contracts/sumtree-orderbook/src/types/orderbook.rs: Orderbook"]}
{"id": "C59", "title": "Rejection reasons of configuration messages and governance calls", "statement": "An auth message is rejected exactly for the first of: malformed, funds not available, caller not entitled (unauthorized), argument not acceptable (invalid address, maker fee above 5%, invalid fee recipient), with that error; a governance call to hand over or remove the admin or to (de)activate the book is rejected exactly if the book is inactive or the address is invalid. In every other case they are accepted.", "quantifier": "every state, caller, message and error", "why_tests_cant": "an exact characterization of acceptance over all states, callers and arguments", "anchors": ["contracts/sumtree-orderbook/src/auth.rs: dispatch, ensure_is_admin, ensure_is_admin_or_moderator", "contracts/sumtree-orderbook/src/sudo.rs: sudo, ensure_is_active, set_active", "contracts/sumtree-orderbook/src/orderbook.rs: set_maker_fee, set_maker_fee_recipient"]}
{"id": "C60", "title": "What a quote answers, exactly", "statement": "calc_out_amt_given_in answers (on an active or inactive book alike) exactly if the fee is zero, the input positive, the denoms are the book pair, and the reference matching engine fills the input against the whole liquidity of the side, leaving nothing worth a unit at the last price, for a total payment below 2^128; the answer is the out denom and the amount the engine pays. Otherwise the query fails.", "quantifier": "every reachable book, every input below 2^128, every answer", "why_tests_cant": "an exact characterization over all books and inputs", "anchors": ["contracts/sumtree-orderbook/src/query.rs: calc_out_amount_given_in", "contracts/sumtree-orderbook/src/order.rs: run_market_order_internal"]}
{"id": "C61", "title": "The configuration can be followed from events alone", "statement": "A client that reads only the attributes of accepted transactions, starting from the fixed configuration of a fresh book, knows at every moment exactly the admin, moderator, pending offers, active flag, maker fee and fee recipient that the queries report. An accepted operation without a configuration event leaves the configuration unchanged, and the instantiation event names the traded pair.", "quantifier": "every history of accepted and rejected operations", "why_tests_cant": "all histories", "anchors": ["contracts/sumtree-orderbook/src/auth.rs: dispatch_*", "contracts/sumtree-orderbook/src/sudo.rs: dispatch_transfer_admin, dispatch_remove_admin, set_active", "contracts/sumtree-orderbook/src/contract.rs: instantiate"]}
{"id": "C62", "title": "A dust bid at the top tick blocks every sale (limitation)", "statement": "If the liquidity L of the best bid tick satisfies L*10^18 < price, no sale of base is accepted, whatever its amount, minimum, sender or target, and no quote for a sale is given, although other bids may be waiting. On every active book without open bids at the top tick anybody can bring this about with at most 340 units of quote: the bid is accepted, and from then on, whatever anybody else does, no sale is accepted until another bid is placed at the top tick or the attacker cancels.", "quantifier": "every reachable book, every attacker balance, every later history, every sale", "why_tests_cant": "the claim is about all sales in all later histories; no test exercises prices above 10^18 with small liquidity", "anchors": ["contracts/sumtree-orderbook/src/order.rs: run_market_order_internal (\"Input amount for a given swap step cannot be zero\")", "contracts/sumtree-orderbook/src/tick_math.rs: amount_to_value, divide_by_price"]}
{"id": "C63", "title": "Exact flow of coins", "statement": "An accepted operation moves nothing but the payment that comes with it (the coins attached to an execute message, or the swap's token_in, from the signer to the contract) and the bank transfers of its response: for every account and every denom, new balance + what it paid + (for the contract) what the response sends = old balance + what it was paid + what the response sends to it. Hence no account other than the contract and the account that pays ever loses anything, the payer loses at most what it attached, and over any history (mints aside) the total of each denom over all accounts is unchanged.", "quantifier": "all worlds, all operations (including rejected ones in histories), all accounts, all denoms, histories of any length", "why_tests_cant": "A test checks the balances of the accounts it knows about; it cannot check every bystander for every message and history.", "anchors": ["contracts/sumtree-orderbook/src/contract.rs: execute, sudo, reply", "contracts/sumtree-orderbook/src/order.rs: place_limit, cancel_limit, claim_limit, batch_claim_limits", "contracts/sumtree-orderbook/src/sudo.rs: dispatch_swap_exact_amount_in"]}
{"id": "C64", "title": "An active book can be wound down completely", "statement": "On an active book with any history, if the owner of every live order claims it and then cancels it (the orders taken in any sequence), then no order is left on the book, no side of any tick and no direction reports liquidity, and every account has received at least the unfilled deposits of its orders plus the tick-price value of their unclaimed fills minus the maker fee.", "quantifier": "all reachable active books (in which the 64-bit counters have room, C72), all sequences of the live orders, all accounts and denoms", "why_tests_cant": "It is a statement about every history of fills, claims and cancels and every sequence of exits; each exit changes the sumtree the next one relies on.", "anchors": ["contracts/sumtree-orderbook/src/order.rs: claim_limit, cancel_limit, claim_order", "contracts/sumtree-orderbook/src/tick.rs: sync_tick"]}
{"id": "C65", "title": "The sequence of claims does not matter", "statement": "A batch claim whose list is rearranged in any way (entries may repeat, name orders that do not exist or have nothing to claim) is accepted under the same conditions and leads to exactly the same world, every balance and every cell of the contract's storage included, by the same transfers and events up to their order. Likewise any two claim messages for different orders, by any senders and accepted or not, can be exchanged without changing the resulting world.", "quantifier": "all reachable books (in which the 64-bit counters have room, C72), all batches and rearrangements, all pairs of claims of different orders", "why_tests_cant": "It ranges over all histories, all lists of orders and all their permutations; the claims share ticks, sumtree roots and sync state, so independence is not visible from any single run.", "anchors": ["contracts/sumtree-orderbook/src/order.rs: batch_claim_limits, claim_limit, claim_order", "contracts/sumtree-orderbook/src/tick.rs: sync_tick", "contracts/sumtree-orderbook/src/sumtree/tree.rs: get_or_init_root_node"]}
{"id": "C66", "title": "Deleting from the sumtree", "statement": "Deleting a leaf of a stored sumtree always succeeds, takes exactly this leaf out and keeps all the others in order; sums, ranges, heights and pointers of the remaining nodes are right again, emptied inner nodes are removed, and nothing else in storage changes (other trees, other ticks, roots, id counters). Deleting an inner node takes out all leaves below it. Limitation: the tree may be left with a node that has only a right child, and then insertions at this node (hence cancellations, at the root) fail.", "quantifier": "all stored trees (balanced or not, inner nodes with one or two children), all their nodes; in particular the trees of all reachable books", "why_tests_cant": "The recursion goes to the root through pointers in storage; tests delete from a few small trees only.", "anchors": ["contracts/sumtree-orderbook/src/sumtree/node.rs: TreeNode::delete, TreeNode::sync_range_and_value_up, TreeNode::sync_range_and_value, TreeNode::insert"]}
{"id": "C67", "title": "The contract is the reference exchange", "statement": "The contract behaves exactly like a simple reference exchange (FIFO queues per price level, exact rational prices, a checklist of conditions per message; no accumulators, trees, synchronization or overflow): fed with the same history of messages, swaps, deposits and transfers, both give the same answer - the same response with the same transfers and events, or the same error - to every operation, and end with the same balances of all accounts, configuration, best-tick pointers, live orders and liquidity at every tick.", "quantifier": "all instantiations, all histories, of any length, of operations of any kind by anyone, including failing ones, that leave room in the 64-bit counters (C72)", "why_tests_cant": "It is a simulation between two unbounded state machines; any lost update, rounding drift or missed check in any reachable state breaks it.", "anchors": ["contracts/sumtree-orderbook/src/contract.rs: instantiate, execute, sudo, migrate, reply", "contracts/sumtree-orderbook/src/order.rs", "contracts/sumtree-orderbook/src/sudo.rs", "contracts/sumtree-orderbook/src/auth.rs", "contracts/sumtree-orderbook/src/tick.rs: sync_tick"]}
{"id": "C68", "title": "Every query is answered by the reference exchange", "statement": "After any history, every query to the contract - spot price, quotes, pool liquidity, ticks, orders by owner or tick with bounds and limits, orderbook state, denoms, fees, unrealized cancels, roles - gets exactly the answer that the reference exchange of C67 computes from its queues, pointers and configuration (for the accumulators shown by tick queries: from the queues and two bookkeeping numbers per tick side that only claims and cancels move); where the reference has none, the query fails.", "quantifier": "all instantiations, all histories that leave room in the 64-bit counters (C72), all query messages with all arguments (amounts below 2^128)", "why_tests_cant": "Equality of two functions over all reachable states and all query arguments; tests compare a few stored values.", "anchors": ["contracts/sumtree-orderbook/src/contract.rs: query", "contracts/sumtree-orderbook/src/query.rs", "contracts/sumtree-orderbook/src/state.rs: get_orders_by_owner", "contracts/sumtree-orderbook/src/auth.rs: query", "contracts/sumtree-orderbook/src/tick.rs: sync_tick"]}
{"id": "C69", "title": "Storage keys never collide and sort numerically", "statement": "No two storage cells of the contract - configuration items, tick states, per-side liquidity, orders, owner and tick-and-owner index entries, tree nodes, tree roots, node counters, cw2 record - are ever stored under the same byte key, whatever the ticks, ids and addresses; and the byte order of the keys of ticks, orders and index entries is the numeric order of tick and order id, negative ticks included.", "quantifier": "all pairs of cells: all i64 ticks, all u64 ids, all addresses shorter than 2^16 bytes", "why_tests_cant": "Injectivity and order preservation of an encoding over 2^64 x 2^64 keys and unbounded address strings.", "anchors": ["contracts/sumtree-orderbook/src/state.rs: ORDER_ID, ORDERBOOK, TICK_STATE, DIRECTIONAL_LIQUIDITY, orders, OrderIndexes", "contracts/sumtree-orderbook/src/auth.rs: ADMIN, ADMIN_OFFER, MODERATOR, MODERATOR_OFFER", "contracts/sumtree-orderbook/src/sumtree/node.rs: NODES, NODE_ID_COUNTER", "contracts/sumtree-orderbook/src/sumtree/tree.rs: TREE"]}
{"id": "C70", "title": "Byte-level storage answers as the typed state", "statement": "After any history there is exactly one raw key-value storage that holds the contract's state, and iterating it in byte order under the library's prefixes and inclusive bounds gives exactly the listed answers: all ticks between two bounds, the tick sequence walked by a market order (ascending and descending) with the stored tick states, the orders of a tick, and the orders of an owner (optionally at a tick) through the indexes, with the same paging and counts. No entry of another prefix leaks in and none is missed, even for prefixes whose upper bound carries.", "quantifier": "all instantiations, all histories (any length) whose senders are shorter than 2^16 bytes and block times are u64, all filters, bounds and limits", "why_tests_cant": "Ranges over all reachable storages and all bounds; leaks between prefixes show only for particular byte patterns.", "anchors": ["contracts/sumtree-orderbook/src/state.rs: get_orders_by_owner, orders", "contracts/sumtree-orderbook/src/query.rs: all_ticks, orders_by_owner, orders_by_tick", "contracts/sumtree-orderbook/src/order.rs: run_market_order_internal"]}
{"id": "C71", "title": "Every write keeps state and indexes in step", "statement": "Every transaction changes the raw storage by a sequence of key-value writes, all with keys and values within their Rust types, such that afterwards every cell read gives the typed state's content and both order indexes list exactly the stored orders under their owner and tick, with nothing else left in the storage; saving or removing an order also removes the index entries of the previous version.", "quantifier": "all reachable states, all operations, all raw storages holding the state", "why_tests_cant": "An invariant over every write of every history: a stale or missing index entry may show only much later.", "anchors": ["contracts/sumtree-orderbook/src/state.rs: orders, OrderIndexes", "contracts/sumtree-orderbook/src/order.rs: place_limit, cancel_limit, claim_order, run_market_order", "contracts/sumtree-orderbook/src/tick.rs: sync_tick", "contracts/sumtree-orderbook/src/sumtree/node.rs: save, insert, split, rotate_left, rotate_right"]}
{"id": "C72", "title": "The 64-bit counters last", "statement": "The order-id counter is moved by accepted placements only, by one each. The counter numbering the nodes of a tick's cancellation trees never decreases and is moved only by accepted claims and cancels naming that tick, by at most four per order named: swaps, rejected messages, administration and traffic on other ticks use nothing up. So the counters keep room (order id below 10^17, node counters below 10^19) as long as fewer than 10^17 orders are placed and each tick is named fewer than 2.5*10^18 times - in particular for any history of fewer than 10^16 operations; and a history that ends with room had room all along.", "quantifier": "all reachable states, all histories of any length and kind", "why_tests_cant": "Counter exhaustion needs 10^16 and more operations; the bound on what consumes ids must hold for every operation.", "anchors": ["contracts/sumtree-orderbook/src/state.rs: new_order_id", "contracts/sumtree-orderbook/src/sumtree/node.rs: generate_node_id, NODE_ID_COUNTER", "contracts/sumtree-orderbook/src/sumtree/tree.rs: get_or_init_root_node", "contracts/sumtree-orderbook/src/tick.rs: sync_tick"]}
{"id": "C73", "title": "A bank that refuses transfers only rejects", "statement": "If the bank refuses some transfers for reasons of its own (blocked accounts, send hooks), an operation is accepted exactly when it would be accepted otherwise and neither the payment that comes with it nor any transfer of its response is refused, and then with the very same result; otherwise nothing changes, and the first refused transfer of the response determines the error. So histories with refusals, chosen arbitrarily at every operation, reach only worlds reachable without: solvency, liquidity and priority properties hold in them.", "quantifier": "all refusal predicates, different at every operation; all worlds, operations and histories", "why_tests_cant": "Ranges over arbitrary bank policies and their changes during arbitrary histories; the tests never let a submessage fail after a handler succeeded.", "anchors": ["contracts/sumtree-orderbook/src/contract.rs: reply", "contracts/sumtree-orderbook/src/types/reply_id.rs: REPLY_ID_REFUND, REPLY_ID_CLAIM, REPLY_ID_CLAIM_BOUNTY, REPLY_ID_MAKER_FEE, REPLY_ID_SUDO_SWAP_EXACT_IN", "contracts/sumtree-orderbook/src/order.rs: cancel_limit, claim_order", "contracts/sumtree-orderbook/src/sudo.rs: dispatch_swap_exact_amount_in"]}
{"id": "C74", "title": "Only the parties of an operation can block it", "statement": "Whether an operation is accepted, and its result or error, depends only on what the bank refuses between the contract and the operation's parties: its sender, and for claims the owners of the orders named and the fee recipient. No maker who cannot receive funds can block a placement, a cancel or a swap. A claim is accepted exactly when its order has an unclaimed fill and each of its shares may pass; a fee recipient who cannot receive the output denom blocks every claim that owes a fee, until the fee is zero (documented limitation).", "quantifier": "all reachable books, all refusal predicates, all operations", "why_tests_cant": "Non-interference: ranges over pairs of bank policies and all states and operations.", "anchors": ["contracts/sumtree-orderbook/src/contract.rs: reply", "contracts/sumtree-orderbook/src/order.rs: claim_order, batch_claim_limits, cancel_limit", "contracts/sumtree-orderbook/src/sudo.rs: dispatch_swap_exact_amount_in"]}
{"id": "C75", "title": "The published texts are a complete record", "statement": "A client that reads only what the chain publishes of accepted transactions, the attributes and events as strings (names, addresses, digits, 'bid'/'ask', 'true'/'false', decimals), from instantiation on, knows at every moment exactly the live orders (owner, direction, placed and unclaimed quantity under tick and id) and the configuration (admin, moderator, offers, activity, fee, recipient) that the queries report.", "quantifier": "all histories of operations from instantiation, all ticks, ids, amounts, fees", "why_tests_cant": "Ranges over all histories and all numbers that get formatted; tests look at single attributes of single responses.", "anchors": ["contracts/sumtree-orderbook/src/order.rs: place_limit, cancel_limit, claim_limit, batch_claim_limits, generate_claimed_order_event", "contracts/sumtree-orderbook/src/auth.rs: dispatch_*", "contracts/sumtree-orderbook/src/sudo.rs: sudo, dispatch_swap_exact_amount_in, set_active", "contracts/sumtree-orderbook/src/types/order.rs: Display for OrderDirection"]}
{"id": "C76", "title": "Numbers survive their text forms", "statement": "Amounts, ticks and decimals of any size are written as texts that denote exactly them and that no other number shares; reading an amount or spot price back as a 128-bit number (as the quote and spot price queries do) keeps it or fails when it does not fit. The text of an accepted swap names sender, token paid, minimum and output; the output is that of the response data and the amount sent. The price constants written as texts in the code are the prices of the lowest and highest tick.", "quantifier": "all natural numbers, integers and 18-digit decimals; all reachable books and accepted swaps", "why_tests_cant": "Formatting and parsing (padding, trimming, overflow) have boundary cases at every length; tests try a few literals.", "anchors": ["contracts/sumtree-orderbook/src/types/coin.rs: From<Coin256> for Coin, From<Coin256> for ProtoCoin", "contracts/sumtree-orderbook/src/query.rs: spot_price, calc_out_amount_given_in", "contracts/sumtree-orderbook/src/sudo.rs: dispatch_swap_exact_amount_in", "contracts/sumtree-orderbook/src/constants.rs: max_spot_price, min_spot_price"]}
{"id": "C77", "title": "Block times decide nothing", "statement": "Two histories from the same instantiation that differ only in the block times of their operations get the same answer (response or error) to every operation, end with the same balances of all accounts and the same configuration, and answer every query the same, except for the date shown with an order.", "quantifier": "all pairs of histories that agree up to block times, all queries", "why_tests_cant": "A statement about pairs of arbitrary histories: no finite set of tests shows that no decision anywhere reads the clock.", "anchors": ["contracts/sumtree-orderbook/src/order.rs: place_limit, LimitOrder::new", "contracts/sumtree-orderbook/src/contract.rs: execute, query", "contracts/sumtree-orderbook/src/sudo.rs: sudo"]}
{"id": "C78", "title": "Names do not matter", "statement": "Rename all accounts and denoms one to one (leaving the contract itself and the three hard-coded accounts), set up the book for the renamed pair with the renamed balances and send the renamed history: every operation gets the renamed answer, balances and configuration end up renamed and every renamed query gets the renamed answer. No account and no denom is treated specially.", "quantifier": "all renamings of accounts and denoms, all histories, all queries", "why_tests_cant": "Ranges over all renamings and all histories; a hidden special case for one address or denom is not found by trying a few.", "anchors": ["contracts/sumtree-orderbook/src/contract.rs: instantiate, execute, query", "contracts/sumtree-orderbook/src/auth.rs", "contracts/sumtree-orderbook/src/order.rs", "contracts/sumtree-orderbook/src/orderbook.rs: direction_from_pair, get_expected_denom"]}
{"id": "C79", "title": "A trader needs to know the price levels only", "statement": "If two books, reached by any two histories, show the same pair, best ticks, activity and liquidity per tick, and some traders own the same in both, then any sequence of swaps of these traders gets the same answers (output, refund, event, error) in both and leaves books that again look the same. Whose orders stand behind a level, how many, and what was filled, cancelled, claimed or synced before has no influence.", "quantifier": "all pairs of reachable states with the same visible depth, all sequences of swap requests", "why_tests_cant": "Quantifies over pairs of histories that lead to the same depth by different orders, cancels and claims.", "anchors": ["contracts/sumtree-orderbook/src/order.rs: run_market_order_internal, run_market_order", "contracts/sumtree-orderbook/src/sudo.rs: dispatch_swap_exact_amount_in", "contracts/sumtree-orderbook/src/tick.rs", "contracts/sumtree-orderbook/src/types/tick.rs"]}
{"id": "C80", "title": "What lies behind an untouched level does not matter", "statement": "If a swap is accepted and leaves alone some price level that has liquidity, then in any other reachable book that agrees with this one on that level and on all better prices, the same swap is accepted with the same response, takes the same from every level, and in both books nothing behind that level changes. Orders at worse prices than those a swap uses cannot influence it.", "quantifier": "all pairs of reachable states that agree down to a level, all swap requests accepted without touching that level", "why_tests_cant": "Quantifies over everything that may stand behind the level and over the histories that put it there.", "anchors": ["contracts/sumtree-orderbook/src/order.rs: run_market_order_internal, run_market_order", "contracts/sumtree-orderbook/src/sudo.rs: dispatch_swap_exact_amount_in"]}
{"id": "C81", "title": "Messages survive the wire", "statement": "Every message a client can build (execute, chain call, query, instantiate) is read by the contract from its JSON text as exactly that message; whatever text is accepted yields numbers within their Rust types; the order of the fields does not matter, and no field is ignored: an accepted text has no field twice and none that the message's type does not have.", "quantifier": "all messages with values of their Rust types, all strings in them, all texts, all permutations of fields", "why_tests_cant": "Ranges over all texts and all strings (quotes, control characters, any length) and all numbers up to 2^256.", "anchors": ["contracts/sumtree-orderbook/src/msg.rs: ExecuteMsg, SudoMsg, QueryMsg, InstantiateMsg, AuthExecuteMsg, AuthQueryMsg", "contracts/sumtree-orderbook/src/contract.rs: instantiate, execute, query", "contracts/sumtree-orderbook/src/sudo.rs: sudo", "contracts/sumtree-orderbook/src/types/order.rs: OrderDirection"]}
{"id": "C82", "title": "Stored values survive storage", "statement": "After any history every value in the contract's storage decodes, from its JSON text and by the type its cell is declared with, to exactly the value that was saved: no number ever outgrows its type. The storage, seen as byte keys with texts, holds the state and nothing else, and the texts determine the state.", "quantifier": "all instantiations, all histories (any length) with senders shorter than 2^16 bytes and u64 block times, all storage cells", "why_tests_cant": "An invariant over every write of every history: a value that outgrows its type shows only after particular histories.", "anchors": ["contracts/sumtree-orderbook/src/state.rs: ORDERBOOK, orders, TICK_STATE, DIRECTIONAL_LIQUIDITY, MAKER_FEE", "contracts/sumtree-orderbook/src/auth.rs: ADMIN, MODERATOR", "contracts/sumtree-orderbook/src/sumtree/node.rs: NODES, TreeNode, NodeType", "contracts/sumtree-orderbook/src/sumtree/tree.rs: TREE", "contracts/sumtree-orderbook/src/types/order.rs: LimitOrder", "contracts/sumtree-orderbook/src/types/tick.rs: TickState, TickValues", "contracts/sumtree-orderbook/src/types/orderbook.rs: Orderbook"]}
{"id": "C83", "title": "Answers survive the wire", "statement": "After any history, a client that sends a query as text and decodes the answer by the type declared for the query gets exactly what the contract computed, whenever the contract computes an answer. The exception is get_maker_fee, whose answer is a bare decimal and never decodes as its declared type. The data of a successful swap decodes to the amount paid out.", "quantifier": "all instantiations, all histories (any length) with senders shorter than 2^16 bytes and u64 block times, all queries, all swaps", "why_tests_cant": "Ranges over all reachable states, in particular over all sizes of numbers and lists in the answers.", "anchors": ["contracts/sumtree-orderbook/src/contract.rs: query", "contracts/sumtree-orderbook/src/msg.rs: QueryMsg, OrdersResponse, TicksResponse, MakerFee, SwapExactAmountInResponseData", "contracts/sumtree-orderbook/src/query.rs", "contracts/sumtree-orderbook/src/state.rs: get_maker_fee", "contracts/sumtree-orderbook/src/sudo.rs: dispatch_swap_exact_amount_in"]}
{"id": "C84", "title": "Published texts carry the whole response", "statement": "The texts a transaction publishes lose and blur nothing: the attributes are exactly the documented ones of the method, in order, custom events appear for claims only, and an indexer that reads nothing but the texts recovers every sender, owner, tick, id, side, amount, denom and configuration value, so the published history of any run reads as the answers of the simple reference book.", "quantifier": "all instantiations with denoms not beginning with a digit, all histories (any length), all messages", "why_tests_cant": "Ranges over all amounts, ids, ticks and histories; a test compares particular strings.", "anchors": ["contracts/sumtree-orderbook/src/order.rs: place_limit, cancel_limit, claim_limit, batch_claim_limits, generate_claimed_order_event, claim_order", "contracts/sumtree-orderbook/src/sudo.rs: dispatch_swap_exact_amount_in, set_active", "contracts/sumtree-orderbook/src/auth.rs: dispatch, sudo_transfer_admin, sudo_remove_admin", "contracts/sumtree-orderbook/src/contract.rs: execute"]}
{"id": "C85", "title": "The accounts of an order close over its whole life", "statement": "At any time in any history, for any order ever placed: what was refunded, what is still unclaimed on the book and what was sold make up the placed quantity, a refund leaves nothing on the book, and for what was sold the owner has been sent, over all claims by anybody and under all changes of the maker fee, at most its exact value at the tick price and at least 94% of it less one unit per claim.", "quantifier": "all instantiations, all histories (any length), all orders placed in them", "why_tests_cant": "A sum over an unbounded number of claims, fills and fee changes interleaved with everything else in the book.", "anchors": ["contracts/sumtree-orderbook/src/order.rs: place_limit, claim_limit, claim_order, cancel_limit, batch_claim_limits, generate_claimed_order_event", "contracts/sumtree-orderbook/src/tick_math.rs: amount_to_value", "contracts/sumtree-orderbook/src/auth.rs: dispatch_set_maker_fee"]}
{"id": "C86", "title": "Independent operations can be exchanged", "statement": "Take two operations that the contract would both accept now, that are not paid from the same balance, and that concern different things: cancels or claims of different orders; a new order and cancels or claims of others; a swap and cancels or claims of orders of the side it does not take from, or a new order on that side; swaps in opposite directions; a transfer between accounts and anything; a change of roles and any trading; a change of the maker fee and any trading but claims. In either order both are accepted, each with the response it gives alone, and the two orders lead to the same balances, configuration, live orders, liquidity and best-tick pointers, and to the same answers and balances ever after.", "quantifier": "all instantiations, all histories before (any length below 10^16), all pairs of such operations with all parameters, all histories after", "why_tests_cant": "A statement about two executions, over all states and all futures; a validator may order a block's transactions either way.", "anchors": ["contracts/sumtree-orderbook/src/contract.rs: execute, sudo", "contracts/sumtree-orderbook/src/order.rs: place_limit, cancel_limit, claim_limit, batch_claim_limits, run_market_order", "contracts/sumtree-orderbook/src/sudo.rs: swap_exact_amount_in", "contracts/sumtree-orderbook/src/auth.rs: dispatch", "contracts/sumtree-orderbook/src/tick.rs: sync_tick"]}
{"id": "C87", "title": "An exact account of the contract's surplus", "statement": "Call surplus what the contract holds of a denom beyond the unfilled rests of the orders that deposit it and the exact (unrounded) value of the fills not yet claimed from orders of the other side. An accepted operation changes the surplus only by its gain - funds attached to a configuration message; gifts; maker fees if the contract is its own fee recipient; what a swap pays beyond the exact value of what it takes - and by a fraction of at most one unit, never negative, per claim. Hence after any history the surplus lies between the initial balance plus the gains so far and that plus the number of claims so far; once no order is left it is the contract's whole balance. A swap's gain is its dust, which buys less than one unit at every level left within its bound, plus per level taken a rounding fraction: at most one unit, at least -10^-18 unit, and not negative for asks or prices up to 10^18.", "quantifier": "all instantiations, all histories, both denoms; for the step: every state reached and every accepted operation", "why_tests_cant": "An accounting identity over unbounded histories of placements, fills, claims, cancels and swaps with rational roundings.", "anchors": ["contracts/sumtree-orderbook/src/order.rs: place_limit, cancel_limit, claim_order, run_market_order", "contracts/sumtree-orderbook/src/sudo.rs: swap_exact_amount_in", "contracts/sumtree-orderbook/src/tick_math.rs: amount_to_value, divide_by_price, multiply_by_price"]}
{"id": "C88", "title": "The progress of an order can be read off public queries", "statement": "A front end takes an order from an order query, the ETAS of its side from the tick query and the unrealized cancels of its side from their query, and computes min(quantity, (ETAS + unrealized cancels - order.etas) / 10^18). In every reachable state all three queries answer, and this number is exactly the part of the order that first-in-first-out matching has filled and that has not been claimed. A claim by anyone is accepted iff it is positive, the owner's cancel iff it is zero; an accepted claim pays its value at the tick price and leaves the rest. The distance of the order's mark ahead of the reading is never less than what is still open before the order, and nothing is open before it once the number is positive. Nothing later moves the order back: the orders before it stay the same and what is open before it never grows; a swap fills it by exactly what it takes from the level beyond what was open before it, up to what it lacks.", "quantifier": "all reachable states, all orders shown by any order query, all later histories, all swaps", "why_tests_cant": "The reading combines three answers whose parts depend on all placements, cancels, syncs and fills of the level's history.", "anchors": ["contracts/sumtree-orderbook/src/query.rs: orders_by_owner, orders_by_tick, ticks_by_id, ticks_unrealized_cancels_by_id", "contracts/sumtree-orderbook/src/order.rs: claim_order, cancel_limit, place_limit", "contracts/sumtree-orderbook/src/tick.rs: sync_tick"]}
{"id": "C89", "title": "Messages touch few storage cells", "statement": "An operation touches a set of storage cells if, whatever the other cells contain, it gives the same error or the same response, transfers and final contents of the set, and writes no other cell. In every reachable state a placement touches at most 8 cells; a claim at most 28 + 8 log2 c, where c is the number of orders ever cancelled on its tick; a batch of claims at most 4, and 24 + 8 log2 c for each item; a cancel (while the counters have room) at most 83 + 100 log2 c; a swap touches no order, index entry, tree node, root, counter or configuration cell, only the switch, the pointers, the two totals and the price levels. a message of the administration touches at most 3 cells, all of roles, switch and fee; governance calls other than swaps touch the switch and the admin only; migrations, transfers and mints touch none. So the storage work of users does not grow with the number of orders, owners, levels or placements, and only logarithmically with the cancellations on the level.", "quantifier": "all reachable states, all messages and senders, accepted and rejected, all contents of the other cells", "why_tests_cant": "It is a statement about all possible contents of untouched cells and an asymptotic bound over unbounded histories.", "anchors": ["contracts/sumtree-orderbook/src/order.rs: place_limit, cancel_limit, claim_order, batch_claim_limits, run_market_order", "contracts/sumtree-orderbook/src/sumtree/node.rs: insert, rebalance, rotate_left, rotate_right, split", "contracts/sumtree-orderbook/src/sumtree/tree.rs: get_or_init_root_node, prefix_sum_walk", "contracts/sumtree-orderbook/src/tick.rs: sync_tick", "contracts/sumtree-orderbook/src/auth.rs: dispatch", "contracts/sumtree-orderbook/src/sudo.rs: sudo"]}
{"id": "C90", "title": "The contract understands exactly the published messages", "statement": "A text is accepted as an execute, sudo, query or instantiate message exactly if it is a JSON text (RFC 8259: whitespace between tokens, strings with all escapes and surrogate pairs, numbers without leading zeros; at most 128 values within each other; no fractions or exponents) of the published form of a message: an object with only the name of the message, whose fields are exactly those of the message, each at most once and in any order, with the published types and ranges; optional fields may be left out or null. No text has two readings. The one liberty: raw control characters in strings are tolerated.", "quantifier": "all texts and all messages", "why_tests_cant": "The texts are infinitely many, and the claim has both directions: nothing else is accepted and nothing published is refused.", "anchors": ["contracts/sumtree-orderbook/src/msg.rs: InstantiateMsg, ExecuteMsg, SudoMsg, QueryMsg, AuthExecuteMsg, AuthQueryMsg", "contracts/sumtree-orderbook/src/contract.rs: instantiate, execute, query, sudo", "contracts/sumtree-orderbook/src/types/order.rs: OrderDirection"]}
{"id": "C91", "title": "Storage, answers and swap data have the published forms", "statement": "After every history the content of every storage cell is a JSON text of the published form of the cell's value (field names, decimals and integers in strings where published). A text is answered exactly if it is a JSON text of a query the contract can answer in that state, and then the answer is a JSON text of the form published for that query, of what the contract computes; the maker fee comes bare. The data of an accepted swap is a JSON text of the form published for swaps, of the amount the swap pays out.", "quantifier": "all histories, cells, query texts and swaps", "why_tests_cant": "It must hold for every value that any history can store or answer.", "anchors": ["contracts/sumtree-orderbook/src/state.rs", "contracts/sumtree-orderbook/src/auth.rs", "contracts/sumtree-orderbook/src/query.rs", "contracts/sumtree-orderbook/src/msg.rs: response types", "contracts/sumtree-orderbook/src/types/order.rs", "contracts/sumtree-orderbook/src/types/tick.rs", "contracts/sumtree-orderbook/src/types/orderbook.rs", "contracts/sumtree-orderbook/src/sumtree/node.rs: TreeNode, NodeType", "contracts/sumtree-orderbook/src/sumtree/tree.rs", "contracts/sumtree-orderbook/src/msg.rs: SwapExactAmountInResponseData"]}
{"id": "C92", "title": "A rejection says why", "statement": "The text of every rejected placement, cancellation, claim, batch claim, swap, configuration message and instantiation is the published wording for the first condition that fails, with the data of this request: the tick, the quantity, the funds sent and required, the denoms, the order, the bounty, the fee and, for a swap that yields too little, the minimum asked for and the output it would have got. Reasons of different kinds never have the same text. (Where the chain, the bank or a library refuses, the contract has no text of its own.)", "quantifier": "all reachable states of the book, all senders, funds and messages", "why_tests_cant": "The order of the conditions and the data in the text must be right for every combination of failing conditions and every value.", "anchors": ["contracts/sumtree-orderbook/src/error.rs: ContractError", "contracts/sumtree-orderbook/src/order.rs", "contracts/sumtree-orderbook/src/sudo.rs", "contracts/sumtree-orderbook/src/auth.rs", "contracts/sumtree-orderbook/src/types/orderbook.rs: direction_from_pair", "contracts/sumtree-orderbook/src/contract.rs: instantiate"]}
{"id": "C93", "title": "The storage stays small", "statement": "After every history the contract's storage holds at most eleven single records, four records per price level ever used, three per order on the book (the order and its two index entries), and the nodes that remember cancelled orders: for a side of a price level with c cancelled orders exactly none (c = 0), two (c = 1) or 2c - 1. Hence at most 11 + 7 P records after P accepted placements, however many swaps, claims, cancels, rejected messages and administration there were, and the chain's key-value storage has at most one entry more (cw2's). Orders that are gone leave no record and no index entry; insertions and rotations leave no node behind.", "quantifier": "all histories; all price levels and sides; all lists of occupied storage records", "why_tests_cant": "A leak of one record per operation would only show in unbounded histories, and only for the operation, tree shape or rotation that leaks.", "anchors": ["contracts/sumtree-orderbook/src/state.rs", "contracts/sumtree-orderbook/src/order.rs", "contracts/sumtree-orderbook/src/sumtree/node.rs: insert", "contracts/sumtree-orderbook/src/sumtree/tree.rs", "contracts/sumtree-orderbook/src/tick.rs: sync_tick"]}
{"id": "C94", "title": "Which price levels a swap looks at", "statement": "An accepted swap reads and writes no storage other than the switch, the record of prices and denoms, the total of the side it takes from, and the price levels from the best-price pointer on, within reach of the request, that are not behind a level with liquidity which it leaves alone. Conversely every level from the pointer to the last one it takes from matters, empty or not. Levels never disappear: whoever owns one unit can, with two messages per level and at no cost but gas, leave any number of empty levels that change no balance, order or liquidity, but that the next swap has to pass.", "quantifier": "all reachable states; all accepted swaps; all contents of the other storage cells; all lists of levels", "why_tests_cant": "It speaks about all contents the cells that are not looked at could have, and about unboundedly many levels.", "anchors": ["contracts/sumtree-orderbook/src/order.rs: run_market_order_internal", "contracts/sumtree-orderbook/src/sudo.rs: dispatch_swap_exact_amount_in", "contracts/sumtree-orderbook/src/state.rs: TICK_STATE"]}
{"id": "C95", "title": "No money machine", "statement": "Take any price such that no bid on the book is above it and no ask below it, and that nobody bids above or asks below later on. Then accounts that only swap - any number of them, as often as they like, between any operations of anybody else (placements, cancels, claims, other swaps, configuration), and passing coins among themselves - never hold together more than before, counting base at that price. In particular no sandwich of swaps around other people's operations yields a profit. (For a price above 10^18 they must not use swap_to_tick; without these conditions there are counterexamples.)", "quantifier": "all reachable books, all such prices, all sets of accounts, all histories of any length", "why_tests_cant": "The claim is about all sequences of swaps interleaved with all operations of others; a rounding error that favours the taker by one unit in some state would make a money machine, and no test finds it by sampling.", "anchors": ["contracts/sumtree-orderbook/src/order.rs: run_market_order, run_market_order_internal, place_limit", "contracts/sumtree-orderbook/src/sudo.rs: dispatch_swap_exact_amount_in", "contracts/sumtree-orderbook/src/tick_math.rs: amount_to_value"]}
{"id": "C96", "title": "No exploit: what a coalition can gain", "statement": "Take any set of accounts and any price, and count what the accounts own: their balances, what is left of the deposits of their orders, and the unclaimed fills of their orders at the orders' prices, with base counted at the given price. Suppose that the other accounts do not bid above or ask below that price, neither with the orders they have nor with new ones. Then whatever the accounts do - place orders anywhere (also across the spread), cancel, claim, swap (also against their own orders), pass coins on - mixed in any way with operations of others, what they own never grows by more than what the others' own swaps give away; if the others do not swap it never grows. In particular their balances in the end are covered by what they owned at first and by what those swaps gave away. (Conditions: others give them no coins, they take no share - bounty or maker fee - in claims of the others' orders, and nobody bids above a price of 10^18.)", "quantifier": "all reachable books, all sets of accounts, all valid prices, all histories of any length with any interleaving", "why_tests_cant": "It excludes every attack by any combination of operations; a single state in which some sequence of place, cancel, claim and swap leaks one unit would be a counterexample, and the sequences cannot be enumerated.", "anchors": ["contracts/sumtree-orderbook/src/order.rs: place_limit, cancel_limit, claim_limit, batch_claim_limits, run_market_order", "contracts/sumtree-orderbook/src/sudo.rs: dispatch_swap_exact_amount_in", "contracts/sumtree-orderbook/src/sumtree/*.rs", "contracts/sumtree-orderbook/src/tick_math.rs: amount_to_value"]}
{"id": "C97", "title": "Others cannot hurt a maker", "statement": "Take any set of accounts and any price, and count what they own as in C96 (balances, what is left of their deposits, their unclaimed fills; base at the given price). If the accounts only place orders that do not bid above or ask below that price, cancel and claim, then at any later time they own as much as before, apart from what claims of their orders cost: 5% maker fee and 1% bounty (together at most 6/94 of what the claim paid to the owner) and less than one unit per claim. This holds whatever all the others do meanwhile: swap, place, cancel, claim the makers' orders, administer or pause the contract. If in the end none of their orders is left, they hold that much in coins.", "quantifier": "all reachable books, all sets of accounts, all valid prices, all histories of any length with any interleaving of the others' operations", "why_tests_cant": "It bounds what any adversary can do with any sequence of operations and any timing, over all book states.", "anchors": ["contracts/sumtree-orderbook/src/order.rs: place_limit, cancel_limit, claim_limit, batch_claim_limits, run_market_order, claim_order", "contracts/sumtree-orderbook/src/sudo.rs: dispatch_swap_exact_amount_in", "contracts/sumtree-orderbook/src/auth.rs: dispatch", "contracts/sumtree-orderbook/src/sumtree/*.rs"]}
{"id": "C98", "title": "Everyone can leave alone", "statement": "Whatever the history, on an active book any accounts can take all their orders out without anybody's help: if they claim and then cancel each of their live orders, in any order, then exactly their orders are gone, every other order is stored unchanged, each of them has been paid at least the unfilled deposits and the value of the unclaimed fills minus the maker fee, and nobody has lost anything. Together with C97: accounts that have only placed orders around some price, cancelled and claimed can at any time turn what they own into coins of that value, apart from what the claims cost.", "quantifier": "all reachable active books (with counters not exhausted), all sets of accounts, all orders of leaving", "why_tests_cant": "That no state of the book locks somebody's coins in, and that leaving never disturbs other orders, ranges over all histories.", "anchors": ["contracts/sumtree-orderbook/src/order.rs: cancel_limit, claim_limit, claim_order", "contracts/sumtree-orderbook/src/sumtree/tree.rs: get_prefix_sum", "contracts/sumtree-orderbook/src/tick.rs: sync_tick"]}
{"id": "C99", "title": "Calls in the middle of calls are harmless", "statement": "Suppose that transfers can run foreign code (send hooks of token-factory coins), so that in the middle of a call - before its payment has arrived completely, between its payouts, and to any depth - anybody may call or query the contract. Then every call, outer and nested, gets exactly the response, and every query exactly the answer, that it would get if the same calls were made one after the other without interruption, in the order in which their handlers ran, and the final state and all balances are the same too. So there is no re-entrancy attack, not even on what others read from the contract meanwhile, and everything said about uninterrupted calls holds for the result. The same holds for transactions of several messages.", "quantifier": "all reachable states, all nestings of calls, queries and transfers of any depth and length (fewer than 10^18 orders)", "why_tests_cant": "Interruptions can happen at every transfer, with every call, recursively; the tests' bank never calls back.", "anchors": ["contracts/sumtree-orderbook/src/contract.rs: execute, sudo, query, reply", "contracts/sumtree-orderbook/src/sudo.rs: dispatch_swap_exact_amount_in", "contracts/sumtree-orderbook/src/order.rs: place_limit, cancel_limit, claim_limit, batch_claim_limits", "contracts/sumtree-orderbook/src/types/coin.rs: Coin256"]}
{"id": "C100", "title": "A query is refused only for a reason, and says which", "statement": "In every reachable state each query is refused exactly if a condition of its checklist fails, with the error and the wording of the first that fails: a price query needs the book's pair; a quote needs a zero fee, the book's pair, a positive input, an engine run without a zero step or an amount beyond 128 bits, nothing worth a unit left over, and an output below 2^128; tick queries need ticks that have been used, and name the first that has not; the pool query needs both sides below 2^128; calc_in_amt_given_out is never answered. All other queries are always answered.", "quantifier": "all reachable states, all queries with all parameters", "why_tests_cant": "It excludes any other failure (overflow, panic, missing record) in all states and for all parameters.", "anchors": ["contracts/sumtree-orderbook/src/contract.rs: query", "contracts/sumtree-orderbook/src/query.rs: spot_price, calc_out_amount_given_in, total_pool_liquidity, ticks_by_id, ticks_unrealized_cancels_by_id", "contracts/sumtree-orderbook/src/order.rs: run_market_order_internal", "contracts/sumtree-orderbook/src/error.rs: ContractError"]}
{"id": "C101", "title": "The contract on the wire is the reference exchange", "statement": "Instantiate the contract by a text and send its entry points any texts - execute messages with any sender and funds, sudo messages, queries - mixed with migrations, transfers and new coins. Every reply is right, text for text: a text that is not a JSON text of the published form of some message is refused and changes nothing; otherwise the reference exchange (FIFO queues, exact prices, checklists) is asked the same thing, and the contract's reply is a response whose attributes and events (published names) read back as the exchange's, with the same transfers and swap data in JSON, or a refusal worded as the exchange's reason, or a JSON text of the exchange's answer. At the end all balances are the exchange's. A session has one outcome only. A text instantiates the contract exactly if it is of the published form for two different denoms with a supply.", "quantifier": "all sessions: finite sequences of calls with arbitrary texts, senders, funds, times (that leave room, C72)", "why_tests_cant": "Tests send structured messages and look at structured results; the claim is about all texts and all histories, end to end.", "anchors": ["contracts/sumtree-orderbook/src/contract.rs: instantiate, migrate, execute, query, sudo", "contracts/sumtree-orderbook/src/msg.rs: ExecuteMsg, SudoMsg, QueryMsg, InstantiateMsg, SwapExactAmountInResponseData", "contracts/sumtree-orderbook/src/error.rs: ContractError", "contracts/sumtree-orderbook/src/types/reply_id.rs"]}
{"id": "C102", "title": "What the queries show decides the future", "statement": "Take two order books with whatever histories, of which the queries show the same: the book state, the switch, the fee, the roles, all ticks, and the live orders of each tick. Then they answer every other query alike too (quotes, spot prices, pool liquidity, unrealized cancels, every page of every listing). If they also agree on the next order id, on the recipient of the maker fee and on the balances, then every operation of every future history is answered alike - the same errors, events, transfers and data -, and balances and all queries agree in the end. So nothing else that is stored (the trees of cancelled orders, their node counters, which orders were once placed, how and when they were cancelled or claimed) can ever influence anything, as long as there is room. Neither exception can be dropped: the next order id and the recipient of the fee are shown by no query and change responses.", "quantifier": "all pairs of reachable worlds with the same snapshot, all histories from there, all queries", "why_tests_cant": "It compares two arbitrary histories in all their futures.", "anchors": ["contracts/sumtree-orderbook/src/contract.rs: query", "contracts/sumtree-orderbook/src/query.rs: orders_by_tick, all_ticks, get_unrealized_cancels", "contracts/sumtree-orderbook/src/tick.rs: sync_tick", "contracts/sumtree-orderbook/src/sumtree/tree.rs: get_prefix_sum", "contracts/sumtree-orderbook/src/order.rs: place_limit, cancel_limit, claim_order", "contracts/sumtree-orderbook/src/state.rs"]}
{"id": "C103", "title": "Without new orders a market only gets worse", "statement": "As long as nobody places an order on a side, the liquidity of no tick of that side grows, whatever else happens (swaps, cancels, claims, configuration, failures). So market orders against that side get worse: a later swap of some input pays at most what a swap of the same input, plus one unit for each tick it uses (plus one more if there are bids above price 10^18), would have paid before; and at most what a swap of the same input would have paid, exactly, if that one would not have emptied its first level. The same holds of quotes, with one unit for each listed tick. The slack is needed: the assertion of the project's fuzz tests that the same input never pays more after a swap is false for some books (a crumb at the best price takes a whole unit of input: 1 is paid first, 10 next).", "quantifier": "all reachable books, all histories without a placement on the side, all pairs of accepted swaps against the side (with and without target)", "why_tests_cant": "It compares two swaps over arbitrary histories; the fuzz test that asserts it without slack passes only because its books are friendly.", "anchors": ["contracts/sumtree-orderbook/src/order.rs: run_market_order_internal", "contracts/sumtree-orderbook/src/query.rs: calc_out_amount_given_in", "contracts/sumtree-orderbook/src/tests/e2e/utils.rs: decrementing_market_order_output"]}
{"id": "C104", "title": "The project's test assertions hold after every history", "statement": "What the end-to-end and fuzz tests assert after the operations they run holds on every book, in terms of the queries: on each listed tick and side the amount swapped is at most the total placed, even together with the open liquidity and the unrealized cancels; amount swapped and unrealized cancels add up to the total placed exactly if the side has no liquidity; a side without listed orders has no liquidity; a side with n open orders that are not filled has liquidity of at least n; no tick with bid liquidity is above the best-bid pointer and none with ask liquidity is below the best-ask pointer; the contract holds at least the reported pool liquidity in each denom; and after all owners claim and cancel their orders, in any order, no order is listed and every tick is clean.", "quantifier": "all reachable books; for the clearing all orders of leaving", "why_tests_cant": "The tests check these assertions on a few random histories; it must hold after every one.", "anchors": ["contracts/sumtree-orderbook/src/tests/e2e/utils.rs: tick_invariants, has_liquidity, clean_ticks, no_remaining_orders", "contracts/sumtree-orderbook/src/tests/e2e/cases/test_fuzz.rs: clear_remaining_orders", "contracts/sumtree-orderbook/src/query.rs: all_ticks, get_unrealized_cancels, total_pool_liquidity, orderbook_state"]}
{"id": "C105", "title": "Bytes in, bytes out, bytes in the storage", "statement": "The contract on bytes: whatever byte strings the world sends as messages, a byte string is read as a message exactly if it is the UTF-8 encoding of a JSON text of that message; every other one is refused and changes nothing; answers and swap data are the UTF-8 encodings of the right texts; and the balances afterwards are those of the reference exchange. The chain's storage, bytes under bytes, holds the contract's state after every history in exactly one way: under the key of each cell the UTF-8 encoding of the JSON text of its value, in the published form, and nothing else; loading decodes it; a transaction is a sequence of byte writes and removals that leads to the bytes of the state after it; two contracts with the same bytes are in the same state; and the iterations of the code (ticks, orders of a tick, orders of an owner through the index, in pages) over the bytes give the answers of the typed model.", "quantifier": "all sequences of byte-string messages, all reachable states, all cells and keys, all page bounds", "why_tests_cant": "It ranges over all byte strings and all states; the tests' mock storage uses the libraries' own encoders in both directions, so nothing pins the encoding.", "anchors": ["contracts/sumtree-orderbook/src/contract.rs: instantiate, execute, query", "contracts/sumtree-orderbook/src/sudo.rs: sudo, SwapExactAmountInResponseData", "contracts/sumtree-orderbook/src/state.rs: all items and maps, OrderIndexes, get_orders_by_owner", "contracts/sumtree-orderbook/src/query.rs: all_ticks, orders_by_tick, orders_by_owner"]}
{"id": "C106", "title": "How much a side of the book can take", "statement": "A side of the book can take exactly its capacity: what it costs to buy every level, each rounded up to a unit. A swap that must be filled completely lacks liquidity exactly if its input exceeds the capacity by at least what buys a unit at the worst level (the whole checklist of swap rejections, C50, in these terms); the same threshold separates quotes that are answered from those refused for lack of liquidity; if a swap is refused for lack of liquidity then no larger one on the same pair is accepted; an accepted swap buys everything within its reach exactly if it brings the capacity; and the bound the project's fuzz tests use, `get_max_market_amount` (the levels' worth, each rounded down), is sound - such a swap never lacks liquidity - and at most one unit per level too small.", "quantifier": "all reachable books, all swaps and quotes, both sides, all inputs and targets", "why_tests_cant": "The threshold is a statement about every book: the interplay of per-level rounding, dust and leftover decides the boundary, and the tests (and the fuzz tests' own bound) only sample it.", "anchors": ["contracts/sumtree-orderbook/src/order.rs: run_market_order, run_market_order_internal", "contracts/sumtree-orderbook/src/query.rs: calc_out_amount_given_in", "contracts/sumtree-orderbook/src/tests/e2e/test_env.rs: get_max_market_amount"]}
{"id": "C107", "title": "The administration decides nothing but the split of claims", "statement": "Take two deployments for the same pair, whatever balances accounts hold, and give them the same trades (placements, cancels, claims, swaps) in the same order, but any administration in between - maker fee, fee recipient, admins, moderators, migrations, plain transfers and mints - that keeps the on/off switch in step. As long as nobody lacks the money to pay for a trade, every trade has the same outcome in both: the same rejection, or acceptance with the same response, where for claims the total of each coin paid out, the claim bounties and the events agree but for the owner's amount (only the split between owner and fee recipient differs); and at the end every query about the book - ticks, orders, pools, quotes, prices, tick states, unrealized cancels - has the same answer in both.", "quantifier": "all pairs of histories with the same trades, any administration beside them, any balances, all queries", "why_tests_cant": "A non-interference property over pairs of histories: a test compares at most two runs; that no fee, role, migration or gift leaks into matching, fills, prices or errors must hold for all histories.", "anchors": ["contracts/sumtree-orderbook/src/contract.rs: execute, query, migrate", "contracts/sumtree-orderbook/src/order.rs: claim_limit, claim_order, run_market_order", "contracts/sumtree-orderbook/src/auth.rs", "contracts/sumtree-orderbook/src/sudo.rs"]}
{"id": "C108", "title": "Order ids are mere names and only live orders matter", "statement": "Take two deployments that look the same (pair, best-tick pointers, switch, fee, fee recipient, roles, balances), in which the same ticks were ever used and the same live orders stand in the same sequence, possibly under other ids, with the next ids corresponding. They answer every history alike up to those ids - the same errors, events, transfers and response data -, keep equal balances, answer every query that shows no individual orders or ticks alike, and end with the same live orders. Two consequences: an order placed at a tick used before and not better than the best-tick pointer, and then cancelled, leaves no trace but its id; and two orders accepted one after the other for different queues are accepted the other way round too, and all that follows is the same with the two ids exchanged. The proviso on the pointer is needed: an order better than all others that comes and goes leaves the reported spot price moved.", "quantifier": "all pairs of deployments and histories, all renamings of the ids, all later histories", "why_tests_cant": "A relational property between executions: a test checks single runs; that filled, claimed and cancelled orders, the shape of the cancellation trees, and the numbering of orders never influence anything must hold for all histories.", "anchors": ["contracts/sumtree-orderbook/src/order.rs: place_limit, cancel_limit, claim_limit, run_market_order", "contracts/sumtree-orderbook/src/state.rs: new_order_id, orders", "contracts/sumtree-orderbook/src/contract.rs: execute, query", "contracts/sumtree-orderbook/src/query.rs: spot_price"]}
{"id": "C109", "title": "Claims and gifts decide nothing about the market", "statement": "Take two histories of a deployment with the same placements, cancellations, swaps and administration in the same order; claims (single or batch), bank transfers, mints and migrations may be interspersed in any way, in number, order and caller. As long as in neither history an operation of the market is refused for lack of money or for cancelling an order with an unclaimed fill, all operations of the market have the same outcomes in both - the same rejections and the same responses (only a cancellation that is refused in both may be refused with another error, because a filled order is gone once it is claimed) -, in the end all orders have the same fills, and every query that shows no individual orders or ticks (prices, quotes, pools, configuration) has the same answer. The proviso about cancellations is needed: a partly filled order can be cancelled after a claim, which anybody may make, and not before.", "quantifier": "all pairs of histories from any reachable state with the same operations of the market, all interspersed claims, transfers, mints and migrations", "why_tests_cant": "A non-interference property over pairs of histories: when, by whom and in how many parts fills are claimed synchronizes ticks and rewrites orders in storage at different moments; that none of it is ever visible in matching or prices must hold for all schedules.", "anchors": ["contracts/sumtree-orderbook/src/order.rs: claim_limit, batch_claim_limits, claim_order, cancel_limit, run_market_order", "contracts/sumtree-orderbook/src/tick.rs: sync_tick", "contracts/sumtree-orderbook/src/query.rs"]}
{"id": "C110", "title": "The published price functions on all inputs", "statement": "The crate publishes its price arithmetic (module tick_math). On every input, not only on those the contract feeds it: pow_ten(e) is 10^e rounded down to 18 decimals for -77 <= e <= 59, panics for 60 <= e <= 77 and overflows otherwise; rounding a number with 18 decimals gives the next integer below or above; amount_to_value of a 128-bit amount at any 256-bit price is 0 for 0, for asks the product rounded as asked for, for bids the quotient rounded down to 18 decimals and then as asked for; and it is an overflow error exactly if the price of a bid is zero or the result in units of 10^-18 does not fit into 256 bits.", "quantifier": "all exponents, all 128-bit amounts, all prices, both directions and roundings", "why_tests_cant": "Arithmetic over 2^384 combinations of amount and price; the boundaries of overflow and panic and the double rounding must hold for every one of them.", "anchors": ["contracts/sumtree-orderbook/src/tick_math.rs: pow_ten, RoundingDirection, multiply_by_price, divide_by_price, amount_to_value"]}
{"id": "C111", "title": "A query looks only at what it is about", "statement": "A query depends on a set of storage cells only if, whatever all other cells contain, it returns the same answer or the same error. Spot price, orderbook state and denoms depend on the one cell with the pair and the pointers; a quote on it and the price levels, and on no order; the pool liquidity on it and the two totals; a list of ticks on the levels within its bounds or named in it; the orders of an account on its index entries and the orders they name; the orders of a tick on the orders of that tick within the bounds; switch, fee and role queries on their one cell; swap fee and the unsupported query on nothing; and in every reachable state the unrealized cancels on the levels asked for and their cancellation trees, reading at most 15 + 8 log2 c cells per tick asked for, where c is the number of orders ever cancelled there.", "quantifier": "all states (for the unrealized cancels: all reachable states), all queries and arguments, answered and refused, all contents of the other cells", "why_tests_cant": "It is a statement about all possible contents of all cells not looked at.", "anchors": ["contracts/sumtree-orderbook/src/query.rs: spot_price, calc_out_amount_given_in, total_pool_liquidity, all_ticks, orders_by_owner, orders_by_tick, ticks_by_id, ticks_unrealized_cancels_by_id", "contracts/sumtree-orderbook/src/state.rs: get_orders_by_owner, orders", "contracts/sumtree-orderbook/src/sumtree/tree.rs: get_prefix_sum, get_root_node", "contracts/sumtree-orderbook/src/auth.rs: query"]}
