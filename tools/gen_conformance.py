#!/usr/bin/env python3
"""Writes lean/Verif/Conformance/*Cases.lean from the test tables of /repo (see rust_cases.py)."""
import os, re, sys
sys.path.insert(0, os.path.dirname(__file__))
from rust_cases import *

OUT = os.path.join(os.path.dirname(os.path.abspath(__file__)), "..", "lean", "Verif", "Conformance")

def s_(x): return '"' + x.replace('"', '\\"') + '"'
def i_(x): return str(x) if x >= 0 else f"({x})"
def d_(x):
    if isinstance(x, int): x = Dec(x * D)
    if x.a and x.a % D == 0: return f"{x.a // D} * D" if x.a != D else "D"
    return str(x.a)
def dp(x):
    r = d_(x)
    return f"({r})" if "*" in r else r
def dir_(x): return ".bid" if x.path.endswith("Bid") else ".ask"
def opt(f):
    def g(x): return "none" if isinstance(x, Enum) and x.path == "None" else f"(some {f(x.v)})"
    return g
def lst(f): return lambda x: "[" + ", ".join(f(y) for y in x) + "]"
def pair(f, g): return lambda x: f"({f(x[0])}, {g(x[1])})"
def bool_(x): return "true" if x else "false"
def coin_(c): return f"⟨{s_(c.f['denom'])}, {c.f['amount']}⟩"

def order_(o):
    f = o.f
    return (f"⟨{f['tick_id']}, {f['order_id']}, {dir_(f['order_direction'])}, {s_(f['owner'])}, {f['quantity']}, "
            f"{d_(f['etas'])}, {opt(dp)(f['claim_bounty'])}, {f['placed_quantity']}, 0⟩")

def market_(o): return f"⟨{o.f['quantity']}, {dir_(o.f['order_direction'])}, {s_(o.f['owner'])}⟩"

def op_(o):
    k = o.path.split("::")[1]; a = o.args[0]
    if k == "RunMarket": return f".runMarket {market_(a)}"
    if k == "PlaceLimitMulti":
        ts = f"(ticksUpTo {len(a[0])})" if a[0] == list(range(len(a[0]))) else lst(str)(a[0])
        return f".placeMulti {ts} {a[1]} {a[2]} {dir_(a[3])}"
    if k == "PlaceLimit":
        f = a.f
        return f".place {i_(f['tick_id'])} {dir_(f['order_direction'])} {s_(f['owner'])} {f['quantity']} {opt(dp)(f['claim_bounty'])}"
    if k == "Claim": return f".claim {i_(a[0])} {a[1]}"
    if k == "Cancel": return f".cancel {i_(a[0])} {a[1]}"
    raise ValueError(o)

def send_(m):
    """a bank message (BankMsg::Send or MsgSend256): recipient and coin"""
    assert len(m.f["amount"]) == 1
    if "from_address" in m.f: assert m.f["from_address"] == "cosmos2contract"
    return s_(m.f["to_address"]), coin_(m.f["amount"][0])
def submsg_(m):
    t, c = send_(m.f["msg"])
    return f"⟨{t}, {c}, {m.f['id']}⟩"
def bankmsg_(m):
    t, c = send_(m)
    return f"({t}, {c})"

def tv_(v):
    f = v.f
    return "⟨" + ", ".join(d_(f[k]) for k in TV) + "⟩"
def ts_(t): return f"⟨{tv_(t.f['ask_values'])}, {tv_(t.f['bid_values'])}⟩"

def swap_err(t):
    if t == "Input amount cannot be zero": return ".zeroInput"
    if t == "Input and output denoms cannot be the same": return ".sameDenoms"
    m = re.match(r"Exceeded max swap amount: expected (\d+) received (\d+)$", t)
    if m: return f"(.maxIn {m[1]} {m[2]})"
    m = re.match(r"Did not meet minimum swap amount: expected (\d+) received (\d+)$", t)
    if m: return f"(.minOut {m[1]} {m[2]})"
    m = re.match(r"Provided swap fee does not match: expected 0 received (\d+)$", t)
    if m: return f"(.fee ({m[1]} * D))"
    raise ValueError(t)
def payment_err(e):
    n = (e.name if isinstance(e, Struct) else e.path).split("::")[1]
    return dict(NonPayable=".nonPayable", NoFunds=".noFunds")[n]

def err_(e):
    n = (e.name if isinstance(e, Struct) else e.path).split("::")[1]
    f = e.f if isinstance(e, Struct) else {}
    if n in ("InvalidTickId",): return f".invalidTickId {i_(f['tick_id'])}"
    if n == "TickOutOfBounds": return f".tickOutOfBounds {i_(f['tick_id'])}"
    if n == "InsufficientFunds": return f".insufficientFunds {f['sent']} {f['required']}"
    if n == "OrderNotFound": return f".orderNotFound {i_(f['tick_id'])} {f['order_id']}"
    if n == "InvalidQuantity": return f".invalidQuantity {f['quantity']}"
    if n == "InvalidPair": return f".invalidPair {s_(f['token_in_denom'])} {s_(f['token_out_denom'])}"
    if n == "InvalidDenom": return f".invalidDenom {s_(f['denom'])}"
    if n == "InvalidClaimBounty": return f".invalidClaimBounty {opt(dp)(f['claim_bounty'])}"
    if n == "BatchClaimLimitExceeded": return f".batchClaimLimitExceeded {f['max_batch_claim']}"
    if n == "InvalidSwap": return f".invalidSwap {swap_err(f['error'])}"
    if n == "PaymentError": return f".payment {payment_err(e.args[0])}"
    simple = dict(Overflow="overflow", Unauthorized="unauthorized",
                  DuplicateDenoms="duplicateDenoms", InvalidNodeType="invalidNodeType",
                  ChildlessInternalNode="childlessInternalNode", CancelFilledOrder="cancelFilledOrder",
                  ZeroClaim="zeroClaim", InsufficientLiquidity="insufficientLiquidity",
                  Inactive="inactive", NoMakerFeeRecipient="noMakerFeeRecipient",
                  InvalidMakerFeeRecipient="invalidMakerFeeRecipient", InvalidMakerFee="invalidMakerFee",
                  InvalidSumtree="invalidSumtree")
    return "." + simple[n]
def perr(e):
    r = err_(e)
    return f"({r})" if " " in r else r

def ntype_(n):
    if n.path == "leaf": return f".leaf {dp(n.args[1])} {dp(n.args[0])}"
    return f".internal {dp(n.args[0])} {dp(n.args[1])} {dp(n.args[2])} 0"

def node_(n):
    f = n.f; o = opt(str)
    return f"⟨{f['key']}, {i_(f['tick_id'])}, {dir_(f['direction'])}, {o(f['left'])}, {o(f['right'])}, {o(f['parent'])}, {ntype_(f['node_type'])}⟩"

def exec_(m):
    n = (m.name if isinstance(m, Struct) else m.path).split("::")[1]
    f = m.f if isinstance(m, Struct) else {}
    if n == "PlaceLimit": return f".placeLimit {i_(f['tick_id'])} {dir_(f['order_direction'])} {f['quantity']} {opt(dp)(f['claim_bounty'])}"
    if n == "CancelLimit": return f".cancelLimit {i_(f['tick_id'])} {f['order_id']}"
    if n == "ClaimLimit": return f".claimLimit {i_(f['tick_id'])} {f['order_id']}"
    if n == "BatchClaim": return f".batchClaim {lst(pair(str, str))(f['orders'])}"
    if n == "Auth":
        a = m.args[0]; k = a.name.split("::")[1]
        assert k == "TransferAdmin"
        return f".auth (.transferAdmin {s_(a.f['new_admin'])})"
    raise ValueError(m)
def sudo_(m):
    n = m.name.split("::")[1]; f = m.f
    if n == "SwapExactAmountIn":
        return f".swapExactAmountIn {s_(f['sender'])} {coin_(f['token_in'])} {s_(f['token_out_denom'])} {f['token_out_min_amount']} {d_(f['swap_fee'])}"
    if n == "SetActive": return f".setActive {bool_(f['is_active'])}"
    if n == "TransferAdmin": return f".transferAdmin {s_(f['new_admin'])}"
    if n == "RemoveAdmin": return ".removeAdmin"
    raise ValueError(m)

def table(name, typ, src, cs, fields):
    """fields: (lean name, rust name, emitter)"""
    out = [f"/-- {src} -/", f"def {name} : List {typ} := ["]
    rows = []
    for c in cs:
        nm = c.f.get("name")
        head = f"  -- {nm}\n" if nm else ""
        rows.append((head, "  { " + ", ".join(f"{l} := {g(c.f[r])}" for l, r, g in fields) + " }"))
    for k, (h, r) in enumerate(rows):
        out.append(h + r + ("," if k + 1 < len(rows) else ""))
    out.append("]\n")
    return "\n".join(out)

E = ("err", "expected_error", opt(perr))
OPS = ("ops", "pre_operations", lst(op_))

def header(imports, doc):
    return "\n".join(f"import {i}" for i in imports) + f"\n/- {doc}\nGenerated by /verif/tools/gen_conformance.py from the Rust test sources; do not edit. -/\nnamespace OB.Conf\n\n"

def write(fn, text):
    open(os.path.join(OUT, fn), "w").write(text + "\nend OB.Conf\n")

def tickmath():
    f = "test_tick_math.rs"
    t = header(["Verif.Conformance.TickMathTests"], "tests/test_tick_math.rs")
    F = [("tick", "tick_index", str), ("price", "expected_price", d_), E]
    t += table("tickToPriceCases", "TickToPriceCase", f"{f}:16-139 test_tick_to_price", cases(f, "test_tick_to_price"), F)
    t += "\n" + table("tickToPriceErrCases", "TickToPriceCase", f"{f}:142-167 test_tick_to_price_error_cases", cases(f, "test_tick_to_price_error_cases"), F)
    t += "\n" + table("powTenCases", "PowTenCase", f"{f}:170-211 test_pow_ten", cases(f, "test_pow_ten"),
               [("expo", "exponent", str), ("result", "expected_result", d_)])
    F = [("price", "price", d_), ("amount", "amount", str), ("result", "expected_result", str), E,
         ("rounding", "rounding_direction", lambda e: "." + e.path.split("::")[1].lower())]
    t += "\n" + table("multiplyCases", "PriceCase", f"{f}:223-275 test_multiply_by_price", cases(f, "test_multiply_by_price"), F)
    t += "\n" + table("divideCases", "PriceCase", f"{f}:278-326 test_divide_by_price", cases(f, "test_divide_by_price"), F)
    t += """
/-- tests/test_tick_math.rs holds of the model -/
theorem tick_math_tests :
    tickToPriceCases.all TickToPriceCase.run = true ∧ tickToPriceErrCases.all TickToPriceCase.run = true ∧
      powTenCases.all PowTenCase.run = true ∧ multiplyCases.all PriceCase.runMultiply = true ∧
      divideCases.all PriceCase.runDivide = true := by
  refine ⟨?_, ?_, ?_, ?_, ?_⟩ <;> decide +kernel
"""
    write("TickMathCases.lean", t)

def split(t, name, typ, src, cs, fields, run, n=8):
    """tables too long for one kernel check are cut in parts"""
    parts = [cs[i:i + n] for i in range(0, len(cs), n)]
    txt = ""; names = []
    for k, p in enumerate(parts):
        nm = f"{name}{k + 1}" if len(parts) > 1 else name
        names.append(nm)
        txt += table(nm, typ, src, p, fields) + "\n"
        txt += f"/-- the model passes them -/\ntheorem {nm}_pass : {nm}.all {run} = true := by decide +kernel\n\n"
    return txt

def order():
    f = "test_order.rs"
    H = ["Verif.Conformance.OrderTests"]
    t = header(H, "tests/test_order.rs: place, cancel, maker fee, directional liquidity")
    t += split("", "placeCases", "PlaceCase", f"{f}:35-195 test_place_limit", cases(f, "test_place_limit"),
        [("tick", "tick_id", str), ("quantity", "quantity", str), ("sent", "sent", str), ("dir", "order_direction", dir_),
         ("bounty", "claim_bounty", opt(dp)), E], "PlaceCase.run", 20)
    t += split("", "cancelCases", "CancelCase", f"{f}:365-419 test_cancel_limit", cases(f, "test_cancel_limit"),
        [("tick", "tick_id", str), ("id", "order_id", str), ("dir", "order_direction", dir_), ("quantity", "quantity", str),
         ("placeOrder", "place_order", bool_), E, ("owner", "owner", s_), ("sender", "sender", opt(s_)),
         ("sent", "sent", lst(coin_))], "CancelCase.run", 20)
    t += split("", "liquidityCases", "LiquidityCase", f"{f}:3842-4016 test_directional_liquidity",
        cases(f, "test_directional_liquidity"),
        [("ops", "operations", lst(op_)), ("expected", "expected_liquidity", pair(pair(dir_, d_), pair(dir_, d_)))],
        "LiquidityCase.run")
    t += split("", "makerFeeCases", "MakerFeeCase", f"{f}:4068-4167 test_maker_fee", cases(f, "test_maker_fee"),
        [("order", "placed_order", order_), ("fee", "maker_fee", opt(dp)), ("recipient", "maker_fee_recipient", opt(s_)),
         ("claimer", "expected_claimer_msg", bankmsg_), ("maker", "expected_maker_fee_msg", opt(bankmsg_)), E],
        "MakerFeeCase.run", 20)
    write("OrderCases.lean", t)
    t = header(H, "tests/test_order.rs: market orders")
    def orders_(os):
        return lst(lambda o: f"({o.f['tick_id']}, {dir_(o.f['order_direction'])}, {o.f['quantity']})")(os)
    t += split("", "marketCases", "MarketCase", f"{f}:642-890 test_run_market_order", cases(f, "test_run_market_order"),
        [("order", "placed_order", market_), ("bound", "tick_bound", str), ("orders", "orders", orders_),
         ("output", "expected_output", str), ("etas", "expected_tick_etas", lst(pair(str, d_))),
         ("pointers", "expected_tick_pointers", lst(pair(dir_, str))), E], "MarketCase.run")
    t += split("", "movingCases", "MovingCase", f"{f}:1017-1545 test_run_market_order_moving_tick",
        cases(f, "test_run_market_order_moving_tick"),
        [("ops", "operations", lst(op_)), ("values", "expected_tick_values", lst(pair(pair(str, dir_), tv_))),
         ("pointers", "expected_tick_pointers", pair(str, str))], "MovingCase.run")
    write("MarketCases.lean", t)
    t = header(H, "tests/test_order.rs: claims")
    F = [("ops", "operations", lst(op_)), ("sender", "sender", s_), ("tick", "tick_id", str), ("id", "order_id", str)]
    t += split("", "claimCases", "ClaimCase", f"{f}:1597-2819 test_claim_order", cases(f, "test_claim_order"),
        F + [("msg", "expected_bank_msg", opt(submsg_)), ("bounty", "expected_bounty_msg", opt(submsg_)),
         ("state", "expected_order_state", opt(order_)), E], "ClaimCase.run")
    t += split("", "movingClaimCases", "MovingClaimCase", f"{f}:2922-3537 test_claim_order_moving_tick",
        cases(f, "test_claim_order_moving_tick"),
        F + [("msg", "expected_output", submsg_), ("state", "expected_order_state", opt(order_)), E], "MovingClaimCase.run")
    t += split("", "batchCases", "BatchCase", f"{f}:3606-3753 test_batch_claim_order", cases(f, "test_batch_claim_order"),
        [("ops", "operations", lst(op_)), ("orders", "orders", lst(pair(str, str))),
         ("msgs", "expected_messages", lst(submsg_)), ("states", "expected_order_states", opt(lst(order_))), E],
        "BatchCase.run")
    write("ClaimCases.lean", t)

def query():
    f = "test_query.rs"
    H = ["Verif.Conformance.QueryTests"]
    t = header(H, "tests/test_query.rs: prices, quotes and liquidity")
    t += split("", "spotCases", "SpotCase", f"{f}:36-383 test_query_spot_price", cases(f, "test_query_spot_price"),
        [OPS, ("base", "base_denom", s_), ("quote", "quote_denom", s_), ("price", "expected_price", d_), E], "SpotCase.run")
    t += split("", "calcCases", "CalcCase", f"{f}:438-660 test_calc_out_amount_given_in", cases(f, "test_calc_out_amount_given_in"),
        [OPS, ("tokenIn", "token_in", coin_), ("out", "token_out_denom", s_), ("fee", "swap_fee", d_),
         ("output", "expected_output", coin_), E], "CalcCase.run")
    cs = cases(f, "test_total_pool_liquidity")
    t += split("", "totalCases", "TotalCase", f"{f}:719-777 test_total_pool_liquidity", cs,
        [OPS, ("output", "expected_output", lst(coin_)), E], "TotalCase.run")
    write("PriceCases.lean", t)
    t = header(H, "tests/test_query.rs: orders and ticks")
    F = [OPS, ("output", "expected_output", lst(order_)), ("count", "expected_count", str)]
    t += split("", "byOwnerCases", "ByOwnerCase", f"{f}:1258-1492 test_orders_by_owner", cases(f, "test_orders_by_owner"),
        F + [("owner", "owner", s_), ("start", "start_from", opt(pair(str, str))), ("stop", "end_at", opt(pair(str, str))),
             ("limit", "limit", opt(str)), E], "ByOwnerCase.run")
    t += split("", "byTickCases", "ByTickCase", f"{f}:1569-1821 test_orders_by_ticks", cases(f, "test_orders_by_ticks"),
        F + [("tick", "tick_id", str), ("start", "start_from", opt(str)), ("stop", "end_at", opt(str)),
             ("limit", "limit", opt(str)), E], "ByTickCase.run")
    t += split("", "ticksByIdCases", "TicksByIdCase", f"{f}:1894-2059 test_ticks_by_id", cases(f, "test_ticks_by_id"),
        [OPS, ("output", "expected_output", lst(ts_)), ("ids", "tick_ids", lst(str)), E], "TicksByIdCase.run")
    t += split("", "unrealizedCases", "UnrealizedCase", f"{f}:2119-2191 test_tick_unrealized_cancels_by_id",
        cases(f, "test_tick_unrealized_cancels_by_id"),
        [OPS, ("output", "expected_output", lst(pair(str, pair(dir_, d_)))), ("ids", "tick_ids", lst(str))],
        "UnrealizedCase.run")
    # kernel evaluation of ten placements per tick on hundreds of ticks is out of reach: the orders of a tick are merged in
    # one of the same total (the tick state is the same), and the case with 1010 ticks is left out
    cs = [c for c in cases(f, "test_all_ticks") if c.f["name"] != "large number of ticks"]
    t += split("", "allTicksCases", "AllTicksCase", f"{f}:832-1159 test_all_ticks (the orders of a `placeMulti` tick merged; without the case of 1010 ticks)", cs,
        [("ops", "pre_operations", lst(lambda o: op_(merged(o)))), ("output", "expected_output", runs(ts_)), ("start", "start_after", opt(i_)), ("stop", "end_at", opt(i_)),
         ("limit", "limit", opt(str))], "AllTicksCase.run", 1)
    t += split("", "isActiveCases", "IsActiveCase", f"{f}:1207-1221 test_is_active", cases(f, "test_is_active"),
        [("active", "is_active", opt(bool_))], "IsActiveCase.run")
    write("ListCases.lean", t)

def merged(o):
    if o.path.split("::")[1] != "PlaceLimitMulti": return o
    ts, n, q, d = o.args[0]
    return Enum(o.path, [(ts, 1, n * q, d)])

def runs(f):
    """run-length encoding of a list of equal values"""
    def g(xs):
        out = []
        for x in map(f, xs):
            if out and out[-1][0] == x: out[-1][1] += 1
            else: out.append([x, 1])
        return "[" + ", ".join(f"({n}, {x})" for x, n in out) + "].flatMap rep"
    return g

def sudo():
    f = "test_sudo.rs"
    H = ["Verif.Conformance.SudoTests"]
    t = header(H, "tests/test_sudo.rs")
    t += split("", "validateCases", "ValidateCase", f"{f}:41-91 test_validate_output_amount", cases(f, "test_validate_output_amount"),
        [("maxIn", "max_in_amount", str), ("minOut", "min_out_amount", str), ("input", "input", coin_),
         ("output", "output", coin_), E], "ValidateCase.run")
    t += split("", "swapCases", "SwapCase", f"{f}:129-350 test_swap_exact_amount_in", cases(f, "test_swap_exact_amount_in"),
        [OPS, ("tokenIn", "token_in", coin_), ("out", "token_out_denom", s_), ("min", "token_out_min_amount", str),
         ("fee", "swap_fee", d_), ("target", "target_tick", opt(i_)), ("output", "expected_output", coin_),
         ("numMsgs", "expected_num_msgs", str), ("refund", "expected_refund_msg", opt(submsg_)), E], "SwapCase.run")
    t += split("", "activeCases", "ActiveCase", f"{f}:504-521 test_set_active", cases(f, "test_set_active"),
        [("active", "active_status", opt(bool_)), E], "ActiveCase.run")
    t += split("", "activeExecCases", "ActiveExecCase", f"{f}:562-621 test_set_active_execute", cases(f, "test_set_active_execute"),
        [("msg", "msg", exec_), ("active", "active_status", opt(bool_)), E], "ActiveExecCase.run")
    t += split("", "activeSudoCases", "ActiveSudoCase", f"{f}:673-719 test_set_active_sudo", cases(f, "test_set_active_sudo"),
        [OPS, ("msg", "msg", sudo_), ("active", "active_status", opt(bool_)), E], "ActiveSudoCase.run")
    write("SudoCases.lean", t)

def auth():
    f = "test_auth.rs"
    H = ["Verif.Conformance.AuthTests"]
    t = header(H, "tests/test_auth.rs, tests/test_instantiate.rs, tests/test_orderbook.rs")
    for nm, typ, fn, lines, F in [
        ("transferAdminCases", "TransferAdminCase", "test_transfer_admin", "31-47", [("admin", "current_admin", s_), ("new", "new_admin", s_), E]),
        ("cancelAdminCases", "CancelAdminCase", "test_cancel_admin_transfer", "96-112", [("admin", "current_admin", s_), ("new", "new_admin", s_), E]),
        ("claimAdminCases", "ClaimAdminCase", "test_claim_admin", "164-186", [("sender", "sender", s_), ("new", "new_admin", opt(s_)), E]),
        ("rejectAdminCases", "RejectAdminCase", "test_reject_admin_transfer", "247-270", [("sender", "sender", s_), ("new", "new_admin", opt(s_)), E]),
        ("renounceCases", "RenounceCase", "test_renounce_adminship", "342-356", [("sender", "sender", s_), E]),
        ("offerModeratorCases", "OfferModeratorCase", "test_offer_moderator", "413-437", [("sender", "sender", s_), ("new", "new_moderator", s_), E]),
        ("rejectModeratorCases", "RejectModeratorCase", "test_reject_moderator_offer", "491-514", [("sender", "sender", s_), ("new", "new_moderator", opt(s_)), E]),
        ("claimModeratorCases", "ClaimModeratorCase", "test_claim_moderator", "587-610", [("sender", "sender", s_), ("new", "new_moderator", opt(s_)), E]),
        ("setActiveCases", "SetActiveCase", "test_set_active", "684-724", [("sender", "sender", s_), ("current", "current_active_state", bool_), ("new", "new_active_state", bool_), E]),
        ("setFeeCases", "SetFeeCase", "test_set_maker_fee", "872-908", [("sender", "sender", s_), ("fee", "fee", d_), E]),
        ("setRecipientCases", "SetRecipientCase", "test_set_maker_fee_recipient", "965-996", [("sender", "sender", s_), ("recipient", "recipient", s_), E]),
    ]:
        t += split("", nm, typ, f"{f}:{lines} {fn}", cases(f, fn, env={"MAX_MAKER_FEE_PERCENTAGE": Dec(5 * 10 ** 16)}), F, typ + ".run")
    t += split("", "createCases", "CreateCase", "test_orderbook.rs:20-57 test_create_orderbook", cases("test_orderbook.rs", "test_create_orderbook"),
        [("quote", "quote_denom", s_), ("base", "base_denom", s_), E], "CreateCase.run")
    cs = cases("test_instantiate.rs", "test_instantiate")
    for c in cs: c.f.update(c.f["msg"].f)
    t += split("", "instantiateCases", "CreateCase", "test_instantiate.rs:19-39 test_instantiate", cs,
        [("quote", "quote_denom", s_), ("base", "base_denom", s_), E], "CreateCase.runInstantiate")
    write("AuthCases.lean", t)

def tree():
    T = "/repo/contracts/sumtree-orderbook/src/sumtree/test/"
    H = ["Verif.Conformance.TreeTests"]
    env = {"u32::MAX": 2 ** 32 - 1, "u32::MIN": 0}
    t = header(H, "sumtree/test/test_node.rs, sumtree/test/test_tree.rs, tests/test_tick.rs")
    t += split("", "insertCases", "InsertCase", "test_node.rs:137-356 test_node_insert_cases", cases(T + "test_node.rs", "test_node_insert_cases", env=env),
        [("nodes", "nodes", lst(ntype_)), ("expected", "expected", lst(str))], "InsertCase.run")
    t += split("", "deletionCases", "DeletionCase", "test_node.rs:471-586 test_node_deletion_valid", cases(T + "test_node.rs", "test_node_deletion_valid", env=env),
        [("nodes", "nodes", lst(ntype_)), ("delete", "delete", lst(str)), ("expected", "expected", lst(str))], "DeletionCase.run")
    F = [("nodes", "nodes", lst(node_)), ("expected", "expected", lst(str)), E]
    for nm, fn, lines, run in [("rotateRightCases", "test_rotate_right", "672-1291", "ReshapeCase.runRight"),
                          ("rotateLeftCases", "test_rotate_left", "1358-1880", "ReshapeCase.runLeft"),
                          ("rebalanceCases", "test_rebalance", "1947-2620", "ReshapeCase.runRebalance")]:
        t += split("", nm, "ReshapeCase", f"test_node.rs:{lines} {fn}", cases(T + "test_node.rs", fn, env=env), F, run)
    t += split("", "prefixSumCases", "PrefixSumCase", "test_tree.rs:17-259 test_get_prefix_sum_valid", cases(T + "test_tree.rs", "test_get_prefix_sum_valid", env=env),
        [("nodes", "nodes", lst(ntype_)), ("target", "target_etas", d_), ("prev", "prev_sum", d_), ("expected", "expected_sum", d_)], "PrefixSumCase.run")
    def btv(a, b): return Struct("TickValues", dict(zip(TV, [Dec(a * D), Dec((a + b) * D), Dec(0), Dec(0), Dec(0)])))
    t += split("", "syncCases", "SyncCase", "tests/test_tick.rs:30-437 test_sync_tick", cases("test_tick.rs", "test_sync_tick", env={**env, "build_tick_values": btv}),
        [("bid", "initial_tick_bid_values", tv_), ("ask", "initial_tick_ask_values", tv_), ("bidCancels", "unrealized_cancels_bid", lst(ntype_)),
         ("askCancels", "unrealized_cancels_ask", lst(ntype_)), ("bidStep", "new_bid_etas_per_sync", d_), ("askStep", "new_ask_etas_per_sync", d_),
         ("syncs", "num_syncs", str), ("bidRealized", "expected_cumulative_realized_bid", d_), ("askRealized", "expected_cumulative_realized_ask", d_),
         ("bidEtas", "expected_new_bid_etas_post_sync", d_), ("askEtas", "expected_new_ask_etas_post_sync", d_)], "SyncCase.run")
    write("TreeCases.lean", t)

if __name__ == "__main__":
    which = sys.argv[1:] or ["tickmath", "order", "query", "sudo", "auth", "tree"]
    for w in which: globals()[w]()
