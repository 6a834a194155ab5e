#!/usr/bin/env python3
"""A small reader of the table-driven tests of /repo (contracts/sumtree-orderbook/src/tests).

It parses the straight-line prefix of a test function (the `let` bindings up to the loop over the cases), evaluates the
Rust expressions occurring there, and returns the list of cases as Python values. `gen_conformance.py` prints them as
Lean terms. It is a translator of test *data* only; the test loops are transcribed by hand in lean/Verif/Conformance.
"""
import re

TESTS = "/repo/contracts/sumtree-orderbook/src/tests/"
D = 10 ** 18

# ---------------------------------------------------------------- values
class Dec:
    def __init__(self, a): self.a = a
    def __eq__(self, o): return isinstance(o, Dec) and self.a == o.a
    def __repr__(self): return f"Dec({self.a})"

class Some:
    def __init__(self, v): self.v = v
    def __repr__(self): return f"Some({self.v!r})"

class Struct:
    def __init__(self, name, f): self.name, self.f = name, f
    def __repr__(self): return f"{self.name}{self.f!r}"

class Enum:
    def __init__(self, path, args=()): self.path, self.args = path, args
    def __repr__(self): return f"{self.path}{self.args!r}"

NONE = Enum("None")

# ---------------------------------------------------------------- lexer
TOK = re.compile(r"""
   (?P<ws>\s+|//[^\n]*)
 | (?P<str>"(?:[^"\\]|\\.)*")
 | (?P<num>\d[\d_]*(?:u8|u16|u32|u64|u128|usize|i8|i32|i64|i128)?)
 | (?P<life>'static)
 | (?P<id>[A-Za-z_][A-Za-z_0-9]*)
 | (?P<op>::|\.\.|=>|->|==|<=|>=|&&|\|\||[-+*/%&!.,;:(){}\[\]<>=|?\#])
""", re.X)

def lex(s):
    out, i = [], 0
    while i < len(s):
        m = TOK.match(s, i)
        if not m: raise SyntaxError(s[i:i + 40])
        i = m.end()
        k = m.lastgroup
        if k != "ws": out.append((k, m.group(k)))
    out.append(("eof", ""))
    return out

# ---------------------------------------------------------------- parser (to tuples)
class P:
    def __init__(self, toks): self.t, self.i = toks, 0
    def peek(self, n=0): return self.t[self.i + n]
    def at(self, v): return self.t[self.i][1] == v and self.t[self.i][0] in ("op", "id")
    def eat(self, v):
        if self.at(v): self.i += 1; return True
        return False
    def need(self, v):
        if not self.eat(v): raise SyntaxError(f"wanted {v}, got {self.t[self.i:self.i+8]}")
    def skip_generics(self):
        # after '<'
        d = 1
        while d:
            v = self.t[self.i][1]; self.i += 1
            if v == "<": d += 1
            elif v == ">": d -= 1
    def expr(self, nostruct=False):
        l = self.cmp(nostruct)
        while self.at("&&"):
            self.i += 1; l = ("bin", "&&", l, self.cmp(nostruct))
        return l
    def cmp(self, nostruct):
        l = self.add(nostruct)
        for o in (">=", "<=", "<", ">", "=="):
            if self.at(o):
                self.i += 1
                return ("bin", o, l, self.add(nostruct))
        return l
    def add(self, ns):
        l = self.mul(ns)
        while self.at("+") or self.at("-"):
            o = self.peek()[1]; self.i += 1
            l = ("bin", o, l, self.mul(ns))
        return l
    def mul(self, ns):
        l = self.unary(ns)
        while self.at("*") or self.at("/") or self.at("%"):
            o = self.peek()[1]; self.i += 1
            l = ("bin", o, l, self.unary(ns))
        return l
    def unary(self, ns):
        if self.eat("-"): return ("neg", self.unary(ns))
        if self.eat("&"):
            self.eat("mut"); return self.unary(ns)
        if self.eat("*"): return self.unary(ns)
        e = self.postfix(ns)
        while self.at("as"):
            self.i += 2
        return e
    def args(self, close):
        xs = []
        while not self.eat(close):
            xs.append(self.expr()); self.eat(",")
        return xs
    def postfix(self, ns):
        e = self.primary(ns)
        while True:
            if self.at("."):
                self.i += 1
                k, v = self.peek(); self.i += 1
                if self.at("::"):
                    self.i += 1; self.need("<"); self.skip_generics()
                if self.eat("("): e = ("meth", e, v, self.args(")"))
                else: e = ("field", e, v)
            elif self.at("("):
                self.i += 1; e = ("call", e, self.args(")"))
            elif self.at("["):
                self.i += 1; ix = self.expr(); self.need("]"); e = ("index", e, ix)
            elif self.at("?"):
                self.i += 1
            else: return e
    def primary(self, ns):
        k, v = self.peek()
        if k == "num":
            self.i += 1; return ("lit", int(re.match(r"[\d_]+", v).group().replace("_", "")))
        if k == "str":
            self.i += 1; return ("lit", v[1:-1])
        if v == "(":
            self.i += 1; xs = []; comma = False
            while not self.eat(")"):
                xs.append(self.expr()); comma = self.eat(",") or comma
            return xs[0] if len(xs) == 1 and not comma else ("tuple", xs)
        if v == "[":
            self.i += 1; xs = []
            while not self.eat("]"):
                xs.append(self.expr())
                if self.eat(";"):
                    n = self.expr(); self.need("]"); return ("rep", xs[0], n)
                self.eat(",")
            return ("list", xs)
        if v == "|":  # closure
            self.i += 1; ps = []
            while not self.eat("|"):
                if self.eat("("):
                    q = []
                    while not self.eat(")"):
                        q.append(self.peek()[1]); self.i += 1; self.eat(",")
                    ps.append(tuple(q))
                else:
                    ps.append(self.peek()[1]); self.i += 1
                self.eat(",")
            return ("closure", ps, self.expr())
        if k == "id":
            path = [v]; self.i += 1
            while self.at("::"):
                self.i += 1
                if self.eat("<"): self.skip_generics(); continue
                path.append(self.peek()[1]); self.i += 1
            name = "::".join(path)
            if self.at("!"):
                self.i += 1
                if self.eat("["): return self._vec("]")
                self.need("("); return ("call", ("path", name + "!"), self.args(")"))
            if self.at("{") and not ns and path[-1][0].isupper():
                self.i += 1; f = {}
                while not self.eat("}"):
                    n = self.peek()[1]; self.i += 1
                    f[n] = self.expr() if self.eat(":") else ("path", n)
                    self.eat(",")
                return ("struct", name, f)
            return ("path", name)
        raise SyntaxError(f"primary {self.t[self.i:self.i+8]}")
    def _vec(self, close):
        xs = []
        while not self.eat(close):
            xs.append(self.expr())
            if self.eat(";"):
                n = self.expr(); self.need(close); return ("rep", xs[0], n)
            self.eat(",")
        return ("list", xs)

# ---------------------------------------------------------------- evaluator
CONST = {
    "BASE_DENOM": "base", "QUOTE_DENOM": "quote", "DEFAULT_OWNER": "owner", "DEFAULT_SENDER": "sender",
    "LARGE_POSITIVE_TICK": 1000000, "LARGE_NEGATIVE_TICK": -5000000,
    "MIN_TICK": -108000000, "MAX_TICK": 182402823, "EXPONENT_AT_PRICE_ONE": -6,
    "EXPECTED_SWAP_FEE": Dec(0), "MAX_BATCH_CLAIM": 100,
    "REPLY_ID_REFUND": 1, "REPLY_ID_CLAIM": 2, "REPLY_ID_CLAIM_BOUNTY": 3, "REPLY_ID_MAKER_FEE": 4,
    "REPLY_ID_SUDO_SWAP_EXACT_IN": 5, "true": True, "false": False, "None": NONE,
    "Uint128::MAX": 2 ** 128 - 1, "Uint256::MAX": 2 ** 256 - 1, "Decimal256::MAX": Dec(2 ** 256 - 1),
    "Decimal::MAX": Dec(2 ** 128 - 1), "u64::MAX": 2 ** 64 - 1, "i64::MAX": 2 ** 63 - 1, "i64::MIN": -2 ** 63,
    "u128::MAX": 2 ** 128 - 1, "usize::MAX": 2 ** 64 - 1,
}

def dec_of(x):
    return x if isinstance(x, Dec) else Dec(x * D)

def from_str(s):
    a, _, b = s.partition(".")
    assert len(b) <= 18, s
    return Dec(int(a) * D + int((b + "0" * 18)[:18]))

def limit_order(t, i, d, o, q, e, b):
    return Struct("LimitOrder", dict(tick_id=t, order_id=i, order_direction=d, owner=o, quantity=q, etas=e,
                                     claim_bounty=b, placed_quantity=q))

def gen_orders(ticks, n, q, d):
    return [limit_order(t, 0, d, "owner", q, Dec(0), NONE) for t in ticks for _ in range(n)]

class Ev:
    def __init__(self, env=None): self.env = dict(env or {})
    def ev(self, e):
        k = e[0]
        if k == "lit": return e[1]
        if k == "neg":
            return -self.ev(e[1])
        if k == "bin":
            l, r = self.ev(e[2]), self.ev(e[3])
            if isinstance(l, Dec):
                return Dec({"+": l.a + r.a, "-": l.a - r.a}[e[1]])
            if e[1] == "&&": return l and r
            if e[1] in (">=", "<=", "<", ">", "=="):
                return {">=": l >= r, "<=": l <= r, "<": l < r, ">": l > r, "==": l == r}[e[1]]
            return {"+": l + r, "-": l - r, "*": l * r, "/": (l // r if l >= 0 else -(-l // r)), "%": l % r}[e[1]]
        if k == "tuple": return tuple(self.ev(x) for x in e[1])
        if k == "list": return [self.ev(x) for x in e[1]]
        if k == "rep": return [self.ev(e[1]) for _ in range(self.ev(e[2]))]
        if k == "closure": return e
        if k == "struct": return Struct(e[1], {n: self.ev(x) for n, x in e[2].items()})
        if k == "path":
            n = e[1]
            if n in self.env: return self.env[n]
            if n in CONST: return CONST[n]
            if n[0].isupper(): return Enum(n)
            raise NameError(n)
        if k == "field":
            b = self.ev(e[1])
            if isinstance(b, tuple): return b[int(e[2])]
            return b.f[e[2]]
        if k == "index": return self.ev(e[1])[self.ev(e[2])]
        if k == "call": return self.call(e[1], [self.ev(x) for x in e[2]])
        if k == "meth": return self.meth(self.ev(e[1]), e[2], [self.ev(x) for x in e[3]])
        raise SyntaxError(e)
    def apply(self, f, *xs):
        if f[0] == "closure":
            b = {}
            for pat, x in zip(f[1], xs):
                if isinstance(pat, tuple): b.update(zip(pat, x))
                else: b[pat] = x
            return Ev({**self.env, **b}).ev(f[2])
        raise SyntaxError(f)
    def call(self, f, a):
        n = f[1]
        if n in self.env and callable(self.env[n]): return self.env[n](*a)
        if n in ("Uint128::new", "Uint128::from", "Uint256::from", "Uint256::from_u128", "Uint128::from_u128",
                 "Addr::unchecked", "String::from", "Uint64::from", "Decimal256::new_raw"): return a[0]
        if n in ("Uint128::zero", "Uint256::zero"): return 0
        if n in ("Uint128::one", "Uint256::one"): return 1
        if n in ("Decimal256::zero", "Decimal::zero"): return Dec(0)
        if n in ("Decimal256::one", "Decimal::one"): return Dec(D)
        if n in ("Decimal256::percent", "Decimal::percent"): return Dec(a[0] * 10 ** 16)
        if n in ("Decimal256::from_str", "Decimal::from_str"): return from_str(a[0])
        if n in ("Decimal256::from_ratio", "Decimal::from_ratio"): return Dec(a[0] * D // a[1])
        if n in ("Decimal256::new", "Decimal::new", "Decimal256::raw"): return Dec(a[0])
        if n == "decimal256_from_u128": return Dec(a[0] * D)
        if n in ("Uint256::from_str", "Uint128::from_str"): return int(a[0])
        if n == "Some": return Some(a[0])
        if n in ("coin", "coin_u256", "Coin::new"): return Struct("Coin", dict(amount=a[0], denom=a[1]))
        if n == "LimitOrder::new": return limit_order(*a)
        if n == "MarketOrder::new": return Struct("MarketOrder", dict(quantity=a[0], order_direction=a[1], owner=a[2]))
        if n == "generate_limit_orders": return gen_orders(*a)
        if n == "generate_tick_ids": return list(range(a[0]))
        if n == "max_spot_price": return from_str("340282300000000000000")
        if n == "min_spot_price": return Dec(10 ** 6)
        if n in ("mock_env",): return Struct("Env", dict(contract=Struct("ContractInfo", dict(address="cosmos2contract"))))
        if n == "mock_info": return Struct("Info", dict(sender=a[0], funds=a[1]))
        if n in ("SubMsg::reply_on_error",): return Struct("SubMsg", dict(msg=a[0], id=a[1]))
        if n in ("TickState::default",):
            z = Struct("TickValues", {k: Dec(0) for k in TV})
            return Struct("TickState", dict(ask_values=z, bid_values=z))
        if n in ("TickValues::default",): return Struct("TickValues", {k: Dec(0) for k in TV})
        if n == "format!":
            t = a[0].replace("{EXPECTED_SWAP_FEE}", "0")
            for x in a[1:]:
                if isinstance(x, Dec):
                    if x.a % 10 ** 18: return "formatted"
                    x = x.a // 10 ** 18
                t = t.replace("{}", str(x), 1)
            return t
        if n == "NodeType::leaf_uint256": return Enum("leaf", (dec_of(a[0]), dec_of(a[1])))
        if n == "NodeType::internal_uint256": return Enum("internal", (dec_of(a[0]), dec_of(a[1][0]), dec_of(a[1][1])))
        if n == "NodeType::leaf": return Enum("leaf", (a[0], a[1]))
        if n == "NodeType::internal": return Enum("internal", (a[0], a[1][0], a[1][1]))
        if n == "TreeNode::new":
            return Struct("TreeNode", dict(tick_id=a[0], direction=a[1], key=a[2], node_type=a[3], parent=NONE,
                                           left=NONE, right=NONE))
        if n[0].isupper() and "::" in n: return Enum(n, tuple(a))
        raise NameError(f"call {n}")
    def meth(self, b, m, a):
        if m == "unwrap" and isinstance(b, Some): return b.v
        if m == "enumerate": return list(enumerate(b))
        if m == "filter": return [x for x in b if self.apply(a[0], x)]
        if m in ("clone", "to_string", "unwrap", "as_str", "into", "to_owned", "u128", "as_slice", "to_vec", "iter",
                 "into_iter", "collect", "is_ok"):
            if m == "to_string" and not isinstance(b, str): return Struct("Text", dict(of=b))
            return b
        if m == "opposite": return Enum("OrderDirection::Ask" if b.path.endswith("Bid") else "OrderDirection::Bid")
        if m in ("checked_pow",): return b ** a[0]
        if m == "checked_sub": return Dec(b.a - a[0].a) if isinstance(b, Dec) else b - a[0]
        if m == "checked_add": return Dec(b.a + a[0].a) if isinstance(b, Dec) else b + a[0]
        if m == "checked_mul": return Dec(b.a * a[0].a // D) if isinstance(b, Dec) else b * a[0]
        if m == "inv": return Some(Dec(D * D // b.a))
        if m == "with_placed_quantity": return Struct(b.name, {**b.f, "placed_quantity": a[0]})
        if m == "map": return [self.apply(a[0], x) for x in b]
        if m == "with_children":
            return Struct(b.name, {**b.f, "left": a[0], "right": a[1]})
        if m == "with_parent": return Struct(b.name, {**b.f, "parent": Some(a[0])})
        raise NameError(f"method {m} on {b!r}")

TV = ["total_amount_of_liquidity", "cumulative_total_value", "effective_total_amount_swapped",
      "cumulative_realized_cancels", "last_tick_sync_etas"]

# ---------------------------------------------------------------- test functions
def fn_body(path, fn):
    src = open(path).read()
    i = src.index(f"fn {fn}()")
    i = src.index("{", i)
    j = src.index("\n}\n", i) if "\n}\n" in src[i:] else len(src.rstrip()) - 1
    return src[i + 1:j]

def cases(file, fn, var=None, env=None):
    """The value of the `let` binding `var` (default: the one the `for` loop ranges over) of test `fn`."""
    body = fn_body(file if file.startswith("/") else TESTS + file, fn)
    p = P(lex(body)); ev = Ev(env)
    # local structs are skipped
    while True:
        k, v = p.peek()
        if v == "struct":
            while not p.at("{"): p.i += 1
            p.i += 1
            while not p.eat("}"): p.i += 1
        elif v == "#":
            while not p.eat("]"): p.i += 1
        elif v == "let":
            p.i += 1; p.eat("mut")
            n = p.peek()[1]; p.i += 1
            if p.eat(":"):
                while not p.at("="): p.i += 1
            p.need("="); e = p.expr(); p.need(";")
            try: ev.env[n] = ev.ev(e)
            except NameError as x:
                if var in (None, n) and n.startswith("test_cases"): raise
                ev.env[n] = None
        elif v == "for":
            p.i += 1
            p.eat("mut"); p.i += 1
            p.need("in"); n = p.peek()[1]
            return ev.env[var or n]
        else:
            raise SyntaxError(f"{fn}: {p.t[p.i:p.i+10]}")

if __name__ == "__main__":
    import sys
    for x in cases(sys.argv[1], sys.argv[2]): print(x)
