import Verif.SpecText
import Verif.Model.Json
/- The published interface: the JSON grammar (RFC 8259), and which JSON values stand for which messages, answers and stored values. -/
namespace OB.Spec

/-! ### JSON texts -/

/-- Whitespace. -/
def Blank (t : List Char) : Prop := ∀ c ∈ t, c = ' ' ∨ c = '\n' ∨ c = '\t' ∨ c = '\r'

/-- With whitespace around. -/
def Padded (P : List Char → Prop) (t : List Char) : Prop := ∃ a u b, Blank a ∧ P u ∧ Blank b ∧ t = a ++ u ++ b

/-- A number without sign, leading zeros, fraction and exponent. -/
def NumberText (n : Nat) (t : List Char) : Prop := number t = some n ∧ (t = ['0'] ∨ ∀ c ∈ t.head?, c ≠ '0')

/-- The characters that are written as a backslash and a letter. -/
def shortEscapes : List (Char × Char) :=
  [('"', '"'), ('\\', '\\'), ('/', '/'), ('b', '\x08'), ('t', '\t'), ('n', '\n'), ('f', '\x0c'), ('r', '\r')]

/-- The value of a hexadecimal digit, in small or capital letters. -/
def HexDigit (c : Char) (n : Nat) : Prop := n < 16 ∧ ("0123456789abcdef".toList[n]? = some c ∨ "0123456789ABCDEF".toList[n]? = some c)

/-- The number that four hexadecimal digits denote. -/
def Hex4 (t : List Char) (n : Nat) : Prop :=
  ∃ a b c d w x y z, t = [a, b, c, d] ∧ HexDigit a w ∧ HexDigit b x ∧ HexDigit c y ∧ HexDigit d z ∧ n = 4096 * w + 256 * x + 16 * y + z

/-- One character of a string: itself if `raw` allows that (never a quote or a backslash), by a short escape, by its number in hexadecimal, or
by two numbers (a surrogate pair). -/
inductive CharText (raw : Char → Prop) : Char → List Char → Prop
  | raw {c : Char} (h : raw c) (hq : c ≠ '"') (hb : c ≠ '\\') : CharText raw c [c]
  | short {e c : Char} (h : (e, c) ∈ shortEscapes) : CharText raw c ['\\', e]
  | code {t : List Char} {c : Char} (h : Hex4 t c.toNat) : CharText raw c ('\\' :: 'u' :: t)
  | pair {t u : List Char} {x y : Nat} {c : Char} (hx : Hex4 t x) (hy : Hex4 u y) (h0 : 0xD800 ≤ x) (h1 : x < 0xDC00) (h2 : 0xDC00 ≤ y)
      (h3 : y < 0xE000) (hc : c.toNat = 0x10000 + (x - 0xD800) * 0x400 + (y - 0xDC00)) : CharText raw c ('\\' :: 'u' :: t ++ ('\\' :: 'u' :: u))

/-- A string in quotes. -/
def StringText (raw : Char → Prop) (s : String) (t : List Char) : Prop :=
  ∃ ts, List.Forall₂ (CharText raw) s.toList ts ∧ t = '"' :: (ts.flatten ++ ['"'])

/-- Parts separated by commas. -/
def commas (ts : List (List Char)) : List Char := [','].intercalate ts

/-- A text of a JSON value in which at most `d` values lie within each other. No fractions and exponents: the interface has no such numbers. -/
def JsonText (raw : Char → Prop) : Nat → Json → List Char → Prop
  | 0, _, _ => False
  | _ + 1, .null, t => t = "null".toList
  | _ + 1, .bool b, t => t = if b then "true".toList else "false".toList
  | _ + 1, .num neg n, t => ∃ u, NumberText n u ∧ t = if neg then '-' :: u else u
  | _ + 1, .str s, t => StringText raw s t
  | _ + 1, .arr [], t => ∃ a, Blank a ∧ t = '[' :: (a ++ [']'])
  | _ + 1, .obj [], t => ∃ a, Blank a ∧ t = '{' :: (a ++ ['}'])
  | d + 1, .arr (x :: l), t => ∃ ts, List.Forall₂ (fun y => Padded (JsonText raw d y)) (x :: l) ts ∧ t = '[' :: (commas ts ++ [']'])
  | d + 1, .obj (x :: l), t => ∃ ts, List.Forall₂ (fun (y : String × Json) u => ∃ k v, Padded (StringText raw y.1) k ∧
      Padded (JsonText raw d y.2) v ∧ u = k ++ ':' :: v) (x :: l) ts ∧ t = '{' :: (commas ts ++ ['}'])

/-- What the contract reads: in strings every character but quotes and backslashes may stand for itself. -/
def Readable (t : List Char) (j : Json) : Prop := Padded (JsonText (fun _ => True) 128 j) t

/-- What the contract writes: control characters never stand for themselves (RFC 8259), and there is no whitespace to skip at the ends. -/
def WrittenText (t : List Char) (j : Json) : Prop := JsonText (fun c => 0x20 ≤ c.toNat) 128 j t

/-! ### Values -/

/-- An `i64`. -/
def IntJ (t : Int) (v : Json) : Prop := ∃ neg n, v = .num neg n ∧ t = (if neg then -(n : Int) else n) ∧ -2 ^ 63 ≤ t ∧ t < 2 ^ 63
/-- An unsigned integer of `k` bits. -/
def NatJ (k : Nat) (n : Nat) (v : Json) : Prop := v = .num false n ∧ n < 2 ^ k
/-- A text. -/
def StrJ (s : String) (v : Json) : Prop := v = .str s
/-- A truth value. -/
def BoolJ (b : Bool) (v : Json) : Prop := v = .bool b
/-- Digits, or a plus sign and digits. -/
def plusNumber : List Char → Option Nat
  | '+' :: t => number t
  | t => number t
/-- An unsigned integer of `k` bits in a text (`Uint64`, `Uint128`, `Uint256`). -/
def UintJ (k : Nat) (n : Nat) (v : Json) : Prop := ∃ s : String, v = .str s ∧ plusNumber s.toList = some n ∧ n < 2 ^ k
/-- A decimal with `x` atomics of `k` bits in a text (`Decimal`, `Decimal256`): at most 18 digits after the dot. -/
def DecJ (k : Nat) (x : Nat) (v : Json) : Prop :=
  ∃ s : String, v = .str s ∧ x < 2 ^ k ∧
    ((∃ n, plusNumber s.toList = some n ∧ x = n * 10 ^ 18) ∨
     ∃ whole frac n f, s.toList = whole ++ '.' :: frac ∧ plusNumber whole = some n ∧ plusNumber frac = some f ∧ frac.length ≤ 18 ∧
       (x : ℚ) / 10 ^ 18 = n + f / 10 ^ frac.length)
/-- The side of an order. -/
def DirJ (d : Dir) (v : Json) : Prop := v = .str (match d with | .bid => "bid" | .ask => "ask")
/-- Something or null. -/
def OptJ {α : Type} (P : α → Json → Prop) : Option α → Json → Prop
  | none, v => v = .null
  | some x, v => P x v
/-- A list. -/
def ListJ {α : Type} (P : α → Json → Prop) (l : List α) (v : Json) : Prop := ∃ vs, v = .arr vs ∧ List.Forall₂ P l vs
/-- The tick and id of an order. -/
def KeyJ (k : Int × Nat) (v : Json) : Prop := ∃ a b, v = .arr [a, b] ∧ IntJ k.1 a ∧ NatJ 64 k.2 b

/-- A field that must be there. -/
def Need (P : Json → Prop) : Option Json → Prop
  | none => False
  | some v => P v
/-- A field that may be left out or null. -/
def May {α : Type} (P : α → Json → Prop) (o : Option α) : Option Json → Prop
  | none => o = none
  | some v => OptJ P o v

/-- An object with these fields, in any order, and no others; none twice. -/
def Fields (fs : List (String × (Option Json → Prop))) (v : Json) : Prop :=
  ∃ l, v = .obj l ∧ (l.map Prod.fst).Nodup ∧ (∀ k ∈ l.map Prod.fst, k ∈ fs.map Prod.fst) ∧ ∀ f ∈ fs, f.2 (l.lookup f.1)

/-- An object whose only field is the name of the message. -/
def Named (k : String) (P : Json → Prop) (j : Json) : Prop := ∃ v, j = .obj [(k, v)] ∧ P v

/-! ### Messages -/

/-- An amount of a denom. -/
def CoinJ (c : Coin) : Json → Prop := Fields [("denom", Need (StrJ c.denom)), ("amount", Need (UintJ 128 c.amount))]

/-- Administrative messages. -/
def AuthJ : AuthMsg → Json → Prop
  | .transferAdmin a => Named "transfer_admin" (Fields [("new_admin", Need (StrJ a))])
  | .cancelAdminTransfer => Named "cancel_admin_transfer" (Fields [])
  | .rejectAdminTransfer => Named "reject_admin_transfer" (Fields [])
  | .claimAdmin => Named "claim_admin" (Fields [])
  | .renounceAdminship => Named "renounce_adminship" (Fields [])
  | .offerModerator a => Named "offer_moderator" (Fields [("new_moderator", Need (StrJ a))])
  | .rejectModeratorOffer => Named "reject_moderator_offer" (Fields [])
  | .claimModerator => Named "claim_moderator" (Fields [])
  | .setActive b => Named "set_active" (Fields [("active", Need (BoolJ b))])
  | .setMakerFee fee => Named "set_maker_fee" (Fields [("fee", Need (DecJ 256 fee))])
  | .setMakerFeeRecipient a => Named "set_maker_fee_recipient" (Fields [("recipient", Need (StrJ a))])

/-- Messages of users. -/
def ExecuteJ : ExecuteMsg → Json → Prop
  | .placeLimit tick dir q bounty => Named "place_limit" (Fields [("tick_id", Need (IntJ tick)), ("order_direction", Need (DirJ dir)),
      ("quantity", Need (UintJ 128 q)), ("claim_bounty", May (DecJ 256) bounty)])
  | .cancelLimit tick id => Named "cancel_limit" (Fields [("tick_id", Need (IntJ tick)), ("order_id", Need (NatJ 64 id))])
  | .claimLimit tick id => Named "claim_limit" (Fields [("tick_id", Need (IntJ tick)), ("order_id", Need (NatJ 64 id))])
  | .batchClaim orders => Named "batch_claim" (Fields [("orders", Need (ListJ KeyJ orders))])
  | .auth m => Named "auth" (AuthJ m)

/-- Calls of the chain. -/
def SudoJ : SudoMsg → Json → Prop
  | .swapExactAmountIn sender c out min fee => Named "swap_exact_amount_in" (Fields [("sender", Need (StrJ sender)), ("token_in", Need (CoinJ c)),
      ("token_out_denom", Need (StrJ out)), ("token_out_min_amount", Need (UintJ 128 min)), ("swap_fee", Need (DecJ 128 fee))])
  | .swapToTick sender c out min fee t => Named "swap_to_tick" (Fields [("sender", Need (StrJ sender)), ("token_in", Need (CoinJ c)),
      ("token_out_denom", Need (StrJ out)), ("token_out_min_amount", Need (UintJ 128 min)), ("swap_fee", Need (DecJ 128 fee)),
      ("target_tick", Need (IntJ t))])
  | .swapExactAmountOut sender d max c fee => Named "swap_exact_amount_out" (Fields [("sender", Need (StrJ sender)),
      ("token_in_denom", Need (StrJ d)), ("token_in_max_amount", Need (UintJ 128 max)), ("token_out", Need (CoinJ c)),
      ("swap_fee", Need (DecJ 128 fee))])
  | .transferAdmin a => Named "transfer_admin" (Fields [("new_admin", Need (StrJ a))])
  | .removeAdmin => Named "remove_admin" (Fields [])
  | .setActive b => Named "set_active" (Fields [("active", Need (BoolJ b))])

/-- Queries about the administration. -/
def AuthQueryJ : AuthQueryMsg → Json → Prop
  | .admin => Named "admin" (Fields [])
  | .adminOffer => Named "admin_offer" (Fields [])
  | .moderator => Named "moderator" (Fields [])
  | .moderatorOffer => Named "moderator_offer" (Fields [])

/-- Queries. -/
def QueryJ : QueryMsg → Json → Prop
  | .spotPrice quote base => Named "spot_price" (Fields [("quote_asset_denom", Need (StrJ quote)), ("base_asset_denom", Need (StrJ base))])
  | .calcOutAmountGivenIn c out fee => Named "calc_out_amount_given_in" (Fields [("token_in", Need (CoinJ c)),
      ("token_out_denom", Need (StrJ out)), ("swap_fee", Need (DecJ 128 fee))])
  | .calcOutAmtGivenIn c out fee => Named "calc_out_amt_given_in" (Fields [("token_in", Need (CoinJ c)),
      ("token_out_denom", Need (StrJ out)), ("swap_fee", Need (DecJ 128 fee))])
  | .getTotalPoolLiquidity => Named "get_total_pool_liquidity" (Fields [])
  | .calcInAmtGivenOut => Named "calc_in_amt_given_out" (Fields [])
  | .getSwapFee => Named "get_swap_fee" (Fields [])
  | .allTicks a b l => Named "all_ticks" (Fields [("start_from", May IntJ a), ("end_at", May IntJ b), ("limit", May (NatJ 32) l)])
  | .getMakerFee => Named "get_maker_fee" (Fields [])
  | .auth m => Named "auth" (AuthQueryJ m)
  | .isActive => Named "is_active" (Fields [])
  | .ordersByOwner o a b l => Named "orders_by_owner" (Fields [("owner", Need (StrJ o)), ("start_from", May KeyJ a), ("end_at", May KeyJ b),
      ("limit", May (NatJ 64) l)])
  | .ordersByTick t a b l => Named "orders_by_tick" (Fields [("tick_id", Need (IntJ t)), ("start_from", May (NatJ 64) a),
      ("end_at", May (NatJ 64) b), ("limit", May (NatJ 64) l)])
  | .orderbookState => Named "orderbook_state" (Fields [])
  | .denoms => Named "denoms" (Fields [])
  | .ticksById ids => Named "ticks_by_id" (Fields [("tick_ids", Need (ListJ IntJ ids))])
  | .getUnrealizedCancels ids => Named "get_unrealized_cancels" (Fields [("tick_ids", Need (ListJ IntJ ids))])

/-- The instantiation message: base denom, quote denom. -/
def InstantiateJ (base quote : Denom) : Json → Prop := Fields [("base_denom", Need (StrJ base)), ("quote_denom", Need (StrJ quote))]

/-! ### Stored values and answers -/

/-- One side of a tick. -/
def TickValuesJ (v : TickValues) : Json → Prop := Fields [("total_amount_of_liquidity", Need (DecJ 256 v.tal)),
  ("cumulative_total_value", Need (DecJ 256 v.ctv)), ("effective_total_amount_swapped", Need (DecJ 256 v.etas)),
  ("cumulative_realized_cancels", Need (DecJ 256 v.crc)), ("last_tick_sync_etas", Need (DecJ 256 v.lastSync))]
/-- A tick. -/
def TickStateJ (t : TickState) : Json → Prop := Fields [("ask_values", Need (TickValuesJ t.askValues)), ("bid_values", Need (TickValuesJ t.bidValues))]
/-- The time an order was placed at: zero in records that do not have it. -/
def PlacedAt (n : Nat) : Option Json → Prop
  | none => n = 0
  | some v => UintJ 64 n v
/-- An order. -/
def OrderJ (o : LimitOrder) : Json → Prop := Fields [("tick_id", Need (IntJ o.tickId)), ("order_id", Need (NatJ 64 o.orderId)),
  ("order_direction", Need (DirJ o.dir)), ("owner", Need (StrJ o.owner)), ("quantity", Need (UintJ 128 o.quantity)), ("etas", Need (DecJ 256 o.etas)),
  ("claim_bounty", May (DecJ 256) o.claimBounty), ("placed_quantity", Need (UintJ 128 o.placedQuantity)), ("placed_at", PlacedAt o.placedAt)]
/-- The orderbook's record. -/
def BookJ (b : Orderbook) : Json → Prop := Fields [("quote_denom", Need (StrJ b.quoteDenom)), ("base_denom", Need (StrJ b.baseDenom)),
  ("current_tick", Need (IntJ b.currentTick)), ("next_bid_tick", Need (IntJ b.nextBidTick)), ("next_ask_tick", Need (IntJ b.nextAskTick))]
/-- An interval. -/
def RangeJ (lo hi : Nat) (v : Json) : Prop := ∃ a b, v = .arr [a, b] ∧ DecJ 256 lo a ∧ DecJ 256 hi b
/-- The contents of a tree node. -/
def NodeTypeJ : NodeType → Json → Prop
  | .leaf value etas => Named "leaf" (Fields [("value", Need (DecJ 256 value)), ("etas", Need (DecJ 256 etas))])
  | .internal acc lo hi weight => Named "internal" (Fields [("accumulator", Need (DecJ 256 acc)), ("range", Need (RangeJ lo hi)),
      ("weight", Need (NatJ 64 weight))])
/-- A tree node. -/
def NodeJ (n : TreeNode) : Json → Prop := Fields [("key", Need (NatJ 64 n.key)), ("tick_id", Need (IntJ n.tickId)), ("direction", Need (DirJ n.dir)),
  ("left", May (NatJ 64) n.left), ("right", May (NatJ 64) n.right), ("parent", May (NatJ 64) n.parent), ("node_type", Need (NodeTypeJ n.ntype))]

/-- The value of a storage cell. -/
def CellJ : Cell → Val → Json → Prop
  | .orderId, .nat n | .root _ _, .nat n | .counter _, .nat n => NatJ 64 n
  | .makerFee, .nat x | .dirLiq _, .nat x => DecJ 256 x
  | .orderbook, .book b => BookJ b
  | .isActive, .bool b => BoolJ b
  | .makerFeeRecipient, .addr a | .admin, .addr a | .adminOffer, .addr a | .moderator, .addr a | .moderatorOffer, .addr a => StrJ a
  | .tick _, .tick x => TickStateJ x
  | .order _, .order o => OrderJ o
  | .ownerIdx _ _, .pkLen n | .tickOwnerIdx _ _ _, .pkLen n => NatJ 32 n
  | .node _ _, .node n => NodeJ n
  | _, _ => fun _ => False

/-- A tick in an answer. -/
def TickJ (x : Int × TickState) : Json → Prop := Fields [("tick_id", Need (IntJ x.1)), ("tick_state", Need (TickStateJ x.2))]
/-- A tick's unrealized cancellations (ask, bid) in an answer. -/
def UnrealizedJ (x : Int × Nat × Nat) : Json → Prop := Fields [("tick_id", Need (IntJ x.1)),
  ("unrealized_cancels", Need (Fields [("ask_unrealized_cancels", Need (DecJ 256 x.2.1)), ("bid_unrealized_cancels", Need (DecJ 256 x.2.2))]))]

/-- Answers. The maker fee comes bare (DESIGN.md §6). -/
def AnswerJ : QueryMsg → Answer → Json → Prop
  | .spotPrice _ _, .decimal x => Fields [("spot_price", Need (DecJ 128 x))]
  | .calcOutAmountGivenIn _ _ _, .coin c | .calcOutAmtGivenIn _ _ _, .coin c => Fields [("token_out", Need (CoinJ c))]
  | .getTotalPoolLiquidity, .coins cs => Fields [("total_pool_liquidity", Need (ListJ CoinJ cs))]
  | .getSwapFee, .decimal x => Fields [("swap_fee", Need (DecJ 128 x))]
  | .allTicks _ _ _, .ticks l | .ticksById _, .ticks l => Fields [("ticks", Need (ListJ TickJ l))]
  | .getMakerFee, .decimal x => DecJ 256 x
  | .auth _, .addr a => OptJ StrJ a
  | .isActive, .bool b => BoolJ b
  | .ordersByOwner _ _ _ _, .orders count l | .ordersByTick _ _ _ _, .orders count l =>
      Fields [("orders", Need (ListJ OrderJ l)), ("count", Need (NatJ 64 count))]
  | .orderbookState, .book b => BookJ b
  | .denoms, .denoms quote base => Fields [("quote_denom", Need (StrJ quote)), ("base_denom", Need (StrJ base))]
  | .getUnrealizedCancels _, .unrealized l => Fields [("ticks", Need (ListJ UnrealizedJ l))]
  | _, _ => fun _ => False

/-- The data of a swap's response. -/
def SwapDataJ (x : Nat) : Json → Prop := Fields [("token_out_amount", Need (UintJ 256 x))]

end OB.Spec
