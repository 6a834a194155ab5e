import Verif.Model.World
import Verif.Model.Text
import Verif.Model.Storage
/-
JSON forms: the messages of msg.rs:7-271, the answers (contract.rs:104-177, `to_json_binary`), the `data` of a swap (sudo.rs:184-186) and
the values in the storage (state.rs:8-38, auth.rs:11-14, node.rs:16-17, tree.rs:7) as serde-json-wasm 0.5.2 (Cargo.lock:1890) reads and
writes them for the types derived with `cw_serde` (snake case names, unknown fields denied; msg.rs, types/*.rs, node.rs:28, 102).
The library's code is not in /repo. It parses straight into the wanted type; here reading goes through a JSON value in two steps
(`Json.parse`, then a `read…` function per type), which accepts the same texts. Floating point numbers are refused (no field is one).
-/
namespace OB

/-- JSON values (serde-json-wasm; no code in /repo, used at contract.rs:104-177). A number is its sign and its digits' value; an object is the list of its
entries in the order of the text. -/
inductive Json where
  | null
  | bool (b : Bool)
  | num (neg : Bool) (n : Nat)
  | str (s : String)
  | arr (l : List Json)
  | obj (l : List (String × Json))

namespace Json

/-! ### Writing text -/

/-- Hexadecimal digit (serde-json-wasm ser, `\u00XX`; contract.rs:104-177) -/
def hexDigit (n : Nat) : Char := if n < 10 then Char.ofNat (48 + n) else Char.ofNat (55 + n)

/-- One character of a string as serde-json-wasm writes it (contract.rs:104-177): quotes, backslashes and control characters escaped. -/
def escChar (c : Char) : List Char :=
  if c = '"' then ['\\', '"']
  else if c = '\\' then ['\\', '\\']
  else if c.toNat = 8 then ['\\', 'b']
  else if c.toNat = 9 then ['\\', 't']
  else if c.toNat = 10 then ['\\', 'n']
  else if c.toNat = 12 then ['\\', 'f']
  else if c.toNat = 13 then ['\\', 'r']
  else if c.toNat < 32 then ['\\', 'u', '0', '0', hexDigit (c.toNat / 16), hexDigit (c.toNat % 16)]
  else [c]

/-- A string as serde-json-wasm writes it (contract.rs:104-177) -/
def strText (s : String) : List Char := '"' :: (s.toList.flatMap escChar ++ ['"'])

mutual
/-- `to_json_binary` without whitespace (contract.rs:104-177, sudo.rs:184) -/
def text : Json → List Char
  | .null => "null".toList
  | .bool b => (boolText b).toList
  | .num neg n => if neg then '-' :: natText n else natText n
  | .str s => strText s
  | .arr l => '[' :: itemsText l
  | .obj l => '{' :: entriesText l
/-- The elements of an array and the closing bracket (contract.rs:104-177, serde-json-wasm `serialize_seq`) -/
def itemsText : List Json → List Char
  | [] => [']']
  | [x] => x.text ++ [']']
  | x :: y :: l => x.text ++ ',' :: itemsText (y :: l)
/-- The entries of an object and the closing brace (contract.rs:104-177, serde-json-wasm `serialize_struct`) -/
def entriesText : List (String × Json) → List Char
  | [] => ['}']
  | [x] => strText x.1 ++ ':' :: (x.2.text ++ ['}'])
  | x :: y :: l => strText x.1 ++ ':' :: (x.2.text ++ ',' :: entriesText (y :: l))
end

/-! ### Reading text -/

/-- Whitespace of serde-json-wasm (`parse_whitespace`; entry points contract.rs:25-180) -/
def isSpace (c : Char) : Bool := c = ' ' || c = '\n' || c = '\t' || c = '\r'

/-- Skipping whitespace (`parse_whitespace`; entry points contract.rs:25-180) -/
def skip (l : List Char) : List Char := l.dropWhile isSpace

/-- The value of a hexadecimal digit (`\uXXXX`, serde-json-wasm de; entry points contract.rs:25-180) -/
def hexVal (c : Char) : Option Nat :=
  if c.isDigit then some (c.toNat - 48)
  else if 65 ≤ c.toNat ∧ c.toNat ≤ 70 then some (c.toNat - 55)
  else if 97 ≤ c.toNat ∧ c.toNat ≤ 102 then some (c.toNat - 87)
  else none

/-- Four hexadecimal digits (serde-json-wasm de; entry points contract.rs:25-180) -/
def hex4 (a b c d : Char) : Option Nat := do
  let a ← hexVal a
  let b ← hexVal b
  let c ← hexVal c
  let d ← hexVal d
  some (((a * 16 + b) * 16 + c) * 16 + d)

/-- The rest of a string after its opening quote, and what follows the closing one (serde-json-wasm `parse_string`; entry points
contract.rs:25-180). The first argument bounds the number of characters. -/
def readChars : Nat → List Char → Option (List Char × List Char)
  | 0, _ => none
  | _ + 1, '"' :: r => some ([], r)
  | n + 1, '\\' :: c :: r =>
    let one (x : Char) := (readChars n r).map fun p => (x :: p.1, p.2)
    match c with
    | '"' => one '"'
    | '\\' => one '\\'
    | '/' => one '/'
    | 'b' => one (Char.ofNat 8)
    | 't' => one (Char.ofNat 9)
    | 'n' => one (Char.ofNat 10)
    | 'f' => one (Char.ofNat 12)
    | 'r' => one (Char.ofNat 13)
    | 'u' =>
      match r with
      | a :: b :: c :: d :: r =>
        match hex4 a b c d with
        | none => none
        | some x =>
          if 0xD800 ≤ x ∧ x < 0xDC00 then
            match r with
            | '\\' :: 'u' :: a :: b :: c :: d :: r =>
              match hex4 a b c d with
              | none => none
              | some y =>
                if 0xDC00 ≤ y ∧ y < 0xE000 then
                  (readChars n r).map fun p => (Char.ofNat (0x10000 + (x - 0xD800) * 1024 + (y - 0xDC00)) :: p.1, p.2)
                else none
            | _ => none
          else if 0xDC00 ≤ x ∧ x < 0xE000 then none
          else (readChars n r).map fun p => (Char.ofNat x :: p.1, p.2)
      | _ => none
    | _ => none
  | _ + 1, ['\\'] => none
  | n + 1, c :: r => (readChars n r).map fun p => (c :: p.1, p.2)
  | _ + 1, [] => none

/-- A string (serde-json-wasm `parse_string`; entry points contract.rs:25-180) -/
def readStr : List Char → Option (String × List Char)
  | '"' :: r => (readChars (r.length + 1) r).map fun p => (String.ofList p.1, p.2)
  | _ => none

/-- Digits without leading zeros (serde-json-wasm `deserialize_unsigned!`; entry points contract.rs:25-180). A zero ends the number. -/
def readDigitsOf (l : List Char) : Option (Nat × List Char) :=
  match l with
  | '0' :: r => some (0, r)
  | l =>
    let ds := l.takeWhile Char.isDigit
    if ds = [] then none else some (Nat.ofDigitChars 10 ds 0, l.dropWhile Char.isDigit)

/-- The elements of a non-empty array up to its closing bracket (serde-json-wasm `SeqAccess`; entry points contract.rs:25-180); the first number bounds the count. -/
def readItems (rd : List Char → Option (Json × List Char)) : Nat → List Char → Option (List Json × List Char)
  | 0, _ => none
  | n + 1, s =>
    match rd s with
    | none => none
    | some (x, r) =>
      match skip r with
      | ']' :: r => some ([x], r)
      | ',' :: r => (readItems rd n r).map fun p => (x :: p.1, p.2)
      | _ => none

/-- The entries of a non-empty object up to its closing brace (serde-json-wasm `MapAccess`; entry points contract.rs:25-180); the first number bounds the count. -/
def readEntries (rd : List Char → Option (Json × List Char)) : Nat → List Char → Option (List (String × Json) × List Char)
  | 0, _ => none
  | n + 1, s =>
    match readStr (skip s) with
    | none => none
    | some (k, r) =>
      match skip r with
      | ':' :: r =>
        match rd r with
        | none => none
        | some (x, r) =>
          match skip r with
          | '}' :: r => some ([(k, x)], r)
          | ',' :: r => (readEntries rd n r).map fun p => ((k, x) :: p.1, p.2)
          | _ => none
      | _ => none

/-- A value and the rest of the text (serde-json-wasm; entry points contract.rs:25-180). The first argument is the nesting still allowed. -/
def readValue : Nat → List Char → Option (Json × List Char)
  | 0, _ => none
  | d + 1, s =>
    match skip s with
    | 'n' :: 'u' :: 'l' :: 'l' :: r => some (.null, r)
    | 't' :: 'r' :: 'u' :: 'e' :: r => some (.bool true, r)
    | 'f' :: 'a' :: 'l' :: 's' :: 'e' :: r => some (.bool false, r)
    | '"' :: r => (readStr ('"' :: r)).map fun p => (.str p.1, p.2)
    | '[' :: r =>
      match skip r with
      | ']' :: r => some (.arr [], r)
      | _ => (readItems (readValue d) r.length r).map fun p => (.arr p.1, p.2)
    | '{' :: r =>
      match skip r with
      | '}' :: r => some (.obj [], r)
      | _ => (readEntries (readValue d) r.length r).map fun p => (.obj p.1, p.2)
    | '-' :: r => (readDigitsOf r).map fun p => (.num true p.1, p.2)
    | r => (readDigitsOf r).map fun p => (.num false p.1, p.2)

/-- serde-json-wasm's nesting limit (0.5.2) for the messages read at contract.rs:25-180 -/
def maxDepth : Nat := 128

/-- `from_json` up to the typed part (entry points contract.rs:25-180): one value with nothing but whitespace around it. -/
def parse (t : List Char) : Option Json :=
  match readValue maxDepth t with
  | some (j, r) => if skip r = [] then some j else none
  | none => none

/-! ### Typed reading -/

/-- `i64` (msg.rs:17) -/
def readI64 : Json → Option Int
  | .num neg n =>
    let t : Int := if neg then -(n : Int) else n
    if i64Ok t then some t else none
  | _ => none

/-- Unsigned integers below a bound: `u64` (msg.rs:24), `usize` (msg.rs:105) -/
def readNat (bound : Nat) : Json → Option Nat
  | .num false n => if n < bound then some n else none
  | _ => none

/-- `bool` (msg.rs:52) -/
def readBool : Json → Option Bool
  | .bool b => some b
  | _ => none

/-- `String`, `Addr` (msg.rs:9, 41) -/
def readString : Json → Option String
  | .str s => some s
  | _ => none

/-- `Uint128` (bound 2^128, msg.rs:19), `Uint256` (bound 2^256, msg.rs:275), and the `Uint64` of a `Timestamp` (types/order.rs:51): a text of digits -/
def readUintStr (bound : Nat) : Json → Option Nat
  | .str s => readUint bound s.toList
  | _ => none

/-- `Decimal` (bound 2^128, msg.rs:81) and `Decimal256` (bound 2^256, msg.rs:20), as atomics -/
def readDec (bound : Nat) : Json → Option Nat
  | .str s => readDecimal bound s.toList
  | _ => none

/-- `Option<_>` (msg.rs:20): null is absent -/
def readOpt {α : Type} (rd : Json → Option α) : Json → Option (Option α)
  | .null => some none
  | j => (rd j).map some

/-- `Vec<_>` (msg.rs:31) -/
def readList {α : Type} (rd : Json → Option α) : Json → Option (List α)
  | .arr l => l.mapM rd
  | _ => none

/-- Pairs (msg.rs:31, node.rs:40) -/
def readPair {α β : Type} (ra : Json → Option α) (rb : Json → Option β) : Json → Option (α × β)
  | .arr [a, b] => do some (← ra a, ← rb b)
  | _ => none

/-- The fields of a struct (`cw_serde`: unknown and repeated fields are refused; e.g. msg.rs:8): the value under each name. -/
def fields (names : List String) : Json → Option (String → Option Json)
  | .obj l =>
    if (l.map Prod.fst).all (· ∈ names) ∧ (l.map Prod.fst).Nodup then some fun k => l.lookup k else none
  | _ => none

/-- A required field (e.g. msg.rs:9) -/
def req {α : Type} (f : String → Option Json) (k : String) (rd : Json → Option α) : Option α := (f k).bind rd

/-- An `Option<_>` field (e.g. msg.rs:20): may be left out -/
def opt {α : Type} (f : String → Option Json) (k : String) (rd : Json → Option α) : Option (Option α) :=
  match f k with
  | none => some none
  | some j => readOpt rd j

/-- An enum value with content (`cw_serde`, externally tagged; e.g. msg.rs:15): an object with one entry, the variant's name. -/
def variant : Json → Option (String × Json)
  | .obj [(k, v)] => some (k, v)
  | _ => none

/-- An enum (`cw_serde`; e.g. msg.rs:15): the content is read as the variant's table entry says; other names are refused. -/
def readEnum {α : Type} (table : List (String × (Json → Option α))) (j : Json) : Option α :=
  j.variant.bind fun p => (table.lookup p.1).bind fun rd => rd p.2

/-- A variant without fields, e.g. msg.rs:42 -/
def unit {α : Type} (x : α) (v : Json) : Option α := (v.fields []).map fun _ => x

/-! ### Typed writing -/

/-- `i64` (msg.rs:17) -/
def ofInt (t : Int) : Json := .num (decide (t < 0)) t.natAbs
/-- `u64`, `usize` (msg.rs:24, 105) -/
def ofNat (n : Nat) : Json := .num false n
/-- `Uint128`, `Uint256`, `Uint64` (msg.rs:19, 275; types/order.rs:51): as a text -/
def ofUint (n : Nat) : Json := .str (.ofList (natText n))
/-- `Decimal`, `Decimal256` (msg.rs:20, 81): as a text -/
def ofDec (x : Nat) : Json := .str (.ofList (decText x))
/-- `Option<_>` (msg.rs:20): null is absent -/
def ofOpt {α : Type} (w : α → Json) : Option α → Json
  | none => .null
  | some x => w x
/-- `(i64, u64)` (msg.rs:31) -/
def ofKey (k : Int × Nat) : Json := .arr [ofInt k.1, ofNat k.2]

end Json
open Json

/-! ### Shared types -/

/-- types/order.rs:7-12 (`cw_serde` unit variants) -/
def Dir.json (d : Dir) : Json := .str d.text
/-- types/order.rs:7-12 -/
def readDir : Json → Option Dir
  | .str "bid" => some .bid
  | .str "ask" => some .ask
  | _ => none

/-- cosmwasm_std::Coin (msg.rs:79) and, with the same form, osmosis_std's proto Coin (msg.rs:166) -/
def Coin.json (c : Coin) : Json := .obj [("denom", .str c.denom), ("amount", ofUint c.amount)]
/-- cosmwasm_std::Coin (msg.rs:79), amounts below 2^128 -/
def readCoin (j : Json) : Option Coin := do
  let f ← j.fields ["denom", "amount"]
  some ⟨← req f "denom" readString, ← req f "amount" (readUintStr U128)⟩

/-- `(i64, u64)` (msg.rs:31) -/
def readKey : Json → Option (Int × Nat) := readPair readI64 (readNat U64)

/-! ### Messages -/

/-- msg.rs:36-55 -/
def AuthMsg.json : AuthMsg → Json
  | .transferAdmin a => .obj [("transfer_admin", .obj [("new_admin", .str a)])]
  | .cancelAdminTransfer => .obj [("cancel_admin_transfer", .obj [])]
  | .rejectAdminTransfer => .obj [("reject_admin_transfer", .obj [])]
  | .claimAdmin => .obj [("claim_admin", .obj [])]
  | .renounceAdminship => .obj [("renounce_adminship", .obj [])]
  | .offerModerator a => .obj [("offer_moderator", .obj [("new_moderator", .str a)])]
  | .rejectModeratorOffer => .obj [("reject_moderator_offer", .obj [])]
  | .claimModerator => .obj [("claim_moderator", .obj [])]
  | .setActive b => .obj [("set_active", .obj [("active", .bool b)])]
  | .setMakerFee fee => .obj [("set_maker_fee", .obj [("fee", ofDec fee)])]
  | .setMakerFeeRecipient a => .obj [("set_maker_fee_recipient", .obj [("recipient", .str a)])]

/-- msg.rs:36-55 -/
def readAuthMsg : Json → Option AuthMsg := readEnum [
    ("transfer_admin", fun v => do
      let f ← v.fields ["new_admin"]
      some (.transferAdmin (← req f "new_admin" readString))),
    ("cancel_admin_transfer", unit .cancelAdminTransfer),
    ("reject_admin_transfer", unit .rejectAdminTransfer),
    ("claim_admin", unit .claimAdmin),
    ("renounce_adminship", unit .renounceAdminship),
    ("offer_moderator", fun v => do
      let f ← v.fields ["new_moderator"]
      some (.offerModerator (← req f "new_moderator" readString))),
    ("reject_moderator_offer", unit .rejectModeratorOffer),
    ("claim_moderator", unit .claimModerator),
    ("set_active", fun v => do
      let f ← v.fields ["active"]
      some (.setActive (← req f "active" readBool))),
    ("set_maker_fee", fun v => do
      let f ← v.fields ["fee"]
      some (.setMakerFee (← req f "fee" (readDec U256)))),
    ("set_maker_fee_recipient", fun v => do
      let f ← v.fields ["recipient"]
      some (.setMakerFeeRecipient (← req f "recipient" readString)))]

/-- msg.rs:14-34 -/
def ExecuteMsg.json : ExecuteMsg → Json
  | .placeLimit tick dir q bounty => .obj [("place_limit", .obj [("tick_id", ofInt tick), ("order_direction", dir.json), ("quantity", ofUint q),
      ("claim_bounty", ofOpt ofDec bounty)])]
  | .cancelLimit tick id => .obj [("cancel_limit", .obj [("tick_id", ofInt tick), ("order_id", ofNat id)])]
  | .claimLimit tick id => .obj [("claim_limit", .obj [("tick_id", ofInt tick), ("order_id", ofNat id)])]
  | .batchClaim orders => .obj [("batch_claim", .obj [("orders", .arr (orders.map ofKey))])]
  | .auth m => .obj [("auth", m.json)]

/-- msg.rs:14-34 -/
def readExecuteMsg : Json → Option ExecuteMsg := readEnum [
    ("place_limit", fun v => do
      let f ← v.fields ["tick_id", "order_direction", "quantity", "claim_bounty"]
      some (.placeLimit (← req f "tick_id" readI64) (← req f "order_direction" readDir) (← req f "quantity" (readUintStr U128))
      (← opt f "claim_bounty" (readDec U256)))),
    ("cancel_limit", fun v => do
      let f ← v.fields ["tick_id", "order_id"]
      some (.cancelLimit (← req f "tick_id" readI64) (← req f "order_id" (readNat U64)))),
    ("claim_limit", fun v => do
      let f ← v.fields ["tick_id", "order_id"]
      some (.claimLimit (← req f "tick_id" readI64) (← req f "order_id" (readNat U64)))),
    ("batch_claim", fun v => do
      let f ← v.fields ["orders"]
      some (.batchClaim (← req f "orders" (readList readKey)))),
    ("auth", fun v => (readAuthMsg v).map .auth)]

/-- msg.rs:226-270 -/
def SudoMsg.json : SudoMsg → Json
  | .swapExactAmountIn sender c out m fee => .obj [("swap_exact_amount_in", .obj [("sender", .str sender), ("token_in", c.json),
      ("token_out_denom", .str out), ("token_out_min_amount", ofUint m), ("swap_fee", ofDec fee)])]
  | .swapToTick sender c out m fee t => .obj [("swap_to_tick", .obj [("sender", .str sender), ("token_in", c.json), ("token_out_denom", .str out),
      ("token_out_min_amount", ofUint m), ("swap_fee", ofDec fee), ("target_tick", ofInt t)])]
  | .swapExactAmountOut sender d m c fee => .obj [("swap_exact_amount_out", .obj [("sender", .str sender), ("token_in_denom", .str d),
      ("token_in_max_amount", ofUint m), ("token_out", c.json), ("swap_fee", ofDec fee)])]
  | .transferAdmin a => .obj [("transfer_admin", .obj [("new_admin", .str a)])]
  | .removeAdmin => .obj [("remove_admin", .obj [])]
  | .setActive b => .obj [("set_active", .obj [("active", .bool b)])]

/-- msg.rs:226-270 -/
def readSudoMsg : Json → Option SudoMsg := readEnum [
    ("swap_exact_amount_in", fun v => do
      let f ← v.fields ["sender", "token_in", "token_out_denom", "token_out_min_amount", "swap_fee"]
      some (.swapExactAmountIn (← req f "sender" readString) (← req f "token_in" readCoin) (← req f "token_out_denom" readString)
      (← req f "token_out_min_amount" (readUintStr U128)) (← req f "swap_fee" (readDec U128)))),
    ("swap_to_tick", fun v => do
      let f ← v.fields ["sender", "token_in", "token_out_denom", "token_out_min_amount", "swap_fee", "target_tick"]
      some (.swapToTick (← req f "sender" readString) (← req f "token_in" readCoin) (← req f "token_out_denom" readString)
      (← req f "token_out_min_amount" (readUintStr U128)) (← req f "swap_fee" (readDec U128)) (← req f "target_tick" readI64))),
    ("swap_exact_amount_out", fun v => do
      let f ← v.fields ["sender", "token_in_denom", "token_in_max_amount", "token_out", "swap_fee"]
      some (.swapExactAmountOut (← req f "sender" readString) (← req f "token_in_denom" readString)
      (← req f "token_in_max_amount" (readUintStr U128)) (← req f "token_out" readCoin) (← req f "swap_fee" (readDec U128)))),
    ("transfer_admin", fun v => do
      let f ← v.fields ["new_admin"]
      some (.transferAdmin (← req f "new_admin" readString))),
    ("remove_admin", unit .removeAdmin),
    ("set_active", fun v => do
      let f ← v.fields ["active"]
      some (.setActive (← req f "active" readBool)))]

/-- msg.rs:150-158 -/
def AuthQueryMsg.json : AuthQueryMsg → Json
  | .admin => .obj [("admin", .obj [])]
  | .adminOffer => .obj [("admin_offer", .obj [])]
  | .moderator => .obj [("moderator", .obj [])]
  | .moderatorOffer => .obj [("moderator_offer", .obj [])]

/-- msg.rs:150-158 -/
def readAuthQueryMsg : Json → Option AuthQueryMsg := readEnum [
    ("admin", unit .admin),
    ("admin_offer", unit .adminOffer),
    ("moderator", unit .moderator),
    ("moderator_offer", unit .moderatorOffer)]

/-- msg.rs:69-148 -/
def QueryMsg.json : QueryMsg → Json
  | .spotPrice q b => .obj [("spot_price", .obj [("quote_asset_denom", .str q), ("base_asset_denom", .str b)])]
  | .calcOutAmountGivenIn c out fee => .obj [("calc_out_amount_given_in", .obj [("token_in", c.json), ("token_out_denom", .str out), ("swap_fee", ofDec fee)])]
  | .calcOutAmtGivenIn c out fee => .obj [("calc_out_amt_given_in", .obj [("token_in", c.json), ("token_out_denom", .str out), ("swap_fee", ofDec fee)])]
  | .getTotalPoolLiquidity => .obj [("get_total_pool_liquidity", .obj [])]
  | .calcInAmtGivenOut => .obj [("calc_in_amt_given_out", .obj [])]
  | .getSwapFee => .obj [("get_swap_fee", .obj [])]
  | .allTicks a b l => .obj [("all_ticks", .obj [("start_from", ofOpt ofInt a), ("end_at", ofOpt ofInt b), ("limit", ofOpt ofNat l)])]
  | .getMakerFee => .obj [("get_maker_fee", .obj [])]
  | .auth m => .obj [("auth", m.json)]
  | .isActive => .obj [("is_active", .obj [])]
  | .ordersByOwner o a b l => .obj [("orders_by_owner", .obj [("owner", .str o), ("start_from", ofOpt ofKey a), ("end_at", ofOpt ofKey b),
      ("limit", ofOpt ofNat l)])]
  | .ordersByTick t a b l => .obj [("orders_by_tick", .obj [("tick_id", ofInt t), ("start_from", ofOpt ofNat a), ("end_at", ofOpt ofNat b),
      ("limit", ofOpt ofNat l)])]
  | .orderbookState => .obj [("orderbook_state", .obj [])]
  | .denoms => .obj [("denoms", .obj [])]
  | .ticksById ids => .obj [("ticks_by_id", .obj [("tick_ids", .arr (ids.map ofInt))])]
  | .getUnrealizedCancels ids => .obj [("get_unrealized_cancels", .obj [("tick_ids", .arr (ids.map ofInt))])]

/-- msg.rs:69-148. `usize` has 32 bits in WebAssembly. -/
def readQueryMsg : Json → Option QueryMsg := readEnum [
    ("spot_price", fun v => do
      let f ← v.fields ["quote_asset_denom", "base_asset_denom"]
      some (.spotPrice (← req f "quote_asset_denom" readString) (← req f "base_asset_denom" readString))),
    ("calc_out_amount_given_in", fun v => do
      let f ← v.fields ["token_in", "token_out_denom", "swap_fee"]
      some (.calcOutAmountGivenIn (← req f "token_in" readCoin) (← req f "token_out_denom" readString) (← req f "swap_fee" (readDec U128)))),
    ("calc_out_amt_given_in", fun v => do
      let f ← v.fields ["token_in", "token_out_denom", "swap_fee"]
      some (.calcOutAmtGivenIn (← req f "token_in" readCoin) (← req f "token_out_denom" readString) (← req f "swap_fee" (readDec U128)))),
    ("get_total_pool_liquidity", unit .getTotalPoolLiquidity),
    ("calc_in_amt_given_out", unit .calcInAmtGivenOut),
    ("get_swap_fee", unit .getSwapFee),
    ("all_ticks", fun v => do
      let f ← v.fields ["start_from", "end_at", "limit"]
      some (.allTicks (← opt f "start_from" readI64) (← opt f "end_at" readI64) (← opt f "limit" (readNat (2 ^ 32))))),
    ("get_maker_fee", unit .getMakerFee),
    ("auth", fun v => (readAuthQueryMsg v).map .auth),
    ("is_active", unit .isActive),
    ("orders_by_owner", fun v => do
      let f ← v.fields ["owner", "start_from", "end_at", "limit"]
      some (.ordersByOwner (← req f "owner" readString) (← opt f "start_from" readKey) (← opt f "end_at" readKey) (← opt f "limit" (readNat U64)))),
    ("orders_by_tick", fun v => do
      let f ← v.fields ["tick_id", "start_from", "end_at", "limit"]
      some (.ordersByTick (← req f "tick_id" readI64) (← opt f "start_from" (readNat U64)) (← opt f "end_at" (readNat U64)) (← opt f "limit" (readNat U64)))),
    ("orderbook_state", unit .orderbookState),
    ("denoms", unit .denoms),
    ("ticks_by_id", fun v => do
      let f ← v.fields ["tick_ids"]
      some (.ticksById (← req f "tick_ids" (readList readI64)))),
    ("get_unrealized_cancels", fun v => do
      let f ← v.fields ["tick_ids"]
      some (.getUnrealizedCancels (← req f "tick_ids" (readList readI64))))]

/-- msg.rs:7-11: base denom, quote denom -/
def instantiateJson (base quote : Denom) : Json := .obj [("base_denom", .str base), ("quote_denom", .str quote)]
/-- msg.rs:7-11 -/
def readInstantiateMsg (j : Json) : Option (Denom × Denom) := do
  let f ← j.fields ["base_denom", "quote_denom"]
  some (← req f "base_denom" readString, ← req f "quote_denom" readString)

/-- Integers that serde accepts for the fields of `QueryMsg` (msg.rs:69-148; `usize` has 32 bits in WebAssembly). -/
def QueryMsg.wellTyped : QueryMsg → Bool
  | .calcOutAmountGivenIn c _ fee => decide (c.amount < U128) && decide (fee < U128)
  | .calcOutAmtGivenIn c _ fee => decide (c.amount < U128) && decide (fee < U128)
  | .allTicks a b l => a.all i64Ok && b.all i64Ok && l.all fun n => decide (n < 2 ^ 32)
  | .ordersByOwner _ a b l => a.all (fun k => i64Ok k.1 && decide (k.2 < U64)) && b.all (fun k => i64Ok k.1 && decide (k.2 < U64)) &&
      l.all fun n => decide (n < U64)
  | .ordersByTick t a b l => i64Ok t && a.all (fun n => decide (n < U64)) && b.all (fun n => decide (n < U64)) && l.all fun n => decide (n < U64)
  | .ticksById ids => ids.all i64Ok
  | .getUnrealizedCancels ids => ids.all i64Ok
  | _ => true

/-- `from_json` of a type (the entry points contract.rs:25-180 get their message this way) -/
def fromText {α : Type} (rd : Json → Option α) (t : List Char) : Option α := (Json.parse t).bind rd

/-! ### Values in answers and in the storage -/

/-- types/tick.rs:6-33 -/
def TickValues.json (v : TickValues) : Json := .obj [("total_amount_of_liquidity", ofDec v.tal), ("cumulative_total_value", ofDec v.ctv),
  ("effective_total_amount_swapped", ofDec v.etas), ("cumulative_realized_cancels", ofDec v.crc), ("last_tick_sync_etas", ofDec v.lastSync)]
/-- types/tick.rs:6-33 -/
def readTickValues (j : Json) : Option TickValues := do
  let f ← j.fields ["total_amount_of_liquidity", "cumulative_total_value", "effective_total_amount_swapped", "cumulative_realized_cancels",
    "last_tick_sync_etas"]
  some ⟨← req f "total_amount_of_liquidity" (readDec U256), ← req f "cumulative_total_value" (readDec U256),
    ← req f "effective_total_amount_swapped" (readDec U256), ← req f "cumulative_realized_cancels" (readDec U256),
    ← req f "last_tick_sync_etas" (readDec U256)⟩

/-- types/tick.rs:50-57 -/
def TickState.json (t : TickState) : Json := .obj [("ask_values", t.askValues.json), ("bid_values", t.bidValues.json)]
/-- types/tick.rs:50-57 -/
def readTickState (j : Json) : Option TickState := do
  let f ← j.fields ["ask_values", "bid_values"]
  some ⟨← req f "ask_values" readTickValues, ← req f "bid_values" readTickValues⟩

/-- types/order.rs:39-52 -/
def LimitOrder.json (o : LimitOrder) : Json := .obj [("tick_id", ofInt o.tickId), ("order_id", ofNat o.orderId), ("order_direction", o.dir.json),
  ("owner", .str o.owner), ("quantity", ofUint o.quantity), ("etas", ofDec o.etas), ("claim_bounty", ofOpt ofDec o.claimBounty),
  ("placed_quantity", ofUint o.placedQuantity), ("placed_at", ofUint o.placedAt)]
/-- types/order.rs:39-52; a missing `placed_at` is zero (`#[serde(default)]`, types/order.rs:50) -/
def readLimitOrder (j : Json) : Option LimitOrder := do
  let f ← j.fields ["tick_id", "order_id", "order_direction", "owner", "quantity", "etas", "claim_bounty", "placed_quantity", "placed_at"]
  let placedAt ← match f "placed_at" with
    | none => some 0
    | some v => readUintStr U64 v
  some ⟨← req f "tick_id" readI64, ← req f "order_id" (readNat U64), ← req f "order_direction" readDir, ← req f "owner" readString,
    ← req f "quantity" (readUintStr U128), ← req f "etas" (readDec U256), ← opt f "claim_bounty" (readDec U256),
    ← req f "placed_quantity" (readUintStr U128), placedAt⟩

/-- types/orderbook.rs:7-16 -/
def Orderbook.json (b : Orderbook) : Json := .obj [("quote_denom", .str b.quoteDenom), ("base_denom", .str b.baseDenom),
  ("current_tick", ofInt b.currentTick), ("next_bid_tick", ofInt b.nextBidTick), ("next_ask_tick", ofInt b.nextAskTick)]
/-- types/orderbook.rs:7-16 -/
def readOrderbook (j : Json) : Option Orderbook := do
  let f ← j.fields ["quote_denom", "base_denom", "current_tick", "next_bid_tick", "next_ask_tick"]
  some ⟨← req f "quote_denom" readString, ← req f "base_denom" readString, ← req f "current_tick" readI64, ← req f "next_bid_tick" readI64,
    ← req f "next_ask_tick" readI64⟩

/-- sumtree/node.rs:28-44 -/
def NodeType.json : NodeType → Json
  | .leaf value etas => .obj [("leaf", .obj [("value", ofDec value), ("etas", ofDec etas)])]
  | .internal acc lo hi weight => .obj [("internal", .obj [("accumulator", ofDec acc), ("range", .arr [ofDec lo, ofDec hi]), ("weight", ofNat weight)])]
/-- sumtree/node.rs:28-44 -/
def readNodeType : Json → Option NodeType := readEnum [
    ("leaf", fun v => do
      let f ← v.fields ["value", "etas"]
      some (.leaf (← req f "value" (readDec U256)) (← req f "etas" (readDec U256)))),
    ("internal", fun v => do
      let f ← v.fields ["accumulator", "range", "weight"]
      let r ← req f "range" (readPair (readDec U256) (readDec U256))
      some (.internal (← req f "accumulator" (readDec U256)) r.1 r.2 (← req f "weight" (readNat U64))))]

/-- sumtree/node.rs:102-111 -/
def TreeNode.json (n : TreeNode) : Json := .obj [("key", ofNat n.key), ("tick_id", ofInt n.tickId), ("direction", n.dir.json),
  ("left", ofOpt ofNat n.left), ("right", ofOpt ofNat n.right), ("parent", ofOpt ofNat n.parent), ("node_type", n.ntype.json)]
/-- sumtree/node.rs:102-111 -/
def readTreeNode (j : Json) : Option TreeNode := do
  let f ← j.fields ["key", "tick_id", "direction", "left", "right", "parent", "node_type"]
  some ⟨← req f "key" (readNat U64), ← req f "tick_id" readI64, ← req f "direction" readDir, ← opt f "left" (readNat U64),
    ← opt f "right" (readNat U64), ← opt f "parent" (readNat U64), ← req f "node_type" readNodeType⟩

/-! ### Answers -/

/-- An entry of `TicksResponse` (msg.rs:190-199) -/
def tickJson (x : Int × TickState) : Json := .obj [("tick_id", ofInt x.1), ("tick_state", x.2.json)]
/-- msg.rs:190-194 -/
def readTick (j : Json) : Option (Int × TickState) := do
  let f ← j.fields ["tick_id", "tick_state"]
  some (← req f "tick_id" readI64, ← req f "tick_state" readTickState)

/-- An entry of `GetUnrealizedCancelsResponse` (msg.rs:201-217), the ask side first in the pair (query.rs:282-293) -/
def unrealizedJson (x : Int × Nat × Nat) : Json := .obj [("tick_id", ofInt x.1),
  ("unrealized_cancels", .obj [("ask_unrealized_cancels", ofDec x.2.1), ("bid_unrealized_cancels", ofDec x.2.2)])]
/-- msg.rs:201-217 -/
def readUnrealized (j : Json) : Option (Int × Nat × Nat) := do
  let f ← j.fields ["tick_id", "unrealized_cancels"]
  let t ← req f "tick_id" readI64
  let g ← (f "unrealized_cancels").bind fun v => v.fields ["ask_unrealized_cancels", "bid_unrealized_cancels"]
  some (t, ← req g "ask_unrealized_cancels" (readDec U256), ← req g "bid_unrealized_cancels" (readDec U256))

/-- sudo.rs:184-186 `SwapExactAmountInResponseData` (msg.rs:272-276) -/
def swapDataJson (x : Nat) : Json := .obj [("token_out_amount", ofUint x)]
/-- msg.rs:272-276 -/
def readSwapData (j : Json) : Option Nat := do
  let f ← j.fields ["token_out_amount"]
  req f "token_out_amount" (readUintStr U256)

/-- What `query` returns (contract.rs:104-177, `to_json_binary` of the result): the response structs of msg.rs:60-64, 160-223, a bare `bool`
(query.rs:189), a bare `Orderbook` (query.rs:237), a bare `Option<Addr>` (auth.rs:71-81), and for `get_maker_fee` a bare `Decimal256`
(state.rs:165-168). -/
def answerJson : QueryMsg → Answer → Json
  | .getMakerFee, .decimal x => ofDec x
  | .getSwapFee, .decimal x => .obj [("swap_fee", ofDec x)]
  | _, .decimal x => .obj [("spot_price", ofDec x)]
  | _, .coin c => .obj [("token_out", c.json)]
  | _, .coins cs => .obj [("total_pool_liquidity", .arr (cs.map Coin.json))]
  | _, .ticks l => .obj [("ticks", .arr (l.map tickJson))]
  | _, .bool b => .bool b
  | _, .orders count l => .obj [("orders", .arr (l.map LimitOrder.json)), ("count", ofNat count)]
  | _, .book b => b.json
  | _, .denoms quote base => .obj [("quote_denom", .str quote), ("base_denom", .str base)]
  | _, .unrealized l => .obj [("ticks", .arr (l.map unrealizedJson))]
  | _, .addr a => ofOpt .str a

/-- The client's side: decoding as the type that `#[returns(..)]` declares for the query (msg.rs:69-148). The amount of a `ProtoCoin`
(msg.rs:166) is a text there; it is read as a number here. -/
def readAnswer : QueryMsg → Json → Option Answer
  | .spotPrice _ _, j => do
    let f ← j.fields ["spot_price"]
    some (.decimal (← req f "spot_price" (readDec U128)))
  | .calcOutAmountGivenIn _ _ _, j => do
    let f ← j.fields ["token_out"]
    some (.coin (← req f "token_out" readCoin))
  | .calcOutAmtGivenIn _ _ _, j => do
    let f ← j.fields ["token_out"]
    some (.coin (← req f "token_out" readCoin))
  | .getTotalPoolLiquidity, j => do
    let f ← j.fields ["total_pool_liquidity"]
    some (.coins (← req f "total_pool_liquidity" (readList readCoin)))
  | .calcInAmtGivenOut, j => do
    let f ← j.fields ["token_in"]
    some (.coin (← req f "token_in" readCoin))
  | .getSwapFee, j => do
    let f ← j.fields ["swap_fee"]
    some (.decimal (← req f "swap_fee" (readDec U128)))
  | .allTicks _ _ _, j => do
    let f ← j.fields ["ticks"]
    some (.ticks (← req f "ticks" (readList readTick)))
  | .getMakerFee, j => do
    let f ← j.fields ["maker_fee"]
    some (.decimal (← req f "maker_fee" (readDec U256)))
  | .auth _, j => (readOpt readString j).map .addr
  | .isActive, j => (readBool j).map .bool
  | .ordersByOwner _ _ _ _, j => do
    let f ← j.fields ["orders", "count"]
    let l ← req f "orders" (readList readLimitOrder)
    some (.orders (← req f "count" (readNat U64)) l)
  | .ordersByTick _ _ _ _, j => do
    let f ← j.fields ["orders", "count"]
    let l ← req f "orders" (readList readLimitOrder)
    some (.orders (← req f "count" (readNat U64)) l)
  | .orderbookState, j => (readOrderbook j).map .book
  | .denoms, j => do
    let f ← j.fields ["quote_denom", "base_denom"]
    some (.denoms (← req f "quote_denom" readString) (← req f "base_denom" readString))
  | .ticksById _, j => do
    let f ← j.fields ["ticks"]
    some (.ticks (← req f "ticks" (readList readTick)))
  | .getUnrealizedCancels _, j => do
    let f ← j.fields ["ticks"]
    some (.unrealized (← req f "ticks" (readList readUnrealized)))

/-- The `query` entry point on texts (contract.rs:104-177): a text that is no query is refused, an error has no answer. -/
def queryText (s : Store) (t : List Char) : Option (List Char) :=
  (fromText readQueryMsg t).bind fun m =>
    match query m s with
    | .ok a _ => some (answerJson m a).text
    | .err _ _ => none

/-! ### Values in the storage -/

/-- `to_json_vec` of a cell's value (cw_storage_plus item.rs, path.rs; state.rs:8-20, 38; auth.rs:11-14; node.rs:16-17; tree.rs:7): the maker
fee and the liquidities are `Decimal256`, the other numbers `u64` (index entries: `u32`). -/
def Cell.json : Cell → Val → Json
  | .makerFee, .nat x => ofDec x
  | .dirLiq _, .nat x => ofDec x
  | _, .nat n => ofNat n
  | _, .bool b => .bool b
  | _, .addr a => .str a
  | _, .book b => b.json
  | _, .tick t => t.json
  | _, .order o => o.json
  | _, .node n => n.json
  | _, .pkLen n => ofNat n

/-- `from_json` of a cell's value by the type the cell is declared with (state.rs:8-20, 38; auth.rs:11-14; node.rs:16-17; tree.rs:7). cw2's
record is not modelled. -/
def Cell.readVal : Cell → Json → Option Val
  | .orderId, j => (readNat U64 j).map .nat
  | .orderbook, j => (readOrderbook j).map .book
  | .isActive, j => (readBool j).map .bool
  | .makerFee, j => (readDec U256 j).map .nat
  | .makerFeeRecipient, j => (readString j).map .addr
  | .admin, j => (readString j).map .addr
  | .adminOffer, j => (readString j).map .addr
  | .moderator, j => (readString j).map .addr
  | .moderatorOffer, j => (readString j).map .addr
  | .contractInfo, _ => none
  | .tick _, j => (readTickState j).map .tick
  | .dirLiq _, j => (readDec U256 j).map .nat
  | .order _, j => (readLimitOrder j).map .order
  | .ownerIdx _ _, j => (readNat (2 ^ 32) j).map .pkLen
  | .tickOwnerIdx _ _ _, j => (readNat (2 ^ 32) j).map .pkLen
  | .node _ _, j => (readTreeNode j).map .node
  | .root _ _, j => (readNat U64 j).map .nat
  | .counter _, j => (readNat U64 j).map .nat

end OB
