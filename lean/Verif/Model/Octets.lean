import Verif.Model.Entry
/-
The contract as the virtual machine sees it: byte strings go in, byte strings come out, byte strings are stored under byte strings.
Messages, answers, `data` and stored values are UTF-8 encoded JSON texts (cosmwasm_std `from_json`, `to_json_binary`, `to_json_vec`: contract.rs:25-189,
sudo.rs:184-186, state.rs:8-51). Simplified: serde-json-wasm checks the encoding string by string and refuses any other byte above 127; here the whole
document is decoded first, which refuses the same documents (quotes, backslashes and all other ASCII bytes are not part of a longer sequence).
-/
namespace OB

/-- Bytes of a text (`to_json_vec`; contract.rs:104-177, state.rs:8-51) -/
def toOctets (t : List Char) : Bytes := t.flatMap String.utf8EncodeChar

/-- The text of a byte string, if it is UTF-8 (`str::from_utf8` in serde-json-wasm; entry points contract.rs:25-180) -/
def ofOctets (b : Bytes) : Option (List Char) := (ByteArray.utf8Decode? ⟨b.toArray⟩).map Array.toList

/-- `from_json` of a byte string by a type (entry points contract.rs:25-180; `Item::load`, `Map::load`, state.rs:8-51) -/
def fromOctets {α : Type} (rd : Json → Option α) (b : Bytes) : Option α := (ofOctets b).bind (fromText rd)

/-- What reaches the chain, messages as bytes (contract.rs:51-102, 104-177, 179-189, 47-49), and what happens around it. -/
inductive OctetCall where
  | execute (sender : Addr) (funds : List Coin) (time : Nat) (msg : Bytes)
  | sudo (time : Nat) (msg : Bytes)
  | query (msg : Bytes)
  | migrate
  | mint (dst : Addr) (c : Coin)
  | transfer (src dst : Addr) (c : Coin)

/-- What comes back (contract.rs:51-189): a response, whose data are bytes; the bytes of an answer; or a refusal. -/
inductive OctetReply where
  | response (raw : RawResponse) (msgs : List SendMsg) (data : Option Bytes)
  | answer (b : Bytes)
  | refusal (text : Option (List Char))

/-- How a call ends (contract.rs:51-102, 179-189; the data: sudo.rs:184-186). -/
def settleOctets (ch : Chain) (w : World) (op : Op) : World × OctetReply :=
  match step ch w op with
  | .ok (w', r) => (w', .response r.raw r.msgs (r.data.map fun n => toOctets (swapDataJson n).text))
  | .error e => (w, .refusal e.text)

/-- The entry points on bytes (contract.rs:51-102, 104-177, 179-189; `from_json` in front of each of them, `to_json_binary` behind the queries). -/
def enterOctets (ch : Chain) (w : World) : OctetCall → World × OctetReply
  | .execute sender funds time b =>
    match fromOctets readExecuteMsg b with
    | some m => settleOctets ch w (.execute sender funds time m)
    | none => (w, .refusal none)
  | .sudo time b =>
    match fromOctets readSudoMsg b with
    | some m => settleOctets ch w (.sudo time m)
    | none => (w, .refusal none)
  | .query b =>
    match fromOctets readQueryMsg b with
    | some q =>
      match queryResult w.store q with
      | .ok a => (w, .answer (toOctets (answerJson q a).text))
      | .error e => (w, .refusal e.text)
    | none => (w, .refusal none)
  | .migrate => settleOctets ch w .migrate
  | .mint dst c => settleOctets ch w (.mint dst c)
  | .transfer src dst c => settleOctets ch w (.transfer src dst c)

/-- `instantiate` on bytes (contract.rs:25-45). -/
def instantiateOctets (env : Env) (supply : Denom → Nat) (b : Bytes) : Except (Option (List Char)) (Store × RawResponse) :=
  match fromOctets readInstantiateMsg b with
  | some (base, quote) =>
    match instantiate env supply quote base Store.empty with
    | .ok r s => .ok (s, r.raw)
    | .err e _ => .error e.text
  | none => .error none

/-- Environment (no code in /repo): one call after the other. -/
def serveOctets (ch : Chain) : World → List OctetCall → World × List OctetReply
  | w, [] => (w, [])
  | w, c :: cs => ((serveOctets ch (enterOctets ch w c).1 cs).1, (enterOctets ch w c).2 :: (serveOctets ch (enterOctets ch w c).1 cs).2)

/-- The contract's storage: bytes under bytes (cosmwasm_std `Storage`, the `deps.storage` of contract.rs:26-189). -/
abbrev Octets := SMap Bytes Bytes

/-- What a cell with a value holds (`to_json_vec`; cw_storage_plus item.rs, path.rs; state.rs:8-51, auth.rs:11-14, node.rs:16-17, tree.rs:7) -/
def Cell.octets (c : Cell) (v : Val) : Bytes := toOctets (c.json v).text

namespace Octets

/-- `Item::may_load` / `Map::may_load` (cw_storage_plus item.rs, path.rs; e.g. order.rs:149): nothing there, or what is there decoded by the cell's type
(`some none`: it does not decode). -/
def load (r : Octets) (c : Cell) : Option (Option Val) := (SMap.get? r c.key).map (fromOctets c.readVal)

/-- `Item::save` / `Map::save` (cw_storage_plus item.rs, path.rs; e.g. order.rs:90, 121) -/
def save (r : Octets) (c : Cell) (v : Val) : Octets := SMap.insert r c.key (c.octets v)

/-- `Item::remove` / `Map::remove` (cw_storage_plus item.rs, path.rs; e.g. auth.rs:175, node.rs:620) -/
def remove (r : Octets) (c : Cell) : Octets := SMap.erase r c.key

/-- `MultiIndex::save` of both indexes (state.rs:41-51; cw_storage_plus indexes/multi.rs): the primary key's length as a number. -/
def indexSave (r : Octets) (k : Int × Nat) (o : LimitOrder) : Octets :=
  (r.save (.ownerIdx o.owner k) (.pkLen (pkBytes k).length)).save (.tickOwnerIdx o.tickId o.owner k) (.pkLen (pkBytes k).length)

/-- `MultiIndex::remove` of both indexes (state.rs:41-51; cw_storage_plus indexes/multi.rs) -/
def indexRemove (r : Octets) (k : Int × Nat) (o : LimitOrder) : Octets :=
  (r.remove (.ownerIdx o.owner k)).remove (.tickOwnerIdx o.tickId o.owner k)

/-- The old value's index entries are removed (`IndexedMap::replace`; order.rs:110, 213, 678, 681; cw_storage_plus indexed_map.rs). Simplified: the
operation would fail on an old value that does not decode. -/
def unindex (r : Octets) (k : Int × Nat) : Octets :=
  match r.load (.order k) with
  | some (some (.order old)) => r.indexRemove k old
  | _ => r

/-- `IndexedMap::save` (order.rs:110, 681; cw_storage_plus indexed_map.rs) -/
def saveOrder (r : Octets) (k : Int × Nat) (o : LimitOrder) : Octets := ((r.unindex k).indexSave k o).save (.order k) (.order o)

/-- `IndexedMap::remove` (order.rs:213, 678; cw_storage_plus indexed_map.rs) -/
def removeOrder (r : Octets) (k : Int × Nat) : Octets := (r.unindex k).remove (.order k)

/-- cw_storage_plus prefix.rs `range_with_prefix`, ascending (see `Raw.range`). (query.rs:150-155, 211, 326-341; state.rs:99-100; order.rs:486-491) -/
def range (r : Octets) (p : Bytes) (lo hi : Option Bytes) : List (Bytes × Bytes) :=
  let start := match lo with | none => p | some l => p ++ l
  let stop := match hi with | none => Raw.upperBound p | some h => p ++ (h ++ [0])
  (r.filter fun e => !bytesLt e.1 start && bytesLt e.1 stop).map fun e => (e.1.drop p.length, e.2)

/-- `deserialize_kv` of `TICK_STATE` (state.rs:14) -/
def tickEntry (e : Bytes × Bytes) : Option (Int × TickState) := do
  let t ← Raw.i64Of e.1
  let x ← fromOctets readTickState e.2
  pure (t, x)

/-- `deserialize_kv` of `orders().prefix(tick_id)` (query.rs:320, 329) -/
def orderEntry (e : Bytes × Bytes) : Option (Nat × LimitOrder) := do
  let i ← Raw.u64Of e.1
  let o ← fromOctets readLimitOrder e.2
  pure (i, o)

/-- `deserialize_multi_kv` (cw_storage_plus indexes/multi.rs): the entry's value is the length of the primary key at the end of the key; the order is loaded
by it (state.rs:41-51). -/
def indexEntry (r : Octets) (e : Bytes × Bytes) : Option ((Int × Nat) × LimitOrder) := do
  let n ← fromOctets (Json.readNat (2 ^ 32)) e.2
  let pk := e.1.drop (e.1.length - n)
  let k ← Raw.pkOf pk
  let b ← SMap.get? r (withKey [strBytes "orders"] pk)
  let o ← fromOctets readLimitOrder b
  pure (k, o)

/-- query.rs:144-186 `all_ticks` on bytes; `none` is a panic of the `unwrap`. -/
def allTicks (r : Octets) (lo hi : Option Int) (limit : Option Nat) : Option (List (Int × TickState)) :=
  let es := r.range (withKey [strBytes "tick_state"] []) (lo.map i64Bytes) (hi.map i64Bytes)
  (match limit with | some n => es.take n | none => es).mapM tickEntry

/-- order.rs:486-491 on bytes: the ticks of a market order's range with their states, ascending or descending -/
def tickRange (r : Octets) (lo hi : Int) (descending : Bool) : Option (List (Int × TickState)) :=
  let es := r.range (withKey [strBytes "tick_state"] []) (some (i64Bytes lo)) (some (i64Bytes hi))
  (if descending then es.reverse else es).mapM tickEntry

/-- query.rs:316-348 `orders_by_tick` on bytes -/
def ordersByTick (r : Octets) (tick : Int) (lo hi : Option Nat) (limit : Option Nat) : Option (Nat × List LimitOrder) := do
  let es := r.range (withKey [strBytes "orders", i64Bytes tick] []) (lo.map u64Bytes) (hi.map u64Bytes)
  let l ← (es.take ((limit.map asUsize).getD es.length)).mapM orderEntry
  pure (es.length, l.map Prod.snd)

/-- state.rs:78-106 `get_orders_by_owner` on bytes -/
def getOrdersByOwner (r : Octets) (f : FilterOwnerOrders) (lo hi : Option (Int × Nat)) (pageSize : Option Nat) : List LimitOrder :=
  (((r.range (Raw.indexPrefix f) (lo.map pkBytes) (hi.map pkBytes)).take (asUsize (pageSize.getD DEFAULT_PAGE_SIZE))).filterMap
    r.indexEntry).map Prod.snd

/-- query.rs:202-227 `orders_by_owner` on bytes -/
def ordersByOwner (r : Octets) (owner : Addr) (lo hi : Option (Int × Nat)) (limit : Option Nat) : Nat × List LimitOrder :=
  ((r.range (Raw.indexPrefix (.all owner)) none none).length, r.getOrdersByOwner (.all owner) lo hi limit)

end Octets

end OB
