import Verif.Model.World
/- The key-value storage under the contract: the byte keys that `cw_storage_plus` 1.2.0 (Cargo.lock) computes for the declarations of
state.rs, auth.rs, sumtree/node.rs and sumtree/tree.rs, the writes of `Item`, `Map` and `IndexedMap`, and iteration over byte keys.
The rest of the model works on the typed `Store` of Types.lean; Props/Storage.lean relates the two.
Values are not encoded here: a cell holds a `Val`. Their JSON texts are in Model/Json.lean, the bytes of these in Model/Octets.lean. -/
namespace OB

/-- Bytes of a storage key (cosmwasm_std::Storage, under state.rs:8-51). -/
abbrev Bytes := List UInt8

/-- Byte order of keys, the order of `Storage::range` (cosmwasm_std): lexicographic, a proper prefix comes first. (Used by the ranges of query.rs:150-155, 211, 326-341; state.rs:99-100; order.rs:486-491.) -/
def bytesLt : Bytes → Bytes → Bool
  | _, [] => false
  | [], _ :: _ => true
  | a :: x, b :: y => decide (a < b) || (decide (a = b) && bytesLt x y)

/-- `k` bytes, most significant first (`to_be_bytes`; cw_storage_plus int_key.rs). -/
def beBytes : Nat → Nat → Bytes
  | 0, _ => []
  | k + 1, n => UInt8.ofNat (n / 256 ^ k) :: beBytes k n

/-- `u64` keys (cw_storage_plus int_key.rs; order ids, state.rs:37, and node ids, node.rs:16). -/
def u64Bytes (n : Nat) : Bytes := beBytes 8 n

/-- `i64` keys (cw_storage_plus int_key.rs: the sign bit is flipped, i.e. `2^63` is added; ticks, state.rs:14, 37). -/
def i64Bytes (t : Int) : Bytes := beBytes 8 (t + 2 ^ 63).toNat

/-- UTF-8 bytes of a string (`as_bytes`; namespaces, owners, and the direction keys of state.rs:115 and tree.rs:7). -/
def strBytes (s : String) : Bytes := s.toByteArray.data.toList

/-- types/order.rs:24-37: `to_string` of a direction, used as a storage key -/
def Dir.name : Dir → String
  | .bid => "bid"
  | .ask => "ask"

/-- cw_storage_plus helpers.rs `encode_length`: two bytes. (The library panics from 2^16 on; such keys are excluded by `Cell.Valid`.) -/
def lenPrefix (b : Bytes) : Bytes := beBytes 2 b.length ++ b

/-- cw_storage_plus helpers.rs `namespaces_with_key`: every part but the last is preceded by its length. -/
def withKey (parts : List Bytes) (last : Bytes) : Bytes := (parts.map lenPrefix).flatten ++ last

/-- The storage cells of the contract: the `Item`s of state.rs:8-20 and auth.rs:11-14 (and cw2's `contract_info`, contract.rs:32), the
`Map`s of state.rs:14-15, node.rs:16-17, tree.rs:7, the orders of state.rs:36-38 and their two indexes (state.rs:41-51). -/
inductive Cell where
  | orderId | orderbook | isActive | makerFee | makerFeeRecipient | admin | adminOffer | moderator | moderatorOffer | contractInfo
  | tick (t : Int)
  | dirLiq (d : Dir)
  | order (k : Int × Nat)
  | ownerIdx (owner : Addr) (k : Int × Nat)
  | tickOwnerIdx (t : Int) (owner : Addr) (k : Int × Nat)
  | node (t : Int) (id : Nat)
  | root (t : Int) (d : Dir)
  | counter (t : Int)
  deriving DecidableEq

/-- `joined_key` of an order's primary key `(tick_id, order_id)` (state.rs:36-37; cw_storage_plus keys.rs) -/
def pkBytes (k : Int × Nat) : Bytes := withKey [i64Bytes k.1] (u64Bytes k.2)

/-- The namespaces: state.rs:8-20, 39, 44, 49; auth.rs:11-14; node.rs:16-17; tree.rs:7; cw2 (contract.rs:32). -/
def Cell.ns : Cell → String
  | .orderId => "order_id"
  | .orderbook => "orderbook"
  | .isActive => "is_active"
  | .makerFee => "maker_fee"
  | .makerFeeRecipient => "maker_fee_recipient"
  | .admin => "admin"
  | .adminOffer => "admin_offer"
  | .moderator => "moderator"
  | .moderatorOffer => "moderator_offer"
  | .contractInfo => "contract_info"
  | .tick _ => "tick_state"
  | .dirLiq _ => "direction_liquidity"
  | .order _ => "orders"
  | .ownerIdx _ _ => "orders_owner"
  | .tickOwnerIdx _ _ _ => "orders_tick_and_owner"
  | .node _ _ => "nodes"
  | .root _ _ => "tree"
  | .counter _ => "node_id"

/-- The storage key of a cell: the bare namespace for an `Item`; for a `Map` the length-prefixed namespace and key parts, the last part
bare; for an index entry (`MultiIndex::save`) the index key's parts, all length-prefixed, then the primary key.
(state.rs:8-51, auth.rs:11-14, node.rs:16-17, tree.rs:7; cw_storage_plus item.rs, path.rs, indexes/multi.rs) -/
def Cell.key : Cell → Bytes
  | .tick t => withKey [strBytes "tick_state"] (i64Bytes t)
  | .dirLiq d => withKey [strBytes "direction_liquidity"] (strBytes d.name)
  | .order k => withKey [strBytes "orders", i64Bytes k.1] (u64Bytes k.2)
  | .ownerIdx a k => withKey [strBytes "orders_owner", strBytes a] (pkBytes k)
  | .tickOwnerIdx t a k => withKey [strBytes "orders_tick_and_owner", i64Bytes t, strBytes a] (pkBytes k)
  | .node t id => withKey [strBytes "nodes", i64Bytes t] (u64Bytes id)
  | .root t d => withKey [strBytes "tree", i64Bytes t] (strBytes d.name)
  | .counter t => withKey [strBytes "node_id"] (i64Bytes t)
  | c => strBytes c.ns

/-- The values the cells hold (before JSON encoding): state.rs:8-20, 38; auth.rs:11-14; node.rs:16-17; tree.rs:7. `pkLen` is the value
of an index entry, the length of the primary key (cw_storage_plus indexes/multi.rs). -/
inductive Val where
  | nat (n : Nat)
  | bool (b : Bool)
  | addr (a : Addr)
  | book (b : Orderbook)
  | tick (t : TickState)
  | order (o : LimitOrder)
  | node (n : TreeNode)
  | pkLen (n : Nat)
  deriving DecidableEq

/-! Proof obligations of `Key` for byte strings (no code of its own). -/

/-- no code of its own -/
theorem bytesLt_irrefl (a : Bytes) : bytesLt a a = false := by
  induction a with
  | nil => rfl
  | cons a x ih => simp [bytesLt, ih]

/-- no code of its own -/
theorem bytesLt_trans (a b c : Bytes) (h1 : bytesLt a b = true) (h2 : bytesLt b c = true) : bytesLt a c = true := by
  induction a generalizing b c with
  | nil =>
    cases c with
    | nil => cases b <;> simp [bytesLt] at h2
    | cons => rfl
  | cons a x ih =>
    cases b with
    | nil => simp [bytesLt] at h1
    | cons b y =>
      cases c with
      | nil => simp [bytesLt] at h2
      | cons c z =>
        simp only [bytesLt, Bool.or_eq_true, Bool.and_eq_true, decide_eq_true_eq, UInt8.lt_iff_toNat_lt,
          ← UInt8.toNat_inj] at h1 h2 ⊢
        rcases h1 with h1 | ⟨h1, h1'⟩ <;> rcases h2 with h2 | ⟨h2, h2'⟩
        · left; omega
        · left; omega
        · left; omega
        · exact Or.inr ⟨by omega, ih _ _ h1' h2'⟩

/-- no code of its own -/
theorem bytesLt_tri (a b : Bytes) (h1 : bytesLt a b = false) (h2 : bytesLt b a = false) : a = b := by
  induction a generalizing b with
  | nil => cases b with
    | nil => rfl
    | cons => simp [bytesLt] at h1
  | cons a x ih =>
    cases b with
    | nil => simp [bytesLt] at h2
    | cons b y =>
      simp only [bytesLt, Bool.or_eq_false_iff, Bool.and_eq_false_iff, decide_eq_false_iff_not, UInt8.lt_iff_toNat_lt,
        ← UInt8.toNat_inj] at h1 h2
      have hab : a.toNat = b.toNat := by omega
      have h1' := h1.2.resolve_left (by omega)
      have h2' := h2.2.resolve_left (by omega)
      rw [UInt8.toNat_inj.1 hab, ih y h1' h2']

/-- The key order of the raw storage (cosmwasm_std `Storage::range`; see `bytesLt`). No code of its own. -/
instance : Key Bytes where
  lt := bytesLt
  irrefl := bytesLt_irrefl
  trans := bytesLt_trans
  tri := bytesLt_tri

/-- The raw storage of the contract (cosmwasm_std `Storage`, the `deps.storage` of contract.rs:26-189): byte keys to values. -/
abbrev Raw := SMap Bytes Val

namespace Raw

/-- `Item::load` / `Map::load` (cw_storage_plus item.rs, path.rs; e.g. order.rs:32, 149) -/
def load (r : Raw) (c : Cell) : Option Val := SMap.get? r c.key

/-- `Item::save` / `Map::save` (cw_storage_plus item.rs, path.rs; e.g. order.rs:90, 121) -/
def save (r : Raw) (c : Cell) (v : Val) : Raw := SMap.insert r c.key v

/-- `Item::remove` / `Map::remove` (cw_storage_plus item.rs, path.rs; e.g. auth.rs:175, node.rs:620) -/
def remove (r : Raw) (c : Cell) : Raw := SMap.erase r c.key

/-- `MultiIndex::save` of both indexes (state.rs:41-51; cw_storage_plus indexes/multi.rs): the entry's value is the length of the primary key. -/
def indexSave (r : Raw) (k : Int × Nat) (o : LimitOrder) : Raw :=
  (r.save (.ownerIdx o.owner k) (.pkLen (pkBytes k).length)).save (.tickOwnerIdx o.tickId o.owner k) (.pkLen (pkBytes k).length)

/-- `MultiIndex::remove` of both indexes (state.rs:41-51; cw_storage_plus indexes/multi.rs) -/
def indexRemove (r : Raw) (k : Int × Nat) (o : LimitOrder) : Raw :=
  (r.remove (.ownerIdx o.owner k)).remove (.tickOwnerIdx o.tickId o.owner k)

/-- `IndexedMap::save` = `replace(key, Some(data), old)` (order.rs:110, 681; cw_storage_plus indexed_map.rs): the index entries of the old
value are removed, those of the new one saved, then the primary entry. -/
def saveOrder (r : Raw) (k : Int × Nat) (o : LimitOrder) : Raw :=
  let r := match r.load (.order k) with
    | some (.order old) => r.indexRemove k old
    | _ => r
  (r.indexSave k o).save (.order k) (.order o)

/-- `IndexedMap::remove` = `replace(key, None, old)` (order.rs:213, 678; cw_storage_plus indexed_map.rs) -/
def removeOrder (r : Raw) (k : Int × Nat) : Raw :=
  let r := match r.load (.order k) with
    | some (.order old) => r.indexRemove k old
    | _ => r
  r.remove (.order k)

/-- cw_storage_plus prefix.rs `increment_last_byte`-style carry of `namespace_upper_bound` (see `upperBound`) -/
def incr : Bytes → Bytes × Bool
  | [] => ([], true)
  | b :: x =>
    match incr x with
    | (y, true) => if b = 255 then (0 :: y, true) else ((b + 1) :: y, false)
    | (y, false) => (b :: y, false)

/-- cw_storage_plus prefix.rs `namespace_upper_bound`: the prefix plus one, as a big-endian number of the same length -/
def upperBound (p : Bytes) : Bytes := (incr p).1

/-- cw_storage_plus prefix.rs `range_with_prefix`, ascending, with `Bound::inclusive` bounds or none: the entries with
`start ≤ key < end`, the prefix cut off the keys (`trim`). (query.rs:150-155, 211, 326-341; state.rs:99-100; order.rs:486-491) -/
def range (r : Raw) (p : Bytes) (lo hi : Option Bytes) : List (Bytes × Val) :=
  let start := match lo with | none => p | some l => p ++ l
  let stop := match hi with | none => upperBound p | some h => p ++ (h ++ [0])
  (r.filter fun e => !bytesLt e.1 start && bytesLt e.1 stop).map fun e => (e.1.drop p.length, e.2)

/-- Value of a big-endian byte string (`from_be_bytes`; cw_storage_plus int_key.rs) -/
def beNat (b : Bytes) : Nat := b.foldl (fun n x => n * 256 + x.toNat) 0

/-- `i64::from_cw_bytes` (cw_storage_plus int_key.rs, de.rs): fails unless there are eight bytes -/
def i64Of (b : Bytes) : Option Int := if b.length = 8 then some ((beNat b : Int) - 2 ^ 63) else none

/-- `u64::from_cw_bytes` (cw_storage_plus int_key.rs, de.rs) -/
def u64Of (b : Bytes) : Option Nat := if b.length = 8 then some (beNat b) else none

/-- Decoding of `(i64, u64)` keys (cw_storage_plus de.rs): the first two bytes are the length of the first part -/
def pkOf (b : Bytes) : Option (Int × Nat) := do
  let rest := b.drop 2
  let n := beNat (b.take 2)
  let t ← i64Of (rest.take n)
  let i ← u64Of (rest.drop n)
  pure (t, i)

/-- `deserialize_kv` of `TICK_STATE` (state.rs:14) -/
def tickEntry (e : Bytes × Val) : Option (Int × TickState) :=
  match i64Of e.1, e.2 with
  | some t, .tick x => some (t, x)
  | _, _ => none

/-- `deserialize_kv` of `orders().prefix(tick_id)` (query.rs:320, 329) -/
def orderEntry (e : Bytes × Val) : Option (Nat × LimitOrder) :=
  match u64Of e.1, e.2 with
  | some i, .order o => some (i, o)
  | _, _ => none

/-- `deserialize_multi_kv` (cw_storage_plus indexes/multi.rs): the last `pk_len` bytes of the key are the primary key; the value is loaded
from the primary map (state.rs:41-51). -/
def indexEntry (r : Raw) (e : Bytes × Val) : Option ((Int × Nat) × LimitOrder) :=
  match e.2 with
  | .pkLen n =>
    let pk := e.1.drop (e.1.length - n)
    match pkOf pk, SMap.get? r (withKey [strBytes "orders"] pk) with
    | some k, some (.order o) => some (k, o)
    | _, _ => none
  | _ => none

/-- query.rs:144-186 `all_ticks` on the raw storage; `none` is a panic of the `unwrap`. -/
def allTicks (r : Raw) (lo hi : Option Int) (limit : Option Nat) : Option (List (Int × TickState)) :=
  let es := r.range (withKey [strBytes "tick_state"] []) (lo.map i64Bytes) (hi.map i64Bytes)
  (match limit with | some n => es.take n | none => es).mapM tickEntry

/-- order.rs:486-491 on the raw storage: the ticks of a market order's range with their states, ascending or descending -/
def tickRange (r : Raw) (lo hi : Int) (descending : Bool) : Option (List (Int × TickState)) :=
  let es := r.range (withKey [strBytes "tick_state"] []) (some (i64Bytes lo)) (some (i64Bytes hi))
  (if descending then es.reverse else es).mapM tickEntry

/-- query.rs:316-348 `orders_by_tick` on the raw storage (default limit as in Query.lean) -/
def ordersByTick (r : Raw) (tick : Int) (lo hi : Option Nat) (limit : Option Nat) : Option (Nat × List LimitOrder) := do
  let es := r.range (withKey [strBytes "orders", i64Bytes tick] []) (lo.map u64Bytes) (hi.map u64Bytes)
  let l ← (es.take ((limit.map asUsize).getD es.length)).mapM orderEntry
  pure (es.length, l.map Prod.snd)

/-- Prefix of the index entries selected by the filter (state.rs:90-95) -/
def indexPrefix : FilterOwnerOrders → Bytes
  | .all a => withKey [strBytes "orders_owner", strBytes a] []
  | .byTick t a => withKey [strBytes "orders_tick_and_owner", i64Bytes t, strBytes a] []

/-- state.rs:78-106 `get_orders_by_owner` on the raw storage: entries that fail to decode are dropped (`filter_map(|item| item.ok())`). -/
def getOrdersByOwner (r : Raw) (f : FilterOwnerOrders) (lo hi : Option (Int × Nat)) (pageSize : Option Nat) : List LimitOrder :=
  (((r.range (indexPrefix f) (lo.map pkBytes) (hi.map pkBytes)).take (asUsize (pageSize.getD DEFAULT_PAGE_SIZE))).filterMap
    r.indexEntry).map Prod.snd

/-- query.rs:202-227 `orders_by_owner` on the raw storage -/
def ordersByOwner (r : Raw) (owner : Addr) (lo hi : Option (Int × Nat)) (limit : Option Nat) : Nat × List LimitOrder :=
  ((r.range (indexPrefix (.all owner)) none none).length, r.getOrdersByOwner (.all owner) lo hi limit)

end Raw

/-- The typed store's content of a cell (state.rs:8-51, auth.rs:11-14, node.rs:16-17, tree.rs:7). An index entry is present exactly for the
stored orders with that owner (and tick). `contract_info` is not part of the typed store (`info`). -/
def Store.cell (info : Option Val) (s : Store) : Cell → Option Val
  | .orderId => s.orderId.map .nat
  | .orderbook => s.orderbook.map .book
  | .isActive => s.isActive.map .bool
  | .makerFee => s.makerFee.map .nat
  | .makerFeeRecipient => s.makerFeeRecipient.map .addr
  | .admin => s.admin.map .addr
  | .adminOffer => s.adminOffer.map .addr
  | .moderator => s.moderator.map .addr
  | .moderatorOffer => s.moderatorOffer.map .addr
  | .contractInfo => info
  | .tick t => (SMap.get? s.ticks t).map .tick
  | .dirLiq d => (s.dirLiq d).map .nat
  | .order k => (SMap.get? s.orders k).map .order
  | .ownerIdx a k =>
    match SMap.get? s.orders k with
    | some o => if o.owner = a then some (.pkLen (pkBytes k).length) else none
    | none => none
  | .tickOwnerIdx t a k =>
    match SMap.get? s.orders k with
    | some o => if o.tickId = t ∧ o.owner = a then some (.pkLen (pkBytes k).length) else none
    | none => none
  | .node t id => (s.trees.nodes t id).map .node
  | .root t d => (s.trees.roots t d).map .nat
  | .counter t => (s.trees.counter t).map .nat

end OB
