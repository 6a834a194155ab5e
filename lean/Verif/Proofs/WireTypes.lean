import Verif.Proofs.Wire
/- Each message, stored value and answer: read exactly from the JSON values that Verif/SpecWire.lean describes. -/
namespace OB
open Spec Json

theorem named_congr {k : String} {P Q : Json → Prop} (h : ∀ v, P v ↔ Q v) (j : Json) : Named k P j ↔ Named k Q j :=
  exists_congr fun v => and_congr_right fun _ => h v

/-- A struct: the fields read one after the other. -/
theorem struct_iff {names : List String} {fs : List (String × (Option Json → Prop))} (hn : fs.map Prod.fst = names) {α : Type} {v : Json} {m : α}
    {rd : (String → Option Json) → Option α} (h : ∀ f, rd f = some m ↔ ∀ e ∈ fs, e.2 (f e.1)) :
    (v.fields names >>= rd) = some m ↔ Fields fs v := by
  rw [← fields_iff hn, Option.bind_eq_bind, Option.bind_eq_some_iff]
  exact exists_congr fun f => and_congr_right fun _ => h f

theorem readI64_null : readI64 .null = none := rfl
theorem readNat_null {b : Nat} : readNat b .null = none := rfl
theorem readDec_null {b : Nat} : readDec b .null = none := rfl
theorem readKey_null : readKey .null = none := rfl

theorem reqStr {f : String → Option Json} {k x} : req f k readString = some x ↔ Need (StrJ x) (f k) := req_iff fun _ _ => readString_iff
theorem reqI64 {f : String → Option Json} {k x} : req f k readI64 = some x ↔ Need (IntJ x) (f k) := req_iff fun _ _ => readI64_iff
theorem reqBool {f : String → Option Json} {k x} : req f k readBool = some x ↔ Need (BoolJ x) (f k) := req_iff fun _ _ => readBool_iff
theorem reqDir {f : String → Option Json} {k x} : req f k readDir = some x ↔ Need (DirJ x) (f k) := req_iff fun _ _ => readDir_iff
theorem reqU128 {f : String → Option Json} {k x} : req f k (readUintStr U128) = some x ↔ Need (UintJ 128 x) (f k) := req_iff fun _ _ => readUint128_iff
theorem reqU256 {f : String → Option Json} {k x} : req f k (readUintStr U256) = some x ↔ Need (UintJ 256 x) (f k) := req_iff fun _ _ => readUint256_iff
theorem reqD128 {f : String → Option Json} {k x} : req f k (readDec U128) = some x ↔ Need (DecJ 128 x) (f k) := req_iff fun _ _ => readDec128_iff
theorem reqD256 {f : String → Option Json} {k x} : req f k (readDec U256) = some x ↔ Need (DecJ 256 x) (f k) := req_iff fun _ _ => readDec256_iff
theorem reqN64 {f : String → Option Json} {k x} : req f k (readNat U64) = some x ↔ Need (NatJ 64 x) (f k) := req_iff fun _ _ => readNat64_iff
theorem optI64 {f : String → Option Json} {k x} : opt f k readI64 = some x ↔ May IntJ x (f k) := opt_iff (fun _ _ => readI64_iff) rfl
theorem optN64 {f : String → Option Json} {k x} : opt f k (readNat U64) = some x ↔ May (NatJ 64) x (f k) := opt_iff (fun _ _ => readNat64_iff) rfl
theorem readNat32_iff {v : Json} {n : Nat} : readNat 4294967296 v = some n ↔ NatJ 32 n v := readNat_iff (k := 32)
theorem optN32 {f : String → Option Json} {k x} : opt f k (readNat 4294967296) = some x ↔ May (NatJ 32) x (f k) := opt_iff (fun _ _ => readNat32_iff) rfl
theorem optD256 {f : String → Option Json} {k x} : opt f k (readDec U256) = some x ↔ May (DecJ 256) x (f k) := opt_iff (fun _ _ => readDec256_iff) rfl
theorem optKey {f : String → Option Json} {k x} : opt f k readKey = some x ↔ May KeyJ x (f k) := opt_iff (fun _ _ => readKey_iff) rfl
theorem reqKeys {f : String → Option Json} {k x} : req f k (readList readKey) = some x ↔ Need (ListJ KeyJ x) (f k) :=
  req_iff fun _ _ => readList_iff fun _ _ => readKey_iff
theorem reqInts {f : String → Option Json} {k x} : req f k (readList readI64) = some x ↔ Need (ListJ IntJ x) (f k) :=
  req_iff fun _ _ => readList_iff fun _ _ => readI64_iff

/-- The readers of fields, rewritten into the specification. -/
macro "fields_simp" "[" ts:Lean.Parser.Tactic.simpLemma,* "]" : tactic =>
  `(tactic| simp [Option.bind_eq_some_iff, reqStr, reqI64, reqBool, reqDir, reqU128, reqU256, reqD128, reqD256, reqN64, optI64, optN64, optN32,
      optD256, optKey, reqKeys, reqInts, List.forall_mem_cons, and_assoc, $ts,*])

theorem readCoin_iff {v : Json} {c : Coin} : readCoin v = some c ↔ CoinJ c v := by
  unfold readCoin CoinJ
  refine struct_iff (by rfl) fun f => ?_
  obtain ⟨d, a⟩ := c
  fields_simp []

theorem reqCoin {f : String → Option Json} {k x} : req f k readCoin = some x ↔ Need (CoinJ x) (f k) := req_iff fun _ _ => readCoin_iff

theorem fields_ex {fs : List (String × (Option Json → Prop))} {v : Json} :
    Fields fs v ↔ ∃ f, fields (fs.map Prod.fst) v = some f ∧ ∀ e ∈ fs, e.2 (f e.1) := (fields_iff rfl).symm

/-- An enum with struct variants. -/
macro "enum_simp" "[" ts:Lean.Parser.Tactic.simpLemma,* "]" : tactic =>
  `(tactic| simp [Named, fields_ex, unit_iff, Option.bind_eq_some_iff, reqStr, reqI64, reqBool, reqDir, reqU128, reqU256, reqD128, reqD256, reqN64, optI64, optN64, optN32,
      optD256, optKey, reqKeys, reqInts, reqCoin, List.forall_mem_cons, and_assoc, $ts,*])

theorem readAuthMsg_iff {j : Json} {m : AuthMsg} : readAuthMsg j = some m ↔ AuthJ m j := by
  unfold readAuthMsg
  rw [readEnum_iff (by decide +kernel)]
  cases m <;> enum_simp [AuthJ]

theorem readExecuteMsg_iff {j : Json} {m : ExecuteMsg} : readExecuteMsg j = some m ↔ ExecuteJ m j := by
  unfold readExecuteMsg
  rw [readEnum_iff (by decide +kernel)]
  cases m <;> enum_simp [ExecuteJ, readAuthMsg_iff]

theorem readSudoMsg_iff {j : Json} {m : SudoMsg} : readSudoMsg j = some m ↔ SudoJ m j := by
  unfold readSudoMsg
  rw [readEnum_iff (by decide +kernel)]
  cases m <;> enum_simp [SudoJ]

theorem readAuthQueryMsg_iff {j : Json} {m : AuthQueryMsg} : readAuthQueryMsg j = some m ↔ AuthQueryJ m j := by
  unfold readAuthQueryMsg
  rw [readEnum_iff (by decide +kernel)]
  cases m <;> enum_simp [AuthQueryJ]

theorem readQueryMsg_iff {j : Json} {m : QueryMsg} : readQueryMsg j = some m ↔ QueryJ m j := by
  unfold readQueryMsg
  rw [readEnum_iff (by decide +kernel)]
  cases m <;> enum_simp [QueryJ, readAuthQueryMsg_iff]

theorem readInstantiateMsg_iff {j : Json} {base quote : Denom} : readInstantiateMsg j = some (base, quote) ↔ InstantiateJ base quote j := by
  unfold readInstantiateMsg InstantiateJ
  refine struct_iff (by rfl) fun f => ?_
  fields_simp []

/-! ### Stored values -/

theorem readTickValues_iff {v : Json} {x : TickValues} : readTickValues v = some x ↔ TickValuesJ x v := by
  unfold readTickValues TickValuesJ
  refine struct_iff (by rfl) fun f => ?_
  obtain ⟨a, b, c, d, e⟩ := x
  fields_simp []

theorem reqTickValues {f : String → Option Json} {k x} : req f k readTickValues = some x ↔ Need (TickValuesJ x) (f k) :=
  req_iff fun _ _ => readTickValues_iff

theorem readTickState_iff {v : Json} {x : TickState} : readTickState v = some x ↔ TickStateJ x v := by
  unfold readTickState TickStateJ
  refine struct_iff (by rfl) fun f => ?_
  obtain ⟨a, b⟩ := x
  fields_simp [reqTickValues]

theorem readLimitOrder_iff {v : Json} {o : LimitOrder} : readLimitOrder v = some o ↔ OrderJ o v := by
  unfold readLimitOrder OrderJ
  refine struct_iff (by rfl) fun f => ?_
  obtain ⟨a, b, c, d, e, g, h, i, p⟩ := o
  cases hp : f "placed_at" with
  | none =>
    have e0 : (0 = p) ↔ PlacedAt p none := eq_comm
    fields_simp [hp, e0]
  | some v =>
    have e0 : UintJ 64 p v ↔ PlacedAt p (some v) := Iff.rfl
    fields_simp [hp, readUint64_iff, e0]
    tauto

theorem readOrderbook_iff {v : Json} {b : Orderbook} : readOrderbook v = some b ↔ BookJ b v := by
  unfold readOrderbook BookJ
  refine struct_iff (by rfl) fun f => ?_
  obtain ⟨a, b, c, d, e⟩ := b
  fields_simp []

theorem reqRange {f : String → Option Json} {k x} : req f k (readPair (readDec U256) (readDec U256)) = some x ↔ Need (RangeJ x.1 x.2) (f k) :=
  req_iff (P := fun x : Nat × Nat => RangeJ x.1 x.2) fun _ _ => readPair_iff (fun _ _ => readDec256_iff) (fun _ _ => readDec256_iff)

theorem readNodeType_iff {v : Json} {x : NodeType} : readNodeType v = some x ↔ NodeTypeJ x v := by
  unfold readNodeType
  rw [readEnum_iff (by decide +kernel)]
  cases x <;> enum_simp [NodeTypeJ, reqRange]
  refine exists_congr fun v => and_congr_right fun _ => exists_congr fun f => and_congr_right fun _ => ?_
  tauto

theorem reqNodeType {f : String → Option Json} {k x} : req f k readNodeType = some x ↔ Need (NodeTypeJ x) (f k) :=
  req_iff fun _ _ => readNodeType_iff

theorem readTreeNode_iff {v : Json} {x : TreeNode} : readTreeNode v = some x ↔ NodeJ x v := by
  unfold readTreeNode NodeJ
  refine struct_iff (by rfl) fun f => ?_
  obtain ⟨a, b, c, d, e, g, h⟩ := x
  fields_simp [reqNodeType]

theorem map_some_iff {α β : Type} {o : Option α} {w : α → β} (hw : ∀ x y, w x = w y → x = y) {x : α} : o.map w = some (w x) ↔ o = some x := by
  rw [Option.map_eq_some_iff]
  constructor
  · rintro ⟨y, h, e⟩; rw [h, hw _ _ e]
  · rintro h; exact ⟨x, h, rfl⟩

theorem readVal_iff {c : Cell} {x : Val} {v : Json} : c.readVal v = some x ↔ CellJ c x v := by
  cases c <;> cases x <;>
    simp [Cell.readVal, CellJ, readNat64_iff, readOrderbook_iff, readBool_iff, readDec256_iff, readString_iff, readTickState_iff, readLimitOrder_iff,
      readNat32_iff, readTreeNode_iff]

/-! ### Answers -/

theorem reqTickState {f : String → Option Json} {k x} : req f k readTickState = some x ↔ Need (TickStateJ x) (f k) :=
  req_iff fun _ _ => readTickState_iff

theorem readTick_iff {v : Json} {x : Int × TickState} : readTick v = some x ↔ TickJ x v := by
  unfold readTick TickJ
  refine struct_iff (by rfl) fun f => ?_
  obtain ⟨a, b⟩ := x
  fields_simp [reqTickState]

theorem readUnrealized_iff {v : Json} {x : Int × Nat × Nat} : readUnrealized v = some x ↔ UnrealizedJ x v := by
  unfold readUnrealized UnrealizedJ
  refine struct_iff (by rfl) fun f => ?_
  obtain ⟨a, b, c⟩ := x
  have e : (∃ v, f "unrealized_cancels" = some v ∧ ∃ g, fields ["ask_unrealized_cancels", "bid_unrealized_cancels"] v = some g ∧
      Need (DecJ 256 b) (g "ask_unrealized_cancels") ∧ Need (DecJ 256 c) (g "bid_unrealized_cancels")) ↔
      Need (Fields [("ask_unrealized_cancels", Need (DecJ 256 b)), ("bid_unrealized_cancels", Need (DecJ 256 c))]) (f "unrealized_cancels") := by
    cases f "unrealized_cancels" with
    | none => simp [Need]
    | some v => simp [Need, fields_ex]
  fields_simp [← e]
  intro _
  constructor
  · rintro ⟨g, ⟨v, hv, hg⟩, h⟩; exact ⟨v, hv, g, hg, h⟩
  · rintro ⟨v, hv, g, hg, h⟩; exact ⟨g, ⟨v, hv, hg⟩, h⟩

theorem reqTicks {f : String → Option Json} {k x} : req f k (readList readTick) = some x ↔ Need (ListJ TickJ x) (f k) :=
  req_iff fun _ _ => readList_iff fun _ _ => readTick_iff
theorem reqUnrealized {f : String → Option Json} {k x} : req f k (readList readUnrealized) = some x ↔ Need (ListJ UnrealizedJ x) (f k) :=
  req_iff fun _ _ => readList_iff fun _ _ => readUnrealized_iff
theorem reqOrders {f : String → Option Json} {k x} : req f k (readList readLimitOrder) = some x ↔ Need (ListJ OrderJ x) (f k) :=
  req_iff fun _ _ => readList_iff fun _ _ => readLimitOrder_iff
theorem reqCoins {f : String → Option Json} {k x} : req f k (readList readCoin) = some x ↔ Need (ListJ CoinJ x) (f k) :=
  req_iff fun _ _ => readList_iff fun _ _ => readCoin_iff

theorem readSwapData_iff {v : Json} {x : Nat} : readSwapData v = some x ↔ SwapDataJ x v := by
  unfold readSwapData SwapDataJ
  refine struct_iff (by rfl) fun f => ?_
  fields_simp []

theorem readOptStr_iff {v : Json} {o : Option String} : readOpt readString v = some o ↔ OptJ StrJ o v := readOpt_iff (fun _ _ => readString_iff) rfl

/-- All answers but the maker fee and the never given one: decoding as the declared type. -/
theorem readAnswer_iff {m : QueryMsg} (h1 : m ≠ .getMakerFee) (h2 : m ≠ .calcInAmtGivenOut) {a : Answer} {v : Json} :
    readAnswer m v = some a ↔ AnswerJ m a v := by
  cases m <;> first | exact absurd rfl h1 | exact absurd rfl h2 | skip
  all_goals cases a <;>
    simp [readAnswer, AnswerJ, fields_ex, Option.bind_eq_some_iff, reqStr, reqD128, reqN64, reqCoin, reqTicks, reqUnrealized, reqOrders, reqCoins,
      readOrderbook_iff, readBool_iff, readOptStr_iff]

end OB
