import Verif.Props.Storage
import Verif.Props.Place
import Verif.Proofs.JsonTypes
/- JSON texts of messages, answers and stored values: nesting, and values are read back from their texts. -/
namespace OB
open Spec
namespace Json

theorem within_str (d : Nat) (s : String) : Within (d + 1) (.str s) := trivial
theorem within_num (d : Nat) (b : Bool) (n : Nat) : Within (d + 1) (.num b n) := trivial
theorem within_null (d : Nat) : Within (d + 1) .null := trivial
theorem within_bool (d : Nat) (b : Bool) : Within (d + 1) (.bool b) := trivial
theorem within_obj {d : Nat} {l : List (String × Json)} (h : ∀ x ∈ l, Within d x.2) : Within (d + 1) (.obj l) := h
theorem within_arr {d : Nat} {l : List Json} (h : ∀ x ∈ l, Within d x) : Within (d + 1) (.arr l) := h
theorem within_opt {α : Type} {d : Nat} {w : α → Json} {x : Option α} (h : ∀ a ∈ x, Within (d + 1) (w a)) : Within (d + 1) (ofOpt w x) := by
  cases x with
  | none => trivial
  | some a => exact h a rfl
theorem within_map {α : Type} {d : Nat} {w : α → Json} {l : List α} (h : ∀ a ∈ l, Within d (w a)) : Within (d + 1) (.arr (l.map w)) := by
  intro x hx
  obtain ⟨a, ha, rfl⟩ := List.mem_map.1 hx
  exact h a ha
theorem within_dir (d : Nat) (x : Dir) : Within (d + 1) x.json := by cases x <;> trivial
theorem within_int (d : Nat) (t : Int) : Within (d + 1) (ofInt t) := trivial
theorem within_nat (d : Nat) (t : Nat) : Within (d + 1) (ofNat t) := trivial
theorem within_uint (d : Nat) (t : Nat) : Within (d + 1) (ofUint t) := trivial
theorem within_dec (d : Nat) (t : Nat) : Within (d + 1) (ofDec t) := trivial
theorem within_coin (d : Nat) (c : Coin) : Within (d + 2) c.json := by
  refine within_obj ?_
  simp only [List.forall_mem_cons, List.not_mem_nil, false_imp_iff, implies_true, and_true]
  exact ⟨trivial, trivial⟩
theorem within_key (d : Nat) (k : Int × Nat) : Within (d + 2) (ofKey k) := by
  refine within_arr ?_
  simp only [List.forall_mem_cons, List.not_mem_nil, false_imp_iff, implies_true, and_true]
  exact ⟨trivial, trivial⟩

end Json
open Json

/-- One level of an object. -/
macro "jdep" : tactic => `(tactic| (refine within_obj ?_; simp only [List.forall_mem_cons, List.not_mem_nil, false_imp_iff, implies_true, and_true]))

theorem within_authMsg (m : AuthMsg) : Within 20 m.json := by
  cases m <;> (unfold AuthMsg.json; jdep; jdep) <;> trivial

theorem within_executeMsg (m : ExecuteMsg) : Within 30 m.json := by
  cases m with
  | placeLimit t d q b =>
    unfold ExecuteMsg.json; jdep; jdep
    exact ⟨trivial, within_dir _ _, trivial, within_opt fun _ _ => trivial⟩
  | cancelLimit t i => unfold ExecuteMsg.json; jdep; jdep; exact ⟨trivial, trivial⟩
  | claimLimit t i => unfold ExecuteMsg.json; jdep; jdep; exact ⟨trivial, trivial⟩
  | batchClaim l => unfold ExecuteMsg.json; jdep; jdep; exact within_map fun _ _ => within_key _ _
  | auth m => unfold ExecuteMsg.json; jdep; exact (within_authMsg m).mono (by omega)

theorem within_sudoMsg (m : SudoMsg) : Within 30 m.json := by
  cases m <;> (unfold SudoMsg.json; jdep; jdep) <;> (repeat' apply And.intro) <;> first | trivial | exact within_coin _ _

theorem within_authQueryMsg (m : AuthQueryMsg) : Within 20 m.json := by
  cases m <;> (unfold AuthQueryMsg.json; jdep; jdep)

theorem within_queryMsg (m : QueryMsg) : Within 30 m.json := by
  cases m <;> (unfold QueryMsg.json; jdep) <;> (first | (exact (within_authQueryMsg _).mono (by omega)) | jdep) <;>
    (repeat' apply And.intro) <;>
    first
    | trivial
    | exact within_coin _ _
    | exact within_opt fun _ _ => trivial
    | exact within_opt fun _ _ => within_key _ _
    | exact within_map fun _ _ => trivial

theorem within_instantiate (b q : Denom) : Within 30 (instantiateJson b q) := by
  unfold instantiateJson; jdep; exact ⟨trivial, trivial⟩

theorem fromText_of {α : Type} {rd : Json → Option α} {j : Json} {x : α} {d : Nat} (hd : Within d j) (h : rd j = some x) (hm : d ≤ 128 := by omega) :
    fromText rd j.text = some x := by
  unfold fromText
  rw [parse_text (hd.mono hm)]
  exact h

/-! ### Values -/

theorem tick_i64 {t : Int} (h : TickOk t) : i64Ok t = true := decide_eq_true h

theorem read_tickValues {v : TickValues} (h : ValuesOk v) : readTickValues v.json = some v := by
  obtain ⟨h1, h2, h3, h4, h5⟩ := h
  unfold readTickValues TickValues.json
  jobj; jreq (read_dec256 h1); jreq (read_dec256 h2); jreq (read_dec256 h3); jreq (read_dec256 h4); jreq (read_dec256 h5); rfl

theorem read_tickState {v : TickState} (h : TickStateOk v) : readTickState v.json = some v := by
  unfold readTickState TickState.json
  jobj; jreq (read_tickValues h.1); jreq (read_tickValues h.2); rfl

theorem read_limitOrder {o : LimitOrder} (h : OrderOk o) : readLimitOrder o.json = some o := by
  obtain ⟨h1, h2, -, h4, h5, h6, h7, h8⟩ := h
  unfold readLimitOrder LimitOrder.json
  jobj
  refine bind_of (read_uint h8) ?_
  jreq (read_int (tick_i64 h1)); jreq (read_nat h2); jreq (read_dir _); jreq (read_string _); jreq (read_uint h4); jreq (read_dec256 h5)
  jopt (read_optDec h6); jreq (read_uint h7); rfl

theorem read_orderbook {b : Orderbook} (h : BookOk b) : readOrderbook b.json = some b := by
  unfold readOrderbook Orderbook.json
  jobj; jreq (read_string _); jreq (read_string _); jreq (read_int (tick_i64 h.1)); jreq (read_int (tick_i64 h.2.1)); jreq (read_int (tick_i64 h.2.2)); rfl

theorem read_nodeType {n : NodeType} (h : NodeTypeOk n) : readNodeType n.json = some n := by
  cases n with
  | leaf v e =>
    unfold readNodeType NodeType.json
    jvar; jobj; jreq (read_dec256 h.1); jreq (read_dec256 h.2); rfl
  | internal a lo hi w =>
    have hp : readPair (readDec U256) (readDec U256) (.arr [ofDec lo, ofDec hi]) = some (lo, hi) := by
      simp [readPair, read_dec256 h.2.1, read_dec256 h.2.2.1]
    unfold readNodeType NodeType.json
    jvar; jobj; jreq hp; jreq (read_dec256 h.1); jreq (read_nat h.2.2.2); rfl

theorem read_treeNode {n : TreeNode} (h : NodeOk n) : readTreeNode n.json = some n := by
  obtain ⟨h1, h2, h3, h4, h5, h6⟩ := h
  unfold readTreeNode TreeNode.json
  jobj; jreq (read_nat h2); jreq (read_int (tick_i64 h1)); jreq (read_dir _); jopt (read_optNat h3); jopt (read_optNat h4); jopt (read_optNat h5)
  jreq (read_nodeType h6); rfl

theorem read_tick {x : Int × TickState} (h1 : TickOk x.1) (h2 : TickStateOk x.2) : readTick (tickJson x) = some x := by
  unfold readTick tickJson
  jobj; jreq (read_int (tick_i64 h1)); jreq (read_tickState h2); rfl

theorem read_unrealized {x : Int × Nat × Nat} (h1 : TickOk x.1) (h2 : DecOk x.2.1) (h3 : DecOk x.2.2) : readUnrealized (unrealizedJson x) = some x := by
  unfold readUnrealized unrealizedJson
  jobj; jreq (read_int (tick_i64 h1))
  refine bind_of (bind_of (a := .obj [("ask_unrealized_cancels", ofDec x.2.1), ("bid_unrealized_cancels", ofDec x.2.2)])
    (by simp only [List.lookup, String.reduceBEq]) (fields_lit rfl (by simp only [List.map]; decide +kernel))) ?_
  jreq (read_dec256 h2); jreq (read_dec256 h3); rfl

theorem read_swapData {x : Nat} (h : DecOk x) : readSwapData (swapDataJson x) = some x := by
  unfold readSwapData swapDataJson
  refine bind_of (fields_lit rfl (by simp only [List.map]; decide +kernel)) ?_
  exact req_lit (read_uint h) (by simp only [List.lookup, String.reduceBEq])

theorem within_tickValues (v : TickValues) : Within 5 v.json := by unfold TickValues.json; jdep; exact ⟨trivial, trivial, trivial, trivial, trivial⟩
theorem within_tickState (v : TickState) : Within 6 v.json := by unfold TickState.json; jdep; exact ⟨within_tickValues _, within_tickValues _⟩
theorem within_limitOrder (o : LimitOrder) : Within 6 o.json := by
  unfold LimitOrder.json; jdep
  exact ⟨trivial, trivial, within_dir _ _, trivial, trivial, trivial, within_opt fun _ _ => trivial, trivial, trivial⟩
theorem within_orderbook (b : Orderbook) : Within 6 b.json := by
  unfold Orderbook.json; jdep; exact ⟨trivial, trivial, trivial, trivial, trivial⟩
theorem within_nodeType (n : NodeType) : Within 6 n.json := by
  cases n <;> (unfold NodeType.json; jdep; jdep) <;> (repeat' apply And.intro) <;> first | trivial | skip
  refine within_arr ?_
  simp only [List.forall_mem_cons, List.not_mem_nil, false_imp_iff, implies_true, and_true]
  exact ⟨trivial, trivial⟩
theorem within_treeNode (n : TreeNode) : Within 7 n.json := by
  unfold TreeNode.json; jdep
  exact ⟨trivial, trivial, within_dir _ _, within_opt fun _ _ => trivial, within_opt fun _ _ => trivial, within_opt fun _ _ => trivial, within_nodeType _⟩
theorem within_tick (x : Int × TickState) : Within 7 (tickJson x) := by unfold tickJson; jdep; exact ⟨trivial, within_tickState _⟩
theorem within_unrealized (x : Int × Nat × Nat) : Within 7 (unrealizedJson x) := by
  unfold unrealizedJson; jdep; refine ⟨trivial, ?_⟩; jdep; exact ⟨trivial, trivial⟩
theorem within_swapData (x : Nat) : Within 7 (swapDataJson x) := by unfold swapDataJson; jdep; trivial

end OB
