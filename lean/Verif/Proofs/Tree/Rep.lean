import Verif.Proofs.Basic
/- Abstract trees and their representation in storage. -/
namespace OB

/-- Abstract shape of a stored sumtree (every internal node has two children). Leaf: key, position (`etas`), value. -/
inductive T where
  | leaf (k e v : Nat)
  | node (k : Nat) (l r : T)
  deriving DecidableEq

namespace T

def key : T → Nat
  | leaf k _ _ => k
  | node k _ _ => k

def val : T → Nat
  | leaf _ _ v => v
  | node _ l r => l.val + r.val

def lo : T → Nat
  | leaf _ e _ => e
  | node _ l r => min l.lo r.lo

def hi : T → Nat
  | leaf _ e v => v + e
  | node _ l r => max l.hi r.hi

def wt : T → Nat
  | leaf _ _ _ => 1
  | node _ l r => max l.wt r.wt + 1

def keys : T → List Nat
  | leaf k _ _ => [k]
  | node k l r => k :: (l.keys ++ r.keys)

/-- Leaves in order: (position, value). -/
def leaves : T → List (Nat × Nat)
  | leaf _ e v => [(e, v)]
  | node _ l r => l.leaves ++ r.leaves

def isNode : T → Bool
  | leaf .. => false
  | node .. => true

def left? : T → Option Nat
  | leaf .. => none
  | node _ l _ => some l.key

def right? : T → Option Nat
  | leaf .. => none
  | node _ _ r => some r.key

def ntype : T → NodeType
  | leaf _ e v => .leaf v e
  | node k l r => .internal (node k l r).val (node k l r).lo (node k l r).hi (node k l r).wt

/-- The stored node of the root of `t`. -/
def toNode (tick : Int) (dir : Dir) (par : Option Nat) (t : T) : TreeNode :=
  { key := t.key, tickId := tick, dir, left := t.left?, right := t.right?, parent := par, ntype := t.ntype }

/-- `t` is stored in `N` under parent `par`. -/
def Rep (N : Nat → Option TreeNode) (tick : Int) (dir : Dir) : Option Nat → T → Prop
  | par, leaf k e v => N k = some (toNode tick dir par (leaf k e v))
  | par, node k l r =>
    N k = some (toNode tick dir par (node k l r)) ∧ Rep N tick dir (some k) l ∧ Rep N tick dir (some k) r

/-- Leaves are disjoint intervals in increasing order. -/
def Ord : T → Prop
  | leaf _ _ v => 0 < v
  | node _ l r => l.Ord ∧ r.Ord ∧ l.hi ≤ r.lo

/-- Sibling heights differ by at most one. -/
def AVL : T → Prop
  | leaf .. => True
  | node _ l r => l.AVL ∧ r.AVL ∧ l.wt ≤ r.wt + 1 ∧ r.wt ≤ l.wt + 1

@[simp] theorem left?_node (k : Nat) (l r : T) : (node k l r).left? = some l.key := rfl
@[simp] theorem right?_node (k : Nat) (l r : T) : (node k l r).right? = some r.key := rfl
@[simp] theorem key_node (k : Nat) (l r : T) : (node k l r).key = k := rfl
@[simp] theorem key_leaf (k e v : Nat) : (leaf k e v).key = k := rfl
@[simp] theorem isNode_node (k : Nat) (l r : T) : (node k l r).isNode = true := rfl
@[simp] theorem isNode_leaf (k e v : Nat) : (leaf k e v).isNode = false := rfl

theorem key_mem (t : T) : t.key ∈ t.keys := by cases t <;> simp [key, keys]

theorem wt_pos (t : T) : 1 ≤ t.wt := by cases t <;> simp [wt]

theorem wt_le_keys (t : T) : t.wt ≤ t.keys.length := by
  induction t with
  | leaf => simp [wt, keys]
  | node k l r ihl ihr => simp [wt, keys]; omega

variable {N N' : Nat → Option TreeNode} {tick : Int} {dir : Dir} {par par' : Option Nat} {t : T}

theorem Rep.root (h : Rep N tick dir par t) : N t.key = some (t.toNode tick dir par) := by
  cases t with
  | leaf => exact h
  | node => exact h.1

theorem Rep.congr (h : Rep N tick dir par t) (hN : ∀ k ∈ t.keys, N' k = N k) : Rep N' tick dir par t := by
  induction t generalizing par with
  | leaf k e v =>
    have := hN k (by simp [keys])
    simp only [Rep] at *
    rw [this, h]
  | node k l r ihl ihr =>
    obtain ⟨h1, h2, h3⟩ := h
    refine ⟨by rw [hN k (by simp [keys]), h1], ihl h2 ?_, ihr h3 ?_⟩
    · intro q hq; exact hN q (by simp [keys, hq])
    · intro q hq; exact hN q (by simp [keys, hq])

/-- Change only the parent pointer of the root. -/
theorem Rep.reparent (h : Rep N tick dir par t) (hnd : t.keys.Nodup)
    (hroot : N' t.key = some (t.toNode tick dir par')) (hN : ∀ k ∈ t.keys, k ≠ t.key → N' k = N k) :
    Rep N' tick dir par' t := by
  cases t with
  | leaf k e v => exact hroot
  | node k l r =>
    obtain ⟨h1, h2, h3⟩ := h
    simp only [keys, List.nodup_cons, List.mem_append, not_or] at hnd
    refine ⟨hroot, h2.congr ?_, h3.congr ?_⟩
    · intro q hq
      exact hN q (by simp [keys, hq]) (fun e => hnd.1.1 (by rw [show k = q from e.symm]; exact hq))
    · intro q hq
      exact hN q (by simp [keys, hq]) (fun e => hnd.1.2 (by rw [show k = q from e.symm]; exact hq))

theorem Rep.mem_some (h : Rep N tick dir par t) {k : Nat} (hk : k ∈ t.keys) : ∃ n, N k = some n ∧ n.dir = dir := by
  induction t generalizing par with
  | leaf k' e v =>
    simp only [keys, List.mem_singleton] at hk
    subst hk; exact ⟨_, h, rfl⟩
  | node k' l r ihl ihr =>
    obtain ⟨h1, h2, h3⟩ := h
    simp only [keys, List.mem_cons, List.mem_append] at hk
    rcases hk with rfl | hk | hk
    · exact ⟨_, h1, rfl⟩
    · exact ihl h2 hk
    · exact ihr h3 hk

theorem Ord.lo_lt_hi (h : t.Ord) : t.lo < t.hi := by
  induction t with
  | leaf k e v => simp [Ord, lo, hi] at *; omega
  | node k l r ihl ihr =>
    obtain ⟨h1, h2, h3⟩ := h
    have := ihl h1; have := ihr h2
    simp [lo, hi]; omega

theorem Ord.lo_node {k : Nat} {l r : T} (h : (node k l r).Ord) : (node k l r).lo = l.lo := by
  have h1 := h.1.lo_lt_hi; have h2 := h.2.1.lo_lt_hi; have h3 := h.2.2
  simp [lo]; omega

theorem Ord.hi_node {k : Nat} {l r : T} (h : (node k l r).Ord) : (node k l r).hi = r.hi := by
  have h1 := h.1.lo_lt_hi; have h2 := h.2.1.lo_lt_hi; have h3 := h.2.2
  simp [hi]; omega

theorem Ord.val_le (h : t.Ord) : t.lo + t.val ≤ t.hi := by
  induction t with
  | leaf k e v => simp [Ord, lo, hi, val] at *; omega
  | node k l r ihl ihr =>
    rw [h.lo_node, h.hi_node]
    obtain ⟨h1, h2, h3⟩ := h
    have := ihl h1; have := ihr h2
    simp [val]; omega

theorem hi_pos_of_Ord (h : t.Ord) : 0 < t.hi := lt_of_le_of_lt (Nat.zero_le _) h.lo_lt_hi

/-! ### Reading the stored node -/

@[simp] theorem toNode_key : (t.toNode tick dir par).key = t.key := rfl
@[simp] theorem toNode_tickId : (t.toNode tick dir par).tickId = tick := rfl
@[simp] theorem toNode_dir : (t.toNode tick dir par).dir = dir := rfl
@[simp] theorem toNode_parent : (t.toNode tick dir par).parent = par := rfl
@[simp] theorem toNode_left : (t.toNode tick dir par).left = t.left? := rfl
@[simp] theorem toNode_right : (t.toNode tick dir par).right = t.right? := rfl
@[simp] theorem toNode_ntype : (t.toNode tick dir par).ntype = t.ntype := rfl

@[simp] theorem toNode_isInternal : (t.toNode tick dir par).isInternal = t.isNode := by
  cases t <;> rfl
@[simp] theorem toNode_getValue : (t.toNode tick dir par).getValue = t.val := by
  cases t <;> rfl
@[simp] theorem toNode_getMinRange : (t.toNode tick dir par).getMinRange = t.lo := by
  cases t <;> rfl
@[simp] theorem toNode_getWeight : (t.toNode tick dir par).getWeight = t.wt := by
  cases t <;> rfl
theorem toNode_getMaxRange (h : t.hi < U256) : (t.toNode tick dir par).getMaxRange = .ok t.hi := by
  cases t with
  | leaf k e v =>
    simp only [hi] at h
    simp [TreeNode.getMaxRange, ntype, hi, checkedAdd_ok h]
  | node => rfl

end T

/-! ### Storage updates -/

def TreeSt.setNode (st : TreeSt) (tick : Int) (k : Nat) (n : TreeNode) : TreeSt :=
  { st with nodes := fun t q => if t = tick ∧ q = k then some n else st.nodes t q }

def TreeSt.setRoot (st : TreeSt) (tick : Int) (dir : Dir) (k : Nat) : TreeSt :=
  { st with roots := fun t d => if t = tick ∧ d = dir then some k else st.roots t d }

def TreeSt.setCounter (st : TreeSt) (tick : Int) (c : Nat) : TreeSt :=
  { st with counter := fun t => if t = tick then some c else st.counter t }

namespace TreeSt
variable (st : TreeSt) (tick t : Int) (k q c : Nat) (n : TreeNode) (dir d : Dir)

@[simp] theorem setNode_roots : (st.setNode tick k n).roots = st.roots := rfl
@[simp] theorem setNode_counter : (st.setNode tick k n).counter = st.counter := rfl
@[simp] theorem setRoot_nodes : (st.setRoot tick dir k).nodes = st.nodes := rfl
@[simp] theorem setRoot_counter : (st.setRoot tick dir k).counter = st.counter := rfl
@[simp] theorem setCounter_nodes : (st.setCounter tick c).nodes = st.nodes := rfl
@[simp] theorem setCounter_roots : (st.setCounter tick c).roots = st.roots := rfl
@[simp] theorem setCounter_self : (st.setCounter tick c).counter tick = some c := by simp [setCounter]
@[simp] theorem setNode_self : (st.setNode tick k n).nodes tick k = some n := by simp [setNode]
theorem setNode_ne (h : q ≠ k) : (st.setNode tick k n).nodes tick q = st.nodes tick q := by simp [setNode, h]
theorem setNode_tick (h : t ≠ tick) : (st.setNode tick k n).nodes t q = st.nodes t q := by simp [setNode, h]
theorem setNode_nodes : (st.setNode tick k n).nodes tick q = if q = k then some n else st.nodes tick q := by
  simp [setNode]
theorem setNode_nodes' : (st.setNode tick k n).nodes t q = if t = tick ∧ q = k then some n else st.nodes t q := rfl
theorem setRoot_roots : (st.setRoot tick dir k).roots t d = if t = tick ∧ d = dir then some k else st.roots t d := rfl

end TreeSt

namespace TreeNode

theorem save_apply (n : TreeNode) (st : TreeSt) : n.save st = .ok () (st.setNode n.tickId n.key n) := rfl
@[simp] theorem save_bind {β : Type} (n : TreeNode) (f : Unit → TM β) (st : TreeSt) :
    (n.save >>= f) st = f () (st.setNode n.tickId n.key n) := Eq.trans rfl rfl
theorem saveRoot_apply (tick : Int) (dir : Dir) (k : Nat) (st : TreeSt) :
    saveRoot tick dir k st = .ok () (st.setRoot tick dir k) := rfl
@[simp] theorem saveRoot_bind {β : Type} (tick : Int) (dir : Dir) (k : Nat) (f : Unit → TM β) (st : TreeSt) :
    (saveRoot tick dir k >>= f) st = f () (st.setRoot tick dir k) := Eq.trans rfl rfl

theorem small_u64 {x : Nat} (h : x < 2147483648) : x < U64 := by
  unfold U64; omega

/-- `sync_range_and_value` of a node whose two children are stored trees. -/
theorem syncRangeAndValue_spec {st : TreeSt} {tick : Int} {dir : Dir} {par pl pr : Option Nat} {k : Nat} {l r : T}
    {nt : NodeType} {a b c d : Nat} (hnt : nt = .internal a b c d)
    (hl : st.nodes tick l.key = some (l.toNode tick dir pl))
    (hr : st.nodes tick r.key = some (r.toNode tick dir pr))
    (hlh : l.hi < U256) (hrh : r.hi < U256) (hv : l.val + r.val < U256) (hw : max l.wt r.wt + 1 < 2147483648) :
    syncRangeAndValue ⟨k, tick, dir, some l.key, some r.key, par, nt⟩ st =
      .ok ((T.node k l r).toNode tick dir par) (st.setNode tick k ((T.node k l r).toNode tick dir par)) := by
  subst hnt
  unfold syncRangeAndValue
  simp [isInternal, getLeft, getRight, hasChild, hl, hr, T.toNode_getMaxRange hlh, T.toNode_getMaxRange hrh,
    setMinRange, setMaxRange, setValue, setWeight, checkedAdd_ok hv, u64Succ_ok (small_u64 hw)]
  constructor <;> rfl

theorem asI32_small {x : Nat} (h : x < 2147483648) : asI32 x = x := by
  have h1 : x % 2 ^ 32 = x := Nat.mod_eq_of_lt (by omega)
  unfold asI32
  rw [h1, if_pos (by omega)]

theorem i32Checked_small {x : Int} (h1 : -2147483648 ≤ x) (h2 : x < 2147483648) : i32Checked x = .ok x := by
  unfold i32Checked
  rw [if_pos (by constructor <;> norm_num <;> omega)]

/-- Balance factor of a node whose children are stored trees. -/
theorem balanceFactor_spec {n : TreeNode} {st : TreeSt} {tick : Int} {dir : Dir} {pl pr : Option Nat} {l r : T}
    (hl : n.getLeft st = some (l.toNode tick dir pl)) (hr : n.getRight st = some (r.toNode tick dir pr))
    (hlw : l.wt < 2147483648) (hrw : r.wt < 2147483648) : n.balanceFactor st = .ok ((r.wt : Int) - (l.wt : Int)) := by
  unfold balanceFactor
  simp only [hl, hr, Option.map_some, Option.getD_some, T.toNode_getWeight, asI32_small hlw, asI32_small hrw]
  exact i32Checked_small (by omega) (by omega)

end TreeNode
end OB
