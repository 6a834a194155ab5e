import Verif.Conformance.Harness
/- The loops of sumtree/test/test_node.rs, sumtree/test/test_tree.rs and tests/test_tick.rs. `test_node_insert_large_quantity`
(1000 leaves in the order of a pseudo-random generator) is not replayed. -/
namespace OB.Conf
open TreeNode

/-- node.rs:847-860 `traverse` (test only): depth first -/
def traverse (st : TreeSt) : Nat → TreeNode → List TreeNode
  | 0, _ => []
  | fuel + 1, n =>
    if !n.isInternal then [n]
    else n :: (((n.getLeft st).map (traverse st fuel)).getD [] ++ ((n.getRight st).map (traverse st fuel)).getD [])

/-- node.rs:863-872 `get_height` (test only) -/
def height (st : TreeSt) : Nat → TreeNode → Nat
  | 0, _ => 0
  | fuel + 1, n => max (((n.getLeft st).map (height st fuel)).getD 0) (((n.getRight st).map (height st fuel)).getD 0) + 1

/-- empty storage -/
def noTree : TreeSt := Store.empty.trees

/-- deeper than any tree of the tests -/
def DEPTH : Nat := 30

/-- the value of a computation expected to succeed; `x` otherwise (used with an `x` that fails the check around it) -/
def okOr {α : Type} (x : α) : Except Err α → α
  | .ok y => y
  | .error _ => x

/-- `get_max_range` of an optional child -/
def maxOr (d : Nat) : Option TreeNode → Nat
  | none => d
  | some n => okOr 0 n.getMaxRange

/-- test_node.rs:21-131 `assert_internal_values`, one node -/
def internalOk (st : TreeSt) (balanced : Bool) (n : TreeNode) : Bool :=
  let l := n.getLeft st
  let r := n.getRight st
  let h (x : Option TreeNode) : Nat := (x.map (height st DEPTH)).getD 0
  decide (n.getValue = (l.map getValue).getD 0 + (r.map getValue).getD 0) &&
  decide (n.getMinRange = min ((l.map getMinRange).getD decMax) ((r.map getMinRange).getD decMax)) &&
  decide (okOr 0 n.getMaxRange = max (maxOr 0 l) (maxOr 0 r)) &&
  decide (n.getWeight = height st DEPTH n) &&
  (!balanced || (decide (h l ≤ h r + 1) && decide (h r ≤ h l + 1))) &&
  (l.toList.all fun c => decide (c.parent = some n.key)) &&
  (r.toList.all fun c => decide (c.parent = some n.key)) &&
  decide (maxOr 0 l ≤ (r.map getMinRange).getD decMax)

/-- test_node.rs:21-131 `assert_internal_values` -/
def internalsOk (st : TreeSt) (balanced : Bool) (nodes : List TreeNode) : Bool :=
  (nodes.filter fun n => n.isInternal).all (internalOk st balanced)

/-- the inserted leaves of test_node.rs:365-382, 597-613: each is saved, then inserted under `tree` -/
def insertLeaves (tree : TreeNode) : List NodeType → TM TreeNode
  | [] => pure tree
  | nt :: l => do
    let key ← generateNodeId 1
    let leaf := mk' 1 .bid key nt
    leaf.save
    let st ← EM.get
    let tree ← insert (treeFuel st 1) tree leaf
    insertLeaves tree l

/-- test_node.rs:356-382, 588-613: a root that is not in storage, and the leaves -/
def plant (nodes : List NodeType) : TM TreeNode := do
  let key ← generateNodeId 1
  insertLeaves (mk' 1 .bid key (.internal 0 ((2 ^ 32 - 1) * D) 0 0)) nodes

/-- `traverse` equals the stored nodes of the expected keys -/
def sameNodes (st : TreeSt) (result : List TreeNode) (expected : List Nat) : Bool :=
  decide (result.map some = expected.map fun k => st.nodes 1 k)

/-- test_node.rs:12-19 -/
structure InsertCase where
  nodes : List NodeType
  expected : List Nat

/-- test_node.rs:354-408 -/
def InsertCase.run (c : InsertCase) : Bool :=
  onOk (plant c.nodes noTree) fun tree st =>
    let result := traverse st DEPTH tree
    sameNodes st result c.expected && internalsOk st true result

/-- test_node.rs:411-457 test_left_empty_right_non_empty -/
def leftEmpty : TM TreeNode := do
  let root := { mk' 1 .bid (← generateNodeId 1) (.internal 0 ((2 ^ 32 - 1) * D) 0 0) with right := some 2 }
  let right := { mk' 1 .bid (← generateNodeId 1) (.leaf (10 * D) (11 * D)) with parent := some 1 }
  let new := mk' 1 .bid (← generateNodeId 1) (.leaf (10 * D) (21 * D))
  saveRoot 1 .bid root.key
  root.save
  right.save
  let st ← EM.get
  let root ← EM.lift (getRootNode st 1 .bid)
  insert (treeFuel st 1) root new

/-- test_node.rs:411-457 -/
theorem left_empty_right_non_empty_pass :
    (onErr (leftEmpty noTree) .invalidSumtree fun _ => true) = true := by decide +kernel

/-- test_node.rs:459-468 -/
structure DeletionCase where
  nodes : List NodeType
  delete : List Nat
  expected : List Nat

/-- test_node.rs:619-624 -/
def deleteKeys : List Nat → TM Unit
  | [] => pure ()
  | k :: l => do
    let st ← EM.get
    match st.nodes 1 k with
    | none => EM.fail .std
    | some n => do
      TreeNode.delete (treeFuel st 1) n
      deleteKeys l

/-- test_node.rs:588-660 -/
def DeletionCase.run (c : DeletionCase) : Bool :=
  onOk (plant c.nodes noTree) fun tree st =>
  onOk (deleteKeys c.delete st) fun _ st =>
    if c.expected.isEmpty then (tree.getParent st).isNone
    else match st.nodes 1 tree.key with
      | none => false
      | some tree =>
        let result := traverse st DEPTH tree
        sameNodes st result c.expected && (c.delete.all fun k => (st.nodes 1 k).isNone) && internalsOk st true result

/-- test_node.rs:662-669, 1348-1354, 1937-1943 -/
structure ReshapeCase where
  nodes : List TreeNode
  expected : List Nat
  err : Option Err

/-- save every node (test_node.rs:1295-1307) -/
def saveAll : List TreeNode → TM Unit
  | [] => pure ()
  | n :: l => do
    n.save
    saveAll l

/-- sync the ancestors of the leaves (test_node.rs:1310-1320) -/
def syncLeaves : List TreeNode → TM Unit
  | [] => pure ()
  | n :: l => do
    if n.isInternal || n.parent.isNone then pure ()
    else do
      let n ← n.sync
      let st ← EM.get
      match n.getParent st with
      | none => EM.fail .panic
      | some p => do
        let _ ← syncRangeAndValueUp DEPTH p
        pure ()
    syncLeaves l

/-- test_node.rs:1292-1321: the stored tree -/
def stored (nodes : List TreeNode) : TM Unit := do
  match nodes with
  | [] => pure ()
  | n :: _ => saveRoot 1 .bid n.key
  saveAll nodes
  syncLeaves nodes

/-- test_node.rs:1292-1346, 1881-1935, 2619-2673 -/
def ReshapeCase.runWith (op : TreeNode → TM TreeNode) (balanced : Bool) (c : ReshapeCase) : Bool :=
  onOk (stored c.nodes noTree) fun _ st =>
    match getRootNode st 1 .bid with
    | .error _ => false
    | .ok tree => match c.err with
      | some e => onErr (op tree st) e fun _ => true
      | none => onOk (op tree st) fun _ st =>
          match getRootNode st 1 .bid with
          | .error _ => false
          | .ok tree =>
            let nodes := traverse st DEPTH tree
            decide (nodes.map (·.key) = c.expected) && internalsOk st balanced nodes

/-- test_rotate_right -/
def ReshapeCase.runRight : ReshapeCase → Bool := ReshapeCase.runWith rotateRight false
/-- test_rotate_left -/
def ReshapeCase.runLeft : ReshapeCase → Bool := ReshapeCase.runWith rotateLeft false
/-- test_rebalance -/
def ReshapeCase.runRebalance : ReshapeCase → Bool := ReshapeCase.runWith rebalance true

/-- test_tree.rs:8-14 -/
structure PrefixSumCase where
  nodes : List NodeType
  target : Nat
  prev : Nat
  expected : Nat

/-- test_tree.rs:305-323 `insert_and_refetch` (the fetched root is not returned) -/
def insertAndRefetch (tick : Int) (dir : Dir) (nt : NodeType) : TM Unit := do
  let tree ← getOrInitRootNode tick dir
  let key ← generateNodeId tick
  let st ← EM.get
  let _ ← insert (treeFuel st tick) tree (mk' tick dir key nt)
  let st ← EM.get
  let _ ← EM.lift (getRootNode st tick dir)
  pure ()

/-- one after the other -/
def insertAll (tick : Int) (dir : Dir) : List NodeType → TM Unit
  | [] => pure ()
  | nt :: l => do
    insertAndRefetch tick dir nt
    insertAll tick dir l

/-- test_tree.rs:262-301 (every case has leaves, so the fetched root is the stored one) -/
def PrefixSumCase.run (c : PrefixSumCase) : Bool :=
  onOk ((do let _ ← getOrInitRootNode 1 .bid; insertAll 1 .bid c.nodes : TM Unit) noTree) fun _ st =>
    match getRootNode st 1 .bid with
    | .error _ => false
    | .ok tree => internalsOk st true (traverse st DEPTH tree) && expect (getPrefixSum st tree c.target c.prev) c.expected none

/-- test_tick.rs:13-27 -/
structure SyncCase where
  bid : TickValues
  ask : TickValues
  bidCancels : List NodeType
  askCancels : List NodeType
  bidStep : Nat
  askStep : Nat
  syncs : Nat
  bidRealized : Nat
  askRealized : Nat
  bidEtas : Nat
  askEtas : Nat

/-- test_tick.rs:620-646 `increment_tick_etas`, without the save: the tick with both ETAS moved -/
def bump (ts : TickState) (b a : Nat) : TickState :=
  let bv := ts.getValues .bid
  let av := ts.getValues .ask
  (ts.setValues .bid { bv with etas := bv.etas + b }).setValues .ask { av with etas := av.etas + a }

/-- test_tick.rs:484-545: `mu` is the storage `mutable_tick_deps`, `s` the storage `deps`, `loc` the variable `tick_state` -/
def syncLoop (c : SyncCase) : Nat → Store → Store → TickState → Option Store
  | 0, _, s, _ => some s
  | n + 1, mu, s, loc =>
    match s.ticks.get? 0 with
    | none => none
    | some cur =>
      let m := bump cur c.bidStep c.askStep
      match saveTick 0 m s with
      | .err .. => none
      | .ok _ s => match syncTick 0 (m.getValues .bid).etas (m.getValues .ask).etas mu with
        | .err .. => none
        | .ok _ mu =>
          let loc := bump loc c.bidStep c.askStep
          match saveTick 0 loc s with
          | .err .. => none
          | .ok _ s => match syncTick 0 (loc.getValues .bid).etas (loc.getValues .ask).etas s with
            | .err .. => none
            | .ok _ s =>
              if ((tickOf mu 0).getValues .bid).crc = ((tickOf s 0).getValues .bid).crc ∧
                  ((tickOf mu 0).getValues .ask).crc = ((tickOf s 0).getValues .ask).crc then syncLoop c n mu s loc
              else none

/-- test_tick.rs:446-585 -/
def SyncCase.run (c : SyncCase) : Bool :=
  let ts := (TickState.default.setValues .bid c.bid).setValues .ask c.ask
  onOk ((do saveTick 0 ts; liftTree (insertAll 0 .bid c.bidCancels); liftTree (insertAll 0 .ask c.askCancels) : M Unit)
    Store.empty) fun _ s =>
    match syncLoop c c.syncs s s ts with
    | none => false
    | some s =>
      let b := (tickOf s 0).getValues .bid
      let a := (tickOf s 0).getValues .ask
      decide (b.crc = c.bidRealized) && decide (a.crc = c.askRealized) && decide (b.etas = c.bidEtas) && decide (a.etas = c.askEtas)

end OB.Conf
