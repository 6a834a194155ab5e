import Verif.Model.Types
/- sumtree/node.rs and sumtree/tree.rs: the pointer-level sumtree in storage.

A method taking `&mut self` returns the new value of `self`. `new_node: &mut TreeNode` of `insert`/`split` is only read
by the caller through storage afterwards, so `insert` does not return it.
Test-only methods (`#[cfg(test)]`) are not modelled. -/
namespace OB

/-- node.rs:19-26 `generate_node_id` -/
def generateNodeId (tick : Int) : TM Nat := do
  let st ← EM.get
  let c ← EM.lift (u64Succ ((st.counter tick).getD 0))
  EM.modify fun st => { st with counter := fun t => if t = tick then some c else st.counter t }
  pure c

/-- node.rs:92-100 `NodeType::default` -/
def NodeType.default : NodeType := .internal 0 decMax 0 0

namespace TreeNode

/-- node.rs:117-127 `TreeNode::new` -/
def mk' (tick : Int) (dir : Dir) (key : Nat) (nt : NodeType) : TreeNode :=
  { key, tickId := tick, dir, left := none, right := none, parent := none, ntype := nt }

/-- node.rs:129-131 -/
def isInternal (n : TreeNode) : Bool :=
  match n.ntype with
  | .internal .. => true
  | .leaf .. => false

/-- node.rs:133-139 -/
def getRight (n : TreeNode) (st : TreeSt) : Option TreeNode :=
  match n.right with
  | some k => st.nodes n.tickId k
  | none => none

/-- node.rs:141-147 -/
def getLeft (n : TreeNode) (st : TreeSt) : Option TreeNode :=
  match n.left with
  | some k => st.nodes n.tickId k
  | none => none

/-- node.rs:149-155 -/
def getParent (n : TreeNode) (st : TreeSt) : Option TreeNode :=
  match n.parent with
  | some k => st.nodes n.tickId k
  | none => none

/-- node.rs:157-159 -/
def hasChild (n : TreeNode) : Bool := n.left.isSome || n.right.isSome

/-- node.rs:161-163 -/
def save (n : TreeNode) : TM Unit :=
  EM.modify fun st =>
    { st with nodes := fun t k => if t = n.tickId ∧ k = n.key then some n else st.nodes t k }

/-- node.rs:166-169 `sync`: reload from storage -/
def sync (n : TreeNode) : TM TreeNode := do
  let st ← EM.get
  match st.nodes n.tickId n.key with
  | some m => pure m
  | none => EM.fail .std

/-- node.rs:175-180; the `unwrap` panics on overflow -/
def getMaxRange (n : TreeNode) : Except Err Nat :=
  match n.ntype with
  | .internal _ _ mx _ => .ok mx
  | .leaf v e =>
    match checkedAdd v e with
    | .ok x => .ok x
    | .error _ => .error .panic

/-- node.rs:182-190 -/
def setMaxRange (n : TreeNode) (x : Nat) : Except Err TreeNode :=
  match n.ntype with
  | .leaf .. => .error .invalidNodeType
  | .internal a mn _ w => .ok { n with ntype := .internal a mn x w }

/-- node.rs:196-201 -/
def getMinRange (n : TreeNode) : Nat :=
  match n.ntype with
  | .internal _ mn _ _ => mn
  | .leaf _ e => e

/-- node.rs:203-211 -/
def setMinRange (n : TreeNode) (x : Nat) : Except Err TreeNode :=
  match n.ntype with
  | .leaf .. => .error .invalidNodeType
  | .internal a _ mx w => .ok { n with ntype := .internal a x mx w }

/-- node.rs:214-216 -/
def inOrBelowRange (self node : TreeNode) : Except Err Bool := do
  let mx ← node.getMaxRange
  pure (decide (self.getMinRange < mx))

/-- node.rs:219-221 -/
def inOrAboveRange (self node : TreeNode) : Bool := decide (self.getMinRange ≥ node.getMinRange)

/-- node.rs:224-231 -/
def belowRange (self node : TreeNode) : Except Err Bool := do
  let mx ← self.getMaxRange
  pure (decide (mx ≤ node.getMinRange))

/-- node.rs:234-241 -/
def aboveRange (self node : TreeNode) : Except Err Bool := do
  let mx ← node.getMaxRange
  pure (decide (self.getMinRange ≥ mx))

/-- node.rs:243-251 -/
def setValue (n : TreeNode) (x : Nat) : Except Err TreeNode :=
  match n.ntype with
  | .internal _ mn mx w => .ok { n with ntype := .internal x mn mx w }
  | .leaf .. => .error .invalidNodeType

/-- node.rs:253-258 -/
def getWeight (n : TreeNode) : Nat :=
  match n.ntype with
  | .internal _ _ _ w => w
  | .leaf .. => 1

/-- node.rs:267-275 -/
def setWeight (n : TreeNode) (x : Nat) : Except Err TreeNode :=
  match n.ntype with
  | .internal a mn mx _ => .ok { n with ntype := .internal a mn mx x }
  | .leaf .. => .error .invalidNodeType

/-- node.rs:282-287 -/
def getValue (n : TreeNode) : Nat :=
  match n.ntype with
  | .leaf v _ => v
  | .internal a _ _ _ => a

/-- node.rs:301-356 `sync_range_and_value`. The last `else` of the range computation `unwrap`s both children (a panic if
neither is in storage although `has_child`). `weight + 1` is `u64` addition (a panic on overflow). -/
def syncRangeAndValue (self : TreeNode) : TM TreeNode := do
  EM.ensure self.isInternal .invalidNodeType
  let st ← EM.get
  let ml := self.getLeft st
  let mr := self.getRight st
  if !self.hasChild then pure self
  else do
    let (mn, mx) ← EM.lift (match ml, mr with
      | some l, none => do let x ← l.getMaxRange; pure (l.getMinRange, x)
      | none, some r => do let x ← r.getMaxRange; pure (r.getMinRange, x)
      | some l, some r => do
        let x ← l.getMaxRange
        let y ← r.getMaxRange
        pure (min l.getMinRange r.getMinRange, max x y)
      | none, none => .error .panic)
    let self ← EM.lift (self.setMinRange mn)
    let self ← EM.lift (self.setMaxRange mx)
    let value ← EM.lift (checkedAdd ((ml.map getValue).getD 0) ((mr.map getValue).getD 0))
    let self ← EM.lift (self.setValue value)
    let weight := max ((ml.map getWeight).getD 0) ((mr.map getWeight).getD 0)
    let weight ← EM.lift (u64Succ weight)
    let self ← EM.lift (self.setWeight weight)
    self.save
    pure self

/-- `x as i32` for a `u64` (node.rs:631): the low 32 bits as a two's complement number. -/
def asI32 (x : Nat) : Int := if x % 2 ^ 32 < 2 ^ 31 then (x % 2 ^ 32 : Nat) else (x % 2 ^ 32 : Nat) - (2 : Int) ^ 32

/-- Result of an `i32` operation (node.rs:631, 649) under `overflow-checks = true` (`Cargo.toml:25`). -/
def i32Checked (x : Int) : Except Err Int :=
  if -(2 : Int) ^ 31 ≤ x ∧ x < (2 : Int) ^ 31 then .ok x else .error .panic

/-- node.rs:628-632 `get_balance_factor` = right weight - left weight, in `i32`. -/
def balanceFactor (n : TreeNode) (st : TreeSt) : Except Err Int :=
  let leftWeight := ((n.getLeft st).map getWeight).getD 0
  let rightWeight := ((n.getRight st).map getWeight).getD 0
  i32Checked (asI32 rightWeight - asI32 leftWeight)

/-- `TREE.save(storage, &(tick, direction), &key)` (node.rs:735-739, 802-806; tree.rs:37) -/
def saveRoot (tick : Int) (dir : Dir) (key : Nat) : TM Unit :=
  EM.modify fun st =>
    { st with roots := fun t d => if t = tick ∧ d = dir then some key else st.roots t d }

/-- node.rs:700-759 `rotate_right` -/
def rotateRight (self : TreeNode) : TM TreeNode := do
  let st ← EM.get
  let maybeParent := self.getParent st
  let isLeftChild := (maybeParent.map fun p => decide (p.left = some self.key)).getD false
  let isRightChild := (maybeParent.map fun p => decide (p.right = some self.key)).getD false
  match self.getLeft st with
  | none => EM.fail .invalidNodeType
  | some left => do
    let left := { left with parent := self.parent }
    let self := { self with parent := some left.key }
    let self := { self with left := left.right }
    let st ← EM.get
    match self.getLeft st with
    | some newLeft => save { newLeft with parent := some self.key }
    | none => pure ()
    let left := { left with right := some self.key }
    left.save
    self.save
    if left.parent.isNone then saveRoot left.tickId left.dir left.key else pure ()
    let self ← self.syncRangeAndValue
    let left ← left.syncRangeAndValue
    match maybeParent with
    | none => pure ()
    | some p => do
      if isLeftChild then save { p with left := some left.key } else pure ()
      if isRightChild then save { p with right := some left.key } else pure ()
    pure self

/-- node.rs:766-826 `rotate_left` -/
def rotateLeft (self : TreeNode) : TM TreeNode := do
  let st ← EM.get
  let maybeParent := self.getParent st
  let isLeftChild := (maybeParent.map fun p => decide (p.left = some self.key)).getD false
  let isRightChild := (maybeParent.map fun p => decide (p.right = some self.key)).getD false
  match self.getRight st with
  | none => EM.fail .invalidNodeType
  | some right => do
    let right := { right with parent := self.parent }
    let self := { self with parent := some right.key }
    let self := { self with right := right.left }
    let st ← EM.get
    match self.getRight st with
    | some newRight => save { newRight with parent := some self.key }
    | none => pure ()
    let right := { right with left := some self.key }
    right.save
    self.save
    if right.parent.isNone then saveRoot right.tickId self.dir right.key else pure ()
    let self ← self.syncRangeAndValue
    let right ← right.syncRangeAndValue
    match maybeParent with
    | none => pure ()
    | some p => do
      if isLeftChild then save { p with left := some right.key } else pure ()
      if isRightChild then save { p with right := some right.key } else pure ()
    pure self

/-- node.rs:639-693 `rebalance`. (`get_balance_factor(..).unwrap_or(0)` is never an `Err`; a panic is not caught.) -/
def rebalance (self : TreeNode) : TM TreeNode := do
  let self ← self.sync
  EM.ensure self.isInternal .invalidNodeType
  EM.ensure self.hasChild .childlessInternalNode
  let st ← EM.get
  let bf ← EM.lift (self.balanceFactor st)
  let abs ← EM.lift (i32Checked bf.natAbs)
  if abs ≤ 1 then self.syncRangeAndValue
  else do
    let maybeLeft := self.getLeft st
    let maybeRight := self.getRight st
    let rbf ← EM.lift (match maybeRight with
      | some n => n.balanceFactor st
      | none => .ok 0)
    let lbf ← EM.lift (match maybeLeft with
      | some n => n.balanceFactor st
      | none => .ok 0)
    if bf > 0 ∧ rbf ≥ 0 then self.rotateLeft
    else if bf < 0 ∧ lbf ≤ 0 then self.rotateRight
    else if bf > 0 ∧ rbf < 0 then
      match maybeRight with
      | none => EM.fail .panic
      | some r => do
        let _ ← r.rotateRight
        let self ← self.sync
        self.rotateLeft
    else if bf < 0 ∧ lbf > 0 then
      match maybeLeft with
      | none => EM.fail .panic
      | some l => do
        let _ ← l.rotateLeft
        let self ← self.sync
        self.rotateRight
    else pure self

/-- node.rs:541-596 `split`; returns the id of the new parent -/
def split (self newNode : TreeNode) : TM Nat := do
  EM.ensure (!self.isInternal) .invalidNodeType
  let id ← generateNodeId self.tickId
  let accumulator ← EM.lift (checkedAdd self.getValue newNode.getValue)
  let below ← EM.lift (self.belowRange newNode)
  let (newLeft, newRight) ←
    if below then pure (self.key, newNode.key)
    else do
      let above ← EM.lift (self.aboveRange newNode)
      if above then pure (newNode.key, self.key)
      else EM.fail .nodeInsertionError
  let a ← EM.lift newNode.getMaxRange
  let b ← EM.lift self.getMaxRange
  let newMin := min newNode.getMinRange self.getMinRange
  let newMax := max a b
  let newParent := mk' self.tickId self.dir id (.internal accumulator newMin newMax 0)
  let newParent ← EM.lift (newParent.setWeight 2)
  let newParent := { newParent with parent := self.parent, left := some newLeft, right := some newRight }
  newParent.save
  save { self with parent := some id }
  save { newNode with parent := some id }
  pure id

/-- node.rs:375-518 `insert` (cases 1-8 in source order). -/
def insert : Nat → TreeNode → TreeNode → TM TreeNode
  | 0, _, _ => EM.fail .diverge
  | fuel + 1, self, newNode => do
    EM.ensure self.isInternal .invalidNodeType
    EM.ensure (!newNode.isInternal) .invalidNodeType
    let st ← EM.get
    let maybeLeft := self.getLeft st
    let maybeRight := self.getRight st
    EM.ensure (!(maybeLeft.isNone && maybeRight.isSome)) .invalidSumtree
    let isLeftInternal := (maybeLeft.map isInternal).getD false
    let isRightInternal := (maybeRight.map isInternal).getD false
    let leftIsLeaf := maybeLeft.isSome && !isLeftInternal
    let rightIsLeaf := maybeRight.isSome && !isRightInternal
    let isInLeftRange ← EM.lift (match maybeLeft with
      | some l => newNode.inOrBelowRange l
      | none => .ok false)
    let isInRightRange := (maybeRight.map fun r => newNode.inOrAboveRange r).getD false
    let isLessThanLeft ← EM.lift (match maybeLeft with
      | some l => newNode.belowRange l
      | none => .ok false)
    -- Case 1
    if isLeftInternal && isInLeftRange then
      match maybeLeft with
      | none => EM.fail .panic
      | some left => do
        self.save
        let _ ← insert fuel left newNode
        self.rebalance
    -- Case 2
    else if isRightInternal && isInRightRange then
      match maybeRight with
      | none => EM.fail .panic
      | some right => do
        self.save
        let _ ← insert fuel right newNode
        self.rebalance
    -- Case 3
    else if isRightInternal && isLeftInternal then
      match maybeLeft with
      | none => EM.fail .panic
      | some left => do
        self.save
        let _ ← insert fuel left newNode
        self.rebalance
    -- Case 4
    else if leftIsLeaf && maybeRight.isSome && !isInRightRange then
      match maybeLeft with
      | none => EM.fail .panic
      | some left => do
        let newLeft ← left.split newNode
        let self := { self with left := some newLeft }
        self.save
        self.rebalance
    -- Case 5
    else if rightIsLeaf && maybeLeft.isSome && !isInLeftRange then
      match maybeRight with
      | none => EM.fail .panic
      | some right => do
        let newRight ← right.split newNode
        let self := { self with right := some newRight }
        self.save
        self.rebalance
    -- Case 6
    else if isLessThanLeft && maybeRight.isNone then do
      let self := { self with right := self.left, left := some newNode.key }
      save { newNode with parent := some self.key }
      self.save
      self.rebalance
    -- Case 7
    else if maybeLeft.isNone then do
      let self := { self with left := some newNode.key }
      save { newNode with parent := some self.key }
      self.save
      self.rebalance
    -- Case 8
    else if maybeRight.isNone then do
      let self := { self with right := some newNode.key }
      save { newNode with parent := some self.key }
      self.save
      self.rebalance
    else EM.fail .nodeInsertionError

end TreeNode

/-- tree.rs:11-18 `get_root_node` -/
def getRootNode (st : TreeSt) (tick : Int) (dir : Dir) : Except Err TreeNode :=
  match st.roots tick dir with
  | none => .error .std
  | some k =>
    match st.nodes tick k with
    | none => .error .std
    | some n => .ok n

/-- tree.rs:23-41 `get_or_init_root_node`: a fresh root is registered in `TREE` but not saved in `NODES`. -/
def getOrInitRootNode (tick : Int) (dir : Dir) : TM TreeNode := do
  let st ← EM.get
  match getRootNode st tick dir with
  | .ok n => pure n
  | .error _ => do
    let id ← generateNodeId tick
    let root := TreeNode.mk' tick dir id .default
    TreeNode.saveRoot tick dir root.key
    pure root

/-- tree.rs:68-212 `prefix_sum_walk` -/
def prefixSumWalk (st : TreeSt) : Nat → TreeNode → Nat → Nat → Nat → Except Err Nat
  | 0, _, _, _, _ => .error .diverge
  | fuel + 1, node, currentSum, target, prevSum => do
    if target < node.getMinRange then return 0
    let mx ← node.getMaxRange
    if target ≥ mx then return currentSum
    if !node.isInternal then return currentSum
    let leftChild := node.getLeft st
    let rightChild := node.getRight st
    -- resync condition (tree.rs:111-146)
    let resync ← (match leftChild, rightChild with
      | some l, some r => do
        let sumAtNode ← checkedSub currentSum node.getValue
        let diffAtNode := prevSum - sumAtNode
        let unrealizedFromLeft := l.getValue - diffAtNode
        let newEtas ← checkedAdd target unrealizedFromLeft
        if newEtas ≥ r.getMinRange then pure (some (r, newEtas)) else pure none
      | _, _ => pure none)
    match resync with
    | some (r, newEtas) => prefixSumWalk st fuel r currentSum newEtas prevSum
    | none =>
      -- attempt walk left (tree.rs:155-178)
      let goLeft ← (match leftChild with
        | some l =>
          if target < l.getMinRange then pure (some none)
          else do
            let lmx ← l.getMaxRange
            if target < lmx then pure (some (some l)) else pure none
        | none => pure none)
      match goLeft with
      | some none => return 0
      | some (some l) => do
        let rightSum := (rightChild.map TreeNode.getValue).getD 0
        let currentSum ← checkedSub currentSum rightSum
        prefixSumWalk st fuel l currentSum target prevSum
      | none =>
        -- attempt walk right (tree.rs:184-211)
        match rightChild with
        | none => return currentSum
        | some r =>
          if target < r.getMinRange then checkedSub currentSum r.getValue
          else do
            let rmx ← r.getMaxRange
            if target ≤ rmx then prefixSumWalk st fuel r currentSum target prevSum
            else return currentSum

/-- Fuel for the recursions of tree.rs:68-212 and node.rs:375-518 along stored pointers of a tick: more than the number of node ids ever generated for it
(a path without repetition cannot be longer). -/
def treeFuel (st : TreeSt) (tick : Int) : Nat := (st.counter tick).getD 0 + 2

/-- tree.rs:45-57 `get_prefix_sum` -/
def getPrefixSum (st : TreeSt) (root : TreeNode) (target prevSum : Nat) : Except Err Nat :=
  prefixSumWalk st (treeFuel st root.tickId) root root.getValue target prevSum

end OB
