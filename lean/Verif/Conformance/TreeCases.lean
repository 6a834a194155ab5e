import Verif.Conformance.TreeTests
/- sumtree/test/test_node.rs, sumtree/test/test_tree.rs, tests/test_tick.rs
Generated by /verif/tools/gen_conformance.py from the Rust test sources; do not edit. -/
namespace OB.Conf

/-- test_node.rs:137-356 test_node_insert_cases -/
def insertCases1 : List InsertCase := [
  -- Case 1: New node fits in left internal range, insert left
  { nodes := [.leaf (5 * D) D, .leaf (10 * D) (20 * D), .leaf (8 * D) (12 * D), .leaf (8 * D) (30 * D), .leaf (6 * D) (6 * D)], expected := [1, 5, 9, 2, 8, 4, 7, 3, 6] },
  -- Case 2: New node fits in right internal range, insert right
  { nodes := [.leaf (11 * D) D, .leaf (5 * D) (20 * D), .leaf (8 * D) (12 * D), .leaf (8 * D) (30 * D), .leaf (5 * D) (25 * D)], expected := [1, 5, 2, 4, 7, 9, 3, 8, 6] },
  -- Case 3: Both left and right are internal, node does not fit in either, insert left
  { nodes := [.leaf (11 * D) D, .leaf (5 * D) (20 * D), .leaf (6 * D) (12 * D), .leaf (8 * D) (30 * D), .leaf (2 * D) (18 * D)], expected := [1, 5, 2, 9, 4, 8, 7, 3, 6] },
  -- Case 4: New node does not fit in right range (or is less than right.min if right is a leaf) and left node is a leaf, split left
  { nodes := [.leaf (10 * D) D, .leaf (10 * D) (20 * D), .leaf (8 * D) (12 * D)], expected := [1, 5, 2, 4, 3] },
  -- Case 5: New node does not fit in left range (or is greater than or equal to left.max when left is a leaf) and right node is a leaf, split right
  { nodes := [.leaf (10 * D) D, .leaf (10 * D) (20 * D), .leaf (8 * D) (12 * D), .leaf (8 * D) (30 * D)], expected := [1, 5, 2, 4, 7, 3, 6] },
  -- Case 6: Right node is empty, new node is lower than left node, move left node to right and insert left
  { nodes := [.leaf (10 * D) (12 * D), .leaf (10 * D) D], expected := [1, 3, 2] },
  -- Case 7: Left node is empty, insert left
  { nodes := [.leaf (10 * D) D], expected := [1, 2] },
  -- Case 8: Right is empty, insert right
  { nodes := [.leaf (10 * D) D, .leaf (10 * D) (12 * D)], expected := [1, 2, 3] }
]

/-- the model passes them -/
theorem insertCases1_pass : insertCases1.all InsertCase.run = true := by decide +kernel

/-- test_node.rs:137-356 test_node_insert_cases -/
def insertCases2 : List InsertCase := [
  -- Insert sequential nodes
  { nodes := [.leaf (10 * D) (5 * D), .leaf (20 * D) (15 * D), .leaf (30 * D) (35 * D)], expected := [1, 2, 5, 3, 4] },
  -- Insert adjacent nodes in decreasing order
  { nodes := [.leaf (25 * D) (35 * D), .leaf (25 * D) (10 * D)], expected := [1, 3, 2] }
]

/-- the model passes them -/
theorem insertCases2_pass : insertCases2.all InsertCase.run = true := by decide +kernel

/-- test_node.rs:471-586 test_node_deletion_valid -/
def deletionCases : List DeletionCase := [
  -- Remove only node
  { nodes := [.leaf (10 * D) D], delete := [2], expected := [] },
  -- Remove one of two nodes
  { nodes := [.leaf (10 * D) D, .leaf (5 * D) (11 * D)], delete := [2], expected := [1, 3] },
  -- Remove nested node
  { nodes := [.leaf (10 * D) D, .leaf (5 * D) (21 * D), .leaf (10 * D) (11 * D)], delete := [2], expected := [1, 5, 4, 3] },
  -- Remove both children of internal
  { nodes := [.leaf (10 * D) D, .leaf (5 * D) (21 * D), .leaf (10 * D) (11 * D)], delete := [2, 4], expected := [1, 3] },
  -- Remove parent node
  { nodes := [.leaf (10 * D) D, .leaf (5 * D) (21 * D), .leaf (10 * D) (11 * D)], delete := [5], expected := [1, 3] }
]

/-- the model passes them -/
theorem deletionCases_pass : deletionCases.all DeletionCase.run = true := by decide +kernel

/-- test_node.rs:672-1291 test_rotate_right -/
def rotateRightCases1 : List ReshapeCase := [
  -- Left internal right empty
  { nodes := [⟨1, 1, .bid, (some 2), none, none, .internal 0 (4294967295 * D) 0 0⟩, ⟨2, 1, .bid, (some 3), (some 4), (some 1), .internal (2 * D) D (3 * D) 0⟩, ⟨3, 1, .bid, none, none, (some 2), .leaf D D⟩, ⟨4, 1, .bid, none, none, (some 2), .leaf D (2 * D)⟩], expected := [2, 3, 1, 4], err := none },
  -- Left internal (no left-right ancestor) right leaf
  { nodes := [⟨1, 1, .bid, (some 2), (some 4), none, .internal 0 (4294967295 * D) 0 0⟩, ⟨2, 1, .bid, (some 3), none, (some 1), .internal (2 * D) D (3 * D) 0⟩, ⟨3, 1, .bid, none, none, (some 2), .leaf D D⟩, ⟨4, 1, .bid, none, none, (some 1), .leaf D (2 * D)⟩], expected := [2, 3, 1, 4], err := none },
  -- Left internal (no left-left ancestor) right leaf
  { nodes := [⟨1, 1, .bid, (some 2), (some 4), none, .internal 0 (4294967295 * D) 0 0⟩, ⟨2, 1, .bid, none, (some 3), (some 1), .internal (2 * D) D (3 * D) 0⟩, ⟨3, 1, .bid, none, none, (some 2), .leaf D D⟩, ⟨4, 1, .bid, none, none, (some 1), .leaf D (2 * D)⟩], expected := [2, 1, 3, 4], err := none },
  -- Left internal right leaf
  { nodes := [⟨1, 1, .bid, (some 2), (some 5), none, .internal 0 (4294967295 * D) 0 0⟩, ⟨2, 1, .bid, (some 3), (some 4), (some 1), .internal (2 * D) D (3 * D) 0⟩, ⟨3, 1, .bid, none, none, (some 2), .leaf D D⟩, ⟨4, 1, .bid, none, none, (some 2), .leaf D (2 * D)⟩, ⟨5, 1, .bid, none, none, (some 1), .leaf D (3 * D)⟩], expected := [2, 3, 1, 4, 5], err := none },
  -- Left internal right internal
  { nodes := [⟨1, 1, .bid, (some 2), (some 5), none, .internal 0 (4294967295 * D) 0 0⟩, ⟨2, 1, .bid, (some 3), (some 4), (some 1), .internal (2 * D) D (3 * D) 0⟩, ⟨3, 1, .bid, none, none, (some 2), .leaf D D⟩, ⟨4, 1, .bid, none, none, (some 2), .leaf D (2 * D)⟩, ⟨5, 1, .bid, (some 6), (some 7), (some 1), .internal (2 * D) (3 * D) (5 * D) 0⟩, ⟨6, 1, .bid, none, none, (some 5), .leaf D (3 * D)⟩, ⟨7, 1, .bid, none, none, (some 5), .leaf D (4 * D)⟩], expected := [2, 3, 1, 4, 5, 6, 7], err := none },
  -- Left internal (no left-left) right internal
  { nodes := [⟨1, 1, .bid, (some 2), (some 5), none, .internal 0 (4294967295 * D) 0 0⟩, ⟨2, 1, .bid, none, (some 4), (some 1), .internal (2 * D) D (3 * D) 0⟩, ⟨4, 1, .bid, none, none, (some 2), .leaf D (2 * D)⟩, ⟨5, 1, .bid, (some 6), (some 7), (some 1), .internal (2 * D) (3 * D) (5 * D) 0⟩, ⟨6, 1, .bid, none, none, (some 5), .leaf D (3 * D)⟩, ⟨7, 1, .bid, none, none, (some 5), .leaf D (4 * D)⟩], expected := [2, 1, 4, 5, 6, 7], err := none },
  -- Left internal (no left-right) right internal
  { nodes := [⟨1, 1, .bid, (some 2), (some 5), none, .internal 0 (4294967295 * D) 0 0⟩, ⟨2, 1, .bid, (some 4), none, (some 1), .internal (2 * D) D (3 * D) 0⟩, ⟨4, 1, .bid, none, none, (some 2), .leaf D (2 * D)⟩, ⟨5, 1, .bid, (some 6), (some 7), (some 1), .internal (2 * D) (3 * D) (5 * D) 0⟩, ⟨6, 1, .bid, none, none, (some 5), .leaf D (3 * D)⟩, ⟨7, 1, .bid, none, none, (some 5), .leaf D (4 * D)⟩], expected := [2, 4, 1, 5, 6, 7], err := none },
  -- Left empty right internal
  { nodes := [⟨1, 1, .bid, none, (some 5), none, .internal 0 (4294967295 * D) 0 0⟩, ⟨5, 1, .bid, (some 6), (some 7), (some 1), .internal (2 * D) (3 * D) (5 * D) 0⟩, ⟨6, 1, .bid, none, none, (some 5), .leaf D (3 * D)⟩, ⟨7, 1, .bid, none, none, (some 5), .leaf D (4 * D)⟩], expected := [], err := (some .invalidNodeType) }
]

/-- the model passes them -/
theorem rotateRightCases1_pass : rotateRightCases1.all ReshapeCase.runRight = true := by decide +kernel

/-- test_node.rs:672-1291 test_rotate_right -/
def rotateRightCases2 : List ReshapeCase := [
  -- Left leaf right internal
  { nodes := [⟨1, 1, .bid, (some 2), (some 5), none, .internal 0 (4294967295 * D) 0 0⟩, ⟨2, 1, .bid, none, none, (some 1), .leaf D (2 * D)⟩, ⟨5, 1, .bid, (some 6), (some 7), (some 1), .internal (2 * D) (3 * D) (5 * D) 0⟩, ⟨6, 1, .bid, none, none, (some 5), .leaf D (3 * D)⟩, ⟨7, 1, .bid, none, none, (some 5), .leaf D (4 * D)⟩], expected := [], err := (some .invalidNodeType) }
]

/-- the model passes them -/
theorem rotateRightCases2_pass : rotateRightCases2.all ReshapeCase.runRight = true := by decide +kernel

/-- test_node.rs:1358-1880 test_rotate_left -/
def rotateLeftCases : List ReshapeCase := [
  -- Right internal left empty
  { nodes := [⟨1, 1, .bid, none, (some 2), none, .internal 0 (4294967295 * D) 0 0⟩, ⟨2, 1, .bid, (some 3), (some 4), (some 1), .internal (2 * D) D (3 * D) 0⟩, ⟨3, 1, .bid, none, none, (some 2), .leaf D D⟩, ⟨4, 1, .bid, none, none, (some 2), .leaf D (2 * D)⟩], expected := [2, 1, 3, 4], err := none },
  -- Right internal (no right-right ancestor) left leaf
  { nodes := [⟨1, 1, .bid, (some 4), (some 2), none, .internal 0 (4294967295 * D) 0 0⟩, ⟨2, 1, .bid, (some 3), none, (some 1), .internal (2 * D) D (3 * D) 0⟩, ⟨3, 1, .bid, none, none, (some 2), .leaf D (3 * D)⟩, ⟨4, 1, .bid, none, none, (some 1), .leaf D (2 * D)⟩], expected := [2, 1, 4, 3], err := none },
  -- Right internal (no right-left ancestor) left leaf
  { nodes := [⟨1, 1, .bid, (some 4), (some 2), none, .internal 0 (4294967295 * D) 0 0⟩, ⟨2, 1, .bid, none, (some 3), (some 1), .internal (2 * D) D (3 * D) 0⟩, ⟨3, 1, .bid, none, none, (some 2), .leaf D (3 * D)⟩, ⟨4, 1, .bid, none, none, (some 1), .leaf D (2 * D)⟩], expected := [2, 1, 4, 3], err := none },
  -- Right internal left leaf
  { nodes := [⟨1, 1, .bid, (some 5), (some 2), none, .internal 0 (4294967295 * D) 0 0⟩, ⟨2, 1, .bid, (some 3), (some 4), (some 1), .internal (2 * D) D (3 * D) 0⟩, ⟨3, 1, .bid, none, none, (some 2), .leaf D (4 * D)⟩, ⟨4, 1, .bid, none, none, (some 2), .leaf D (5 * D)⟩, ⟨5, 1, .bid, none, none, (some 1), .leaf D (3 * D)⟩], expected := [2, 1, 5, 3, 4], err := none },
  -- Right internal (no right-left) left internal
  { nodes := [⟨1, 1, .bid, (some 5), (some 2), none, .internal 0 (4294967295 * D) 0 0⟩, ⟨2, 1, .bid, none, (some 4), (some 1), .internal (2 * D) D (3 * D) 0⟩, ⟨4, 1, .bid, none, none, (some 2), .leaf D (5 * D)⟩, ⟨5, 1, .bid, (some 6), (some 7), (some 1), .internal (2 * D) (3 * D) (5 * D) 0⟩, ⟨6, 1, .bid, none, none, (some 5), .leaf D (3 * D)⟩, ⟨7, 1, .bid, none, none, (some 5), .leaf D (4 * D)⟩], expected := [2, 1, 5, 6, 7, 4], err := none },
  -- Right internal (no right-right) left internal
  { nodes := [⟨1, 1, .bid, (some 5), (some 2), none, .internal 0 (4294967295 * D) 0 0⟩, ⟨2, 1, .bid, (some 4), none, (some 1), .internal (2 * D) D (3 * D) 0⟩, ⟨4, 1, .bid, none, none, (some 2), .leaf D (5 * D)⟩, ⟨5, 1, .bid, (some 6), (some 7), (some 1), .internal (2 * D) (3 * D) (5 * D) 0⟩, ⟨6, 1, .bid, none, none, (some 5), .leaf D (3 * D)⟩, ⟨7, 1, .bid, none, none, (some 5), .leaf D (4 * D)⟩], expected := [2, 1, 5, 6, 7, 4], err := none },
  -- Right empty left internal
  { nodes := [⟨1, 1, .bid, (some 5), none, none, .internal 0 (4294967295 * D) 0 0⟩, ⟨5, 1, .bid, (some 6), (some 7), (some 1), .internal (2 * D) (3 * D) (5 * D) 0⟩, ⟨6, 1, .bid, none, none, (some 5), .leaf D (3 * D)⟩, ⟨7, 1, .bid, none, none, (some 5), .leaf D (4 * D)⟩], expected := [], err := (some .invalidNodeType) },
  -- Right leaf left internal
  { nodes := [⟨1, 1, .bid, (some 5), (some 2), none, .internal 0 (4294967295 * D) 0 0⟩, ⟨2, 1, .bid, none, none, (some 1), .leaf D (2 * D)⟩, ⟨5, 1, .bid, (some 6), (some 7), (some 1), .internal (2 * D) (3 * D) (5 * D) 0⟩, ⟨6, 1, .bid, none, none, (some 5), .leaf D (3 * D)⟩, ⟨7, 1, .bid, none, none, (some 5), .leaf D (4 * D)⟩], expected := [], err := (some .invalidNodeType) }
]

/-- the model passes them -/
theorem rotateLeftCases_pass : rotateLeftCases.all ReshapeCase.runLeft = true := by decide +kernel

/-- test_node.rs:1947-2620 test_rebalance -/
def rebalanceCases1 : List ReshapeCase := [
  -- Case 1: Right Right
  { nodes := [⟨1, 1, .bid, (some 2), (some 3), none, .internal 0 (4294967295 * D) 0 0⟩, ⟨2, 1, .bid, none, none, (some 1), .leaf D D⟩, ⟨3, 1, .bid, (some 4), (some 5), (some 1), .internal (2 * D) D (3 * D) 0⟩, ⟨4, 1, .bid, none, none, (some 3), .leaf D (4 * D)⟩, ⟨5, 1, .bid, (some 6), (some 7), (some 3), .internal 0 (5 * D) (7 * D) 0⟩, ⟨6, 1, .bid, none, none, (some 5), .leaf D (5 * D)⟩, ⟨7, 1, .bid, none, none, (some 5), .leaf D (6 * D)⟩], expected := [3, 1, 2, 4, 5, 6, 7], err := none },
  -- Case 2: Left Left
  { nodes := [⟨1, 1, .bid, (some 2), (some 3), none, .internal 0 (4294967295 * D) 0 0⟩, ⟨2, 1, .bid, (some 4), (some 5), (some 1), .internal (2 * D) D (3 * D) 0⟩, ⟨4, 1, .bid, (some 6), (some 7), (some 2), .internal 0 (4294967295 * D) 0 0⟩, ⟨6, 1, .bid, none, none, (some 4), .leaf D (2 * D)⟩, ⟨7, 1, .bid, none, none, (some 4), .leaf D (3 * D)⟩, ⟨5, 1, .bid, none, none, (some 2), .leaf D (4 * D)⟩, ⟨3, 1, .bid, none, none, (some 1), .leaf D (6 * D)⟩], expected := [2, 4, 6, 7, 1, 5, 3], err := none },
  -- Case 3: Right Left
  { nodes := [⟨1, 1, .bid, (some 2), (some 3), none, .internal 0 (4294967295 * D) 0 0⟩, ⟨2, 1, .bid, none, none, (some 1), .leaf D D⟩, ⟨3, 1, .bid, (some 4), (some 5), (some 1), .internal (2 * D) D (3 * D) 0⟩, ⟨4, 1, .bid, (some 6), (some 7), (some 3), .internal 0 (4294967295 * D) 0 0⟩, ⟨6, 1, .bid, none, none, (some 4), .leaf D (2 * D)⟩, ⟨7, 1, .bid, none, none, (some 4), .leaf D (3 * D)⟩, ⟨5, 1, .bid, none, none, (some 3), .leaf D (4 * D)⟩], expected := [4, 1, 2, 6, 3, 7, 5], err := none },
  -- Case 4: Left Right
  { nodes := [⟨1, 1, .bid, (some 2), (some 3), none, .internal 0 (4294967295 * D) 0 0⟩, ⟨2, 1, .bid, (some 4), (some 5), (some 1), .internal (2 * D) D (3 * D) 0⟩, ⟨4, 1, .bid, (some 6), (some 7), (some 2), .internal 0 (4294967295 * D) 0 0⟩, ⟨6, 1, .bid, none, none, (some 4), .leaf D (2 * D)⟩, ⟨7, 1, .bid, none, none, (some 4), .leaf D (3 * D)⟩, ⟨5, 1, .bid, none, none, (some 2), .leaf D (4 * D)⟩, ⟨3, 1, .bid, none, none, (some 1), .leaf D (5 * D)⟩], expected := [2, 4, 6, 7, 1, 5, 3], err := none },
  -- Pre-balanced: left leaf right empty
  { nodes := [⟨1, 1, .bid, (some 2), none, none, .internal 0 (4294967295 * D) 0 0⟩, ⟨2, 1, .bid, none, none, (some 1), .leaf D (2 * D)⟩], expected := [1, 2], err := none },
  -- Pre-balanced: left empty right leaf
  { nodes := [⟨1, 1, .bid, none, (some 2), none, .internal 0 (4294967295 * D) 0 0⟩, ⟨2, 1, .bid, none, none, (some 1), .leaf D (2 * D)⟩], expected := [1, 2], err := none },
  -- Pre-balanced: left internal right leaf
  { nodes := [⟨1, 1, .bid, (some 2), (some 3), none, .internal 0 (4294967295 * D) 0 0⟩, ⟨2, 1, .bid, (some 4), (some 5), (some 1), .internal (2 * D) (2 * D) (4 * D) 0⟩, ⟨4, 1, .bid, none, none, (some 2), .leaf D (2 * D)⟩, ⟨5, 1, .bid, none, none, (some 2), .leaf D (3 * D)⟩, ⟨3, 1, .bid, none, none, (some 1), .leaf D (4 * D)⟩], expected := [1, 2, 4, 5, 3], err := none },
  -- Pre-balanced: left leaf right internal
  { nodes := [⟨1, 1, .bid, (some 2), (some 3), none, .internal 0 (4294967295 * D) 0 0⟩, ⟨2, 1, .bid, none, none, (some 1), .leaf D D⟩, ⟨3, 1, .bid, (some 4), (some 5), (some 1), .internal (2 * D) (2 * D) (4 * D) 0⟩, ⟨4, 1, .bid, none, none, (some 3), .leaf D (2 * D)⟩, ⟨5, 1, .bid, none, none, (some 3), .leaf D (3 * D)⟩], expected := [1, 2, 3, 4, 5], err := none }
]

/-- the model passes them -/
theorem rebalanceCases1_pass : rebalanceCases1.all ReshapeCase.runRebalance = true := by decide +kernel

/-- test_node.rs:1947-2620 test_rebalance -/
def rebalanceCases2 : List ReshapeCase := [
  -- Pre-balanced: left internal right internal
  { nodes := [⟨1, 1, .bid, (some 2), (some 3), none, .internal 0 (4294967295 * D) 0 0⟩, ⟨2, 1, .bid, (some 4), (some 5), (some 1), .internal (2 * D) (2 * D) (4 * D) 0⟩, ⟨4, 1, .bid, none, none, (some 2), .leaf D (2 * D)⟩, ⟨5, 1, .bid, none, none, (some 2), .leaf D (3 * D)⟩, ⟨3, 1, .bid, (some 6), (some 7), (some 1), .internal (2 * D) (2 * D) (4 * D) 0⟩, ⟨6, 1, .bid, none, none, (some 3), .leaf D (4 * D)⟩, ⟨7, 1, .bid, none, none, (some 3), .leaf D (5 * D)⟩], expected := [1, 2, 4, 5, 3, 6, 7], err := none },
  -- invalid node type
  { nodes := [⟨1, 1, .bid, none, none, none, .leaf D D⟩], expected := [], err := (some .invalidNodeType) },
  -- childless internal node
  { nodes := [⟨1, 1, .bid, none, none, none, .internal D D (2 * D) 0⟩], expected := [], err := (some .childlessInternalNode) }
]

/-- the model passes them -/
theorem rebalanceCases2_pass : rebalanceCases2.all ReshapeCase.runRebalance = true := by decide +kernel

/-- test_tree.rs:17-259 test_get_prefix_sum_valid -/
def prefixSumCases1 : List PrefixSumCase := [
  -- Single node, target ETAS equal to node ETAS
  { nodes := [.leaf (5 * D) (10 * D)], target := 10 * D, prev := 0, expected := 5 * D },
  -- Single node, target ETAS below node range
  { nodes := [.leaf (20 * D) (50 * D)], target := 25 * D, prev := 0, expected := 0 },
  -- Single node, target ETAS above node range
  { nodes := [.leaf (10 * D) (10 * D)], target := 30 * D, prev := 0, expected := 10 * D },
  -- Multiple nodes, target ETAS in the middle
  { nodes := [.leaf (10 * D) (5 * D), .leaf (20 * D) (15 * D), .leaf (30 * D) (45 * D)], target := 20 * D, prev := 10 * D, expected := 30 * D },
  -- Multiple nodes, target ETAS on boundary
  { nodes := [.leaf (3 * D) (2 * D), .leaf (12 * D) (5 * D)], target := 5 * D, prev := 0, expected := 15 * D },
  -- Target ETAS below all nodes
  { nodes := [.leaf (10 * D) (10 * D), .leaf (20 * D) (20 * D), .leaf (30 * D) (40 * D)], target := 5 * D, prev := 0, expected := 0 },
  -- Target ETAS above all nodes
  { nodes := [.leaf (10 * D) (10 * D), .leaf (20 * D) (20 * D), .leaf (30 * D) (40 * D)], target := 45 * D, prev := 0, expected := 60 * D },
  -- Nodes inserted in reverse order
  { nodes := [.leaf (10 * D) (40 * D), .leaf (5 * D) (20 * D), .leaf (5 * D) (10 * D)], target := 25 * D, prev := 0, expected := 10 * D }
]

/-- the model passes them -/
theorem prefixSumCases1_pass : prefixSumCases1.all PrefixSumCase.run = true := by decide +kernel

/-- test_tree.rs:17-259 test_get_prefix_sum_valid -/
def prefixSumCases2 : List PrefixSumCase := [
  -- Nodes inserted in shuffled order
  { nodes := [.leaf (10 * D) (40 * D), .leaf (5 * D) (10 * D), .leaf (5 * D) (20 * D)], target := 25 * D, prev := 0, expected := 10 * D },
  -- Nodes inserted in shuffled order, target ETAS at node lower bound
  { nodes := [.leaf (11 * D) (35 * D), .leaf (7 * D) (10 * D), .leaf (5 * D) (20 * D)], target := 20 * D, prev := 0, expected := 12 * D },
  -- Nodes with large gaps between ranges
  { nodes := [.leaf (10 * D) (10 * D), .leaf (20 * D) (50 * D), .leaf (30 * D) (100 * D)], target := 75 * D, prev := 70 * D, expected := 30 * D },
  -- Nodes with adjacent ranges
  { nodes := [.leaf (10 * D) (10 * D), .leaf (10 * D) (20 * D), .leaf (10 * D) (30 * D)], target := 10 * D, prev := 0, expected := 30 * D },
  -- Complex case with many nodes (shuffled, adjacent, spaced out)
  { nodes := [.leaf (5 * D) (10 * D), .leaf (19 * D) (121 * D), .leaf (4 * D) (15 * D), .leaf (10 * D) (50 * D), .leaf (9 * D) (61 * D), .leaf (20 * D) (100 * D), .leaf (50 * D) (200 * D), .leaf (40 * D) (260 * D), .leaf (29 * D) (301 * D), .leaf (100 * D) (400 * D), .leaf (150 * D) (600 * D)], target := 305 * D, prev := 300 * D, expected := 186 * D },
  -- batch realization case: cancels are back to back
  { nodes := [.leaf (10 * D) (10 * D), .leaf (10 * D) (20 * D), .leaf (10 * D) (30 * D)], target := 10 * D, prev := 0, expected := 30 * D },
  -- batch realization case: gap between cancels that is filled
  { nodes := [.leaf (10 * D) (10 * D), .leaf (10 * D) (30 * D), .leaf (10 * D) (40 * D)], target := 20 * D, prev := 0, expected := 30 * D },
  -- batch realization case: partially realized left node
  { nodes := [.leaf (10 * D) (10 * D), .leaf (10 * D) (20 * D), .leaf (10 * D) (30 * D), .leaf (10 * D) (40 * D)], target := 20 * D, prev := 10 * D, expected := 40 * D }
]

/-- the model passes them -/
theorem prefixSumCases2_pass : prefixSumCases2.all PrefixSumCase.run = true := by decide +kernel

/-- test_tree.rs:17-259 test_get_prefix_sum_valid -/
def prefixSumCases3 : List PrefixSumCase := [
  -- batch realization case: fully realized left node
  { nodes := [.leaf (10 * D) (10 * D), .leaf (10 * D) (20 * D), .leaf (10 * D) (30 * D), .leaf (10 * D) (40 * D)], target := 20 * D, prev := 20 * D, expected := 20 * D },
  -- batch realization case: fully realized left node with gap
  { nodes := [.leaf (10 * D) (10 * D), .leaf (10 * D) (30 * D), .leaf (10 * D) (50 * D), .leaf (10 * D) (60 * D)], target := 30 * D, prev := 20 * D, expected := 20 * D },
  -- batch realization case: partially realized left node with gap
  { nodes := [.leaf (10 * D) (10 * D), .leaf (10 * D) (30 * D), .leaf (10 * D) (40 * D), .leaf (10 * D) (50 * D)], target := 30 * D, prev := 10 * D, expected := 40 * D },
  -- batch realization case: partially realized left node with gap does not cause overlap
  { nodes := [.leaf (10 * D) (10 * D), .leaf (10 * D) (30 * D), .leaf (10 * D) (50 * D), .leaf (10 * D) (60 * D)], target := 30 * D, prev := 10 * D, expected := 20 * D }
]

/-- the model passes them -/
theorem prefixSumCases3_pass : prefixSumCases3.all PrefixSumCase.run = true := by decide +kernel

/-- tests/test_tick.rs:30-437 test_sync_tick -/
def syncCases1 : List SyncCase := [
  -- Basic Sync - Bid
  { bid := ⟨5 * D, 10 * D, 0, 0, 0⟩, ask := ⟨0, 0, 0, 0, 0⟩, bidCancels := [.leaf (5 * D) (3 * D)], askCancels := [], bidStep := 3 * D, askStep := 0, syncs := 1, bidRealized := 5 * D, askRealized := 0, bidEtas := 8 * D, askEtas := 0 },
  -- No unrealized cancels - Bid
  { bid := ⟨10 * D, 10 * D, 0, 0, 0⟩, ask := ⟨0, 0, 0, 0, 0⟩, bidCancels := [], askCancels := [], bidStep := 5 * D, askStep := 0, syncs := 1, bidRealized := 0, askRealized := 0, bidEtas := 5 * D, askEtas := 0 },
  -- Multiple unrealized cancels - Bid
  { bid := ⟨20 * D, 35 * D, 0, 0, 0⟩, ask := ⟨0, 0, 0, 0, 0⟩, bidCancels := [.leaf (3 * D) (2 * D), .leaf (12 * D) (5 * D)], askCancels := [], bidStep := 5 * D, askStep := 0, syncs := 1, bidRealized := 15 * D, askRealized := 0, bidEtas := 20 * D, askEtas := 0 },
  -- Multiple syncs - Bid
  { bid := ⟨200 * D, 350 * D, 0, 0, 0⟩, ask := ⟨0, 0, 0, 0, 0⟩, bidCancels := [.leaf (30 * D) (2 * D), .leaf (12 * D) (50 * D), .leaf (10 * D) (62 * D), .leaf (28 * D) (80 * D), .leaf (70 * D) (128 * D)], askCancels := [], bidStep := 7 * D, askStep := 0, syncs := 4, bidRealized := 80 * D, askRealized := 0, bidEtas := 108 * D, askEtas := 0 },
  -- Basic Sync - Ask
  { bid := ⟨0, 0, 0, 0, 0⟩, ask := ⟨5 * D, 10 * D, 0, 0, 0⟩, bidCancels := [], askCancels := [.leaf (5 * D) (3 * D)], bidStep := 0, askStep := 3 * D, syncs := 1, bidRealized := 0, askRealized := 5 * D, bidEtas := 0, askEtas := 8 * D },
  -- No unrealized cancels - Ask
  { bid := ⟨0, 0, 0, 0, 0⟩, ask := ⟨10 * D, 10 * D, 0, 0, 0⟩, bidCancels := [], askCancels := [], bidStep := 0, askStep := 5 * D, syncs := 1, bidRealized := 0, askRealized := 0, bidEtas := 0, askEtas := 5 * D },
  -- Multiple unrealized cancels - Ask
  { bid := ⟨0, 0, 0, 0, 0⟩, ask := ⟨20 * D, 35 * D, 0, 0, 0⟩, bidCancels := [], askCancels := [.leaf (3 * D) (2 * D), .leaf (12 * D) (5 * D)], bidStep := 0, askStep := 5 * D, syncs := 1, bidRealized := 0, askRealized := 15 * D, bidEtas := 0, askEtas := 20 * D },
  -- Multiple syncs - Ask
  { bid := ⟨0, 0, 0, 0, 0⟩, ask := ⟨200 * D, 350 * D, 0, 0, 0⟩, bidCancels := [], askCancels := [.leaf (30 * D) (2 * D), .leaf (12 * D) (50 * D), .leaf (10 * D) (62 * D), .leaf (28 * D) (80 * D), .leaf (70 * D) (128 * D)], bidStep := 0, askStep := 7 * D, syncs := 4, bidRealized := 0, askRealized := 80 * D, bidEtas := 0, askEtas := 108 * D }
]

/-- the model passes them -/
theorem syncCases1_pass : syncCases1.all SyncCase.run = true := by decide +kernel

/-- tests/test_tick.rs:30-437 test_sync_tick -/
def syncCases2 : List SyncCase := [
  -- Basic Sync - Bid and Ask
  { bid := ⟨5 * D, 10 * D, 0, 0, 0⟩, ask := ⟨5 * D, 10 * D, 0, 0, 0⟩, bidCancels := [.leaf (5 * D) (3 * D)], askCancels := [.leaf (5 * D) (3 * D)], bidStep := 3 * D, askStep := 3 * D, syncs := 1, bidRealized := 5 * D, askRealized := 5 * D, bidEtas := 8 * D, askEtas := 8 * D },
  -- Multiple Syncs - Bid and Ask
  { bid := ⟨100 * D, 150 * D, 0, 0, 0⟩, ask := ⟨200 * D, 350 * D, 0, 0, 0⟩, bidCancels := [.leaf (25 * D) (45 * D), .leaf (25 * D) (10 * D)], askCancels := [.leaf (50 * D) (10 * D), .leaf (100 * D) (60 * D)], bidStep := 5 * D, askStep := 40 * D, syncs := 2, bidRealized := 25 * D, askRealized := 150 * D, bidEtas := 35 * D, askEtas := 230 * D },
  -- Batch realization: simple case
  { bid := ⟨100 * D, 150 * D, 0, 0, 0⟩, ask := ⟨0, 0, 0, 0, 0⟩, bidCancels := [.leaf (25 * D) (45 * D), .leaf (25 * D) (10 * D)], askCancels := [], bidStep := 10 * D, askStep := 0, syncs := 2, bidRealized := 50 * D, askRealized := 0, bidEtas := 70 * D, askEtas := 0 },
  -- Batch realization: all but most right
  { bid := ⟨200 * D, 278 * D, 0, 0, 0⟩, ask := ⟨0, 0, 0, 0, 0⟩, bidCancels := [.leaf (3 * D) (180 * D), .leaf (15 * D) (130 * D), .leaf (25 * D) (45 * D), .leaf (10 * D) (90 * D), .leaf (25 * D) (10 * D)], askCancels := [], bidStep := 20 * D, askStep := 0, syncs := 4, bidRealized := 75 * D, askRealized := 0, bidEtas := 155 * D, askEtas := 0 },
  -- Batch realization: chained batch claim (worst case for non-optimized)
  { bid := ⟨10 * D, 20 * D, 0, 0, 0⟩, ask := ⟨0, 0, 0, 0, 0⟩, bidCancels := [.leaf D D, .leaf D (2 * D), .leaf D (3 * D), .leaf D (4 * D), .leaf D (5 * D), .leaf D (6 * D), .leaf D (7 * D), .leaf D (8 * D), .leaf D (9 * D), .leaf D (10 * D)], askCancels := [], bidStep := D, askStep := 0, syncs := 1, bidRealized := 10 * D, askRealized := 0, bidEtas := 11 * D, askEtas := 0 }
]

/-- the model passes them -/
theorem syncCases2_pass : syncCases2.all SyncCase.run = true := by decide +kernel


end OB.Conf
