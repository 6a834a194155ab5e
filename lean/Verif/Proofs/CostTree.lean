import Verif.Proofs.Cost
/- How many cells the tree operations use. -/
namespace OB
open Spec TreeNode

def treeView (st : TreeSt) : Cell → Option Val
  | .node t id => (st.nodes t id).map .node
  | .root t d => (st.roots t d).map .nat
  | .counter t => (st.counter t).map .nat
  | _ => none

theorem node_of_view {st st' : TreeSt} {t : Int} {k : Nat} (h : treeView st' (.node t k) = treeView st (.node t k)) : st'.nodes t k = st.nodes t k :=
  Option.map_injective (fun a b e => by cases e; rfl) h
theorem root_of_view {st st' : TreeSt} {t : Int} {d : Dir} (h : treeView st' (.root t d) = treeView st (.root t d)) : st'.roots t d = st.roots t d :=
  Option.map_injective (fun a b e => by cases e; rfl) h
theorem counter_of_view {st st' : TreeSt} {t : Int} (h : treeView st' (.counter t) = treeView st (.counter t)) : st'.counter t = st.counter t :=
  Option.map_injective (fun a b e => by cases e; rfl) h

abbrev TUses {α : Type} (k : Nat) (x : TM α) (st : TreeSt) : Prop := Uses treeView k x st

/-- The cell of a pointer. -/
def cellOf (t : Int) (p : Option Nat) : List Cell := (p.map (Cell.node t)).toList
theorem cellOf_length (t : Int) (p : Option Nat) : (cellOf t p).length ≤ 1 := by cases p <;> simp [cellOf]

theorem getLeft_view {st st' : TreeSt} {n : TreeNode} (h : ∀ c ∈ cellOf n.tickId n.left, treeView st' c = treeView st c) : n.getLeft st' = n.getLeft st := by
  unfold TreeNode.getLeft
  cases e : n.left with
  | none => rfl
  | some k => exact node_of_view (h _ (by simp [cellOf, e]))
theorem getRight_view {st st' : TreeSt} {n : TreeNode} (h : ∀ c ∈ cellOf n.tickId n.right, treeView st' c = treeView st c) : n.getRight st' = n.getRight st := by
  unfold TreeNode.getRight
  cases e : n.right with
  | none => rfl
  | some k => exact node_of_view (h _ (by simp [cellOf, e]))
theorem getParent_view {st st' : TreeSt} {n : TreeNode} (h : ∀ c ∈ cellOf n.tickId n.parent, treeView st' c = treeView st c) : n.getParent st' = n.getParent st := by
  unfold TreeNode.getParent
  cases e : n.parent with
  | none => rfl
  | some k => exact node_of_view (h _ (by simp [cellOf, e]))

theorem save_uses (n : TreeNode) (st : TreeSt) : TUses 1 n.save st := by
  refine ⟨[.node n.tickId n.key], by simp, .modify (fun s' ha c hc => ?_) fun s' c hc => ?_⟩
  · simp only [List.mem_singleton] at hc
    subst hc
    simp [treeView]
  · simp only [List.mem_singleton] at hc
    cases c <;> try rfl
    next t k =>
      simp only [treeView]
      rw [if_neg]
      rintro ⟨rfl, rfl⟩
      exact hc rfl

theorem saveRoot_uses (t : Int) (d : Dir) (k : Nat) (st : TreeSt) : TUses 1 (saveRoot t d k) st := by
  refine ⟨[.root t d], by simp, .modify (fun s' ha c hc => ?_) fun s' c hc => ?_⟩
  · simp only [List.mem_singleton] at hc
    subst hc
    simp [treeView]
  · simp only [List.mem_singleton] at hc
    cases c <;> try rfl
    next t' d' =>
      simp only [treeView]
      rw [if_neg]
      rintro ⟨rfl, rfl⟩
      exact hc rfl

theorem generate_uses (t : Int) (st : TreeSt) : TUses 2 (generateNodeId t) st := by
  unfold generateNodeId
  refine (Uses.get (k := 1) [.counter t] (fun s' ha => by simp only [counter_of_view (t := t) (ha _ (by simp))]) ?_).mono (by simp)
  refine .liftBind fun c hc => ?_
  refine Uses.mono (k := 1 + 0) (Uses.bind ?_ fun a t' _ => .pure _ _) (by simp)
  refine ⟨[.counter t], by simp, .modify (fun s' ha c hc => ?_) fun s' c hc => ?_⟩
  · simp only [List.mem_singleton] at hc
    subst hc
    simp [treeView]
  · simp only [List.mem_singleton] at hc
    cases c <;> try rfl
    next t' =>
      simp only [treeView]
      rw [if_neg]
      rintro rfl
      exact hc rfl

theorem sync_uses (n : TreeNode) (st : TreeSt) : TUses 1 n.sync st := by
  unfold TreeNode.sync
  refine (Uses.get (k := 0) [.node n.tickId n.key] (fun s' ha => by simp only [node_of_view (t := n.tickId) (k := n.key) (ha _ (by simp))]) ?_).mono (by simp)
  split
  · exact .pure _ _
  · exact .fail _ _

theorem syncRV_uses (n : TreeNode) (st : TreeSt) : TUses 3 n.syncRangeAndValue st := by
  unfold TreeNode.syncRangeAndValue
  refine .ensureBind fun _ => ?_
  have h1 := cellOf_length n.tickId n.left
  have h2 := cellOf_length n.tickId n.right
  refine (Uses.get (k := 1) (cellOf n.tickId n.left ++ cellOf n.tickId n.right) (fun s' ha => by
    rw [getLeft_view fun c hc => ha c (by simp [hc]), getRight_view fun c hc => ha c (by simp [hc])]) ?_).mono (by simp; omega)
  refine .ite (fun _ => .pure _ _) fun _ => ?_
  refine .liftBind fun a _ => ?_
  refine .liftBind fun b _ => .liftBind fun c _ => .liftBind fun d _ => .liftBind fun e _ => .liftBind fun f _ => .liftBind fun g _ => ?_
  exact (Uses.bind (save_uses _ _) fun a t' _ => Uses.pure (k := 0) _ _)

theorem balance_view {st st' : TreeSt} {n : TreeNode} (h : ∀ c ∈ cellOf n.tickId n.left ++ cellOf n.tickId n.right, treeView st' c = treeView st c) :
    n.balanceFactor st' = n.balanceFactor st := by
  unfold TreeNode.balanceFactor
  rw [getLeft_view fun c hc => h c (by simp [hc]), getRight_view fun c hc => h c (by simp [hc])]

theorem optSave_uses (c : Bool) (n : TreeNode) (st : TreeSt) : TUses 1 (if c then n.save else pure ()) st :=
  .ite (fun _ => save_uses _ _) fun _ => .pure _ _

def optCells (n : Option TreeNode) : List Cell :=
  match n with
  | some n => cellOf n.tickId n.left ++ cellOf n.tickId n.right
  | none => []
theorem optCells_length (n : Option TreeNode) : (optCells n).length ≤ 2 := by
  cases n with
  | none => simp [optCells]
  | some n =>
    have h1 := cellOf_length n.tickId n.left
    have h2 := cellOf_length n.tickId n.right
    simp [optCells]; omega

theorem relink_uses (mp : Option TreeNode) (c d : Bool) (f g : TreeNode → TreeNode) (n : TreeNode) (st : TreeSt) :
    TUses 2 (match mp with
      | none => pure n
      | some p => do
        if c then save (f p) else pure ()
        if d then save (g p) else pure ()
        pure n : TM TreeNode) st := by
  cases mp with
  | none => exact .pure _ _
  | some p =>
    cases c <;> cases d
    · exact .pure _ _
    · exact .step (k := 2) (save_uses (g p) _) (by omega) fun _ _ _ => .pure _ _
    · exact .step (k := 2) (save_uses (f p) _) (by omega) fun _ _ _ => .pure _ _
    · exact .step (k := 2) (save_uses (f p) _) (by omega) fun _ _ _ => .step (save_uses (g p) _) (by omega) fun _ _ _ => .pure _ _

theorem rotateRight_uses (n : TreeNode) (st : TreeSt) : TUses 15 n.rotateRight st := by
  unfold TreeNode.rotateRight
  have h1 := cellOf_length n.tickId n.left
  have h2 := cellOf_length n.tickId n.parent
  refine .read (cellOf n.tickId n.left ++ cellOf n.tickId n.parent) 2 (by simp; omega) (by omega) (fun s' ha => by
    rw [getLeft_view fun c hc => ha c (by simp [hc]), getParent_view fun c hc => ha c (by simp [hc])]) ?_
  simp only
  split
  · exact .fail _ _
  next l hl =>
  have h3 := cellOf_length n.tickId l.right
  refine .read (cellOf n.tickId l.right) 1 h3 (by omega) (fun s' ha => by
    rw [getLeft_view (n := { n with parent := some l.key, left := l.right }) fun c hc => ha c hc]) ?_
  split
  · refine .step (save_uses _ _) (by omega) fun _ _ _ => .step (save_uses _ _) (by omega) fun _ _ _ => .step (save_uses _ _) (by omega) fun _ _ _ => ?_
    split
    · exact .step (saveRoot_uses _ _ _ _) (by omega) fun _ _ _ => .step (syncRV_uses _ _) (by omega) fun _ _ _ => .step (syncRV_uses _ _) (by omega)
        fun _ _ _ => (relink_uses _ _ _ _ _ _ _).mono (by omega)
    · exact .step (syncRV_uses _ _) (by omega) fun _ _ _ => .step (syncRV_uses _ _) (by omega)
        fun _ _ _ => (relink_uses _ _ _ _ _ _ _).mono (by omega)
  · refine .step (save_uses _ _) (by omega) fun _ _ _ => .step (save_uses _ _) (by omega) fun _ _ _ => ?_
    split
    · exact .step (saveRoot_uses _ _ _ _) (by omega) fun _ _ _ => .step (syncRV_uses _ _) (by omega) fun _ _ _ => .step (syncRV_uses _ _) (by omega)
        fun _ _ _ => (relink_uses _ _ _ _ _ _ _).mono (by omega)
    · exact .step (syncRV_uses _ _) (by omega) fun _ _ _ => .step (syncRV_uses _ _) (by omega)
        fun _ _ _ => (relink_uses _ _ _ _ _ _ _).mono (by omega)

theorem rotateLeft_uses (n : TreeNode) (st : TreeSt) : TUses 15 n.rotateLeft st := by
  unfold TreeNode.rotateLeft
  have h1 := cellOf_length n.tickId n.right
  have h2 := cellOf_length n.tickId n.parent
  refine .read (cellOf n.tickId n.right ++ cellOf n.tickId n.parent) 2 (by simp; omega) (by omega) (fun s' ha => by
    rw [getRight_view fun c hc => ha c (by simp [hc]), getParent_view fun c hc => ha c (by simp [hc])]) ?_
  simp only
  split
  · exact .fail _ _
  next l hl =>
  have h3 := cellOf_length n.tickId l.left
  refine .read (cellOf n.tickId l.left) 1 h3 (by omega) (fun s' ha => by
    rw [getRight_view (n := { n with parent := some l.key, right := l.left }) fun c hc => ha c hc]) ?_
  split
  · refine .step (save_uses _ _) (by omega) fun _ _ _ => .step (save_uses _ _) (by omega) fun _ _ _ => .step (save_uses _ _) (by omega) fun _ _ _ => ?_
    split
    · exact .step (saveRoot_uses _ _ _ _) (by omega) fun _ _ _ => .step (syncRV_uses _ _) (by omega) fun _ _ _ => .step (syncRV_uses _ _) (by omega)
        fun _ _ _ => (relink_uses _ _ _ _ _ _ _).mono (by omega)
    · exact .step (syncRV_uses _ _) (by omega) fun _ _ _ => .step (syncRV_uses _ _) (by omega)
        fun _ _ _ => (relink_uses _ _ _ _ _ _ _).mono (by omega)
  · refine .step (save_uses _ _) (by omega) fun _ _ _ => .step (save_uses _ _) (by omega) fun _ _ _ => ?_
    split
    · exact .step (saveRoot_uses _ _ _ _) (by omega) fun _ _ _ => .step (syncRV_uses _ _) (by omega) fun _ _ _ => .step (syncRV_uses _ _) (by omega)
        fun _ _ _ => (relink_uses _ _ _ _ _ _ _).mono (by omega)
    · exact .step (syncRV_uses _ _) (by omega) fun _ _ _ => .step (syncRV_uses _ _) (by omega)
        fun _ _ _ => (relink_uses _ _ _ _ _ _ _).mono (by omega)

theorem rebalance_uses (n : TreeNode) (st : TreeSt) : TUses 38 n.rebalance st := by
  unfold TreeNode.rebalance
  refine .step (sync_uses _ _) (by omega) fun self st _ => .ensureBind fun _ => .ensureBind fun _ => ?_
  have h1 := optCells_length (some self)
  have h2 := optCells_length (self.getLeft st)
  have h3 := optCells_length (self.getRight st)
  refine .read (optCells (some self) ++ (optCells (self.getLeft st) ++ optCells (self.getRight st))) 6 (by simp; omega) (by omega) (fun s' ha => ?_) ?_
  · have e1 : self.getLeft s' = self.getLeft st := getLeft_view fun c hc => ha c (by simp [optCells, hc])
    have e2 : self.getRight s' = self.getRight st := getRight_view fun c hc => ha c (by simp [optCells, hc])
    have e3 : self.balanceFactor s' = self.balanceFactor st := balance_view fun c hc => ha c (by
      rcases List.mem_append.1 hc with hc | hc <;> simp [optCells, hc])
    have e4 : ∀ m, self.getLeft st = some m → m.balanceFactor s' = m.balanceFactor st := fun m hm => balance_view fun c hc => ha c (by
      rw [hm]; rcases List.mem_append.1 hc with hc | hc <;> simp [optCells, hc])
    have e5 : ∀ m, self.getRight st = some m → m.balanceFactor s' = m.balanceFactor st := fun m hm => balance_view fun c hc => ha c (by
      rw [hm]; rcases List.mem_append.1 hc with hc | hc <;> simp [optCells, hc])
    rw [e1, e2, e3]
    cases hl : self.getLeft st with
    | none =>
      cases hr : self.getRight st with
      | none => rfl
      | some r => simp only [e5 _ hr]
    | some l =>
      cases hr : self.getRight st with
      | none => simp only [e4 _ hl]
      | some r => simp only [e4 _ hl, e5 _ hr]
  · refine .liftBind fun bf _ => .liftBind fun ab _ => ?_
    split
    · exact (syncRV_uses _ _).mono (by omega)
    · refine .liftBind fun rbf _ => .liftBind fun lbf _ => ?_
      split_ifs
      · exact (rotateLeft_uses _ _).mono (by omega)
      · exact (rotateRight_uses _ _).mono (by omega)
      · split
        · exact .fail _ _
        · exact .step (rotateRight_uses _ _) (by omega) fun _ _ _ => .step (sync_uses _ _) (by omega) fun _ _ _ => (rotateLeft_uses _ _).mono (by omega)
      · split
        · exact .fail _ _
        · exact .step (rotateLeft_uses _ _) (by omega) fun _ _ _ => .step (sync_uses _ _) (by omega) fun _ _ _ => (rotateRight_uses _ _).mono (by omega)
      · exact .pure _ _

theorem split_uses (n m : TreeNode) (st : TreeSt) : TUses 5 (n.split m) st := by
  unfold TreeNode.split
  refine .ensureBind fun _ => .step (generate_uses _ _) (by omega) fun id st _ => .liftBind fun acc _ => .liftBind fun below _ => ?_
  have tail : ∀ (nl nr : Nat) (st : TreeSt), TUses 3 (do
        let a ← EM.lift m.getMaxRange
        let b ← EM.lift n.getMaxRange
        let newParent ← EM.lift ((TreeNode.mk' n.tickId n.dir id (NodeType.internal acc (min m.getMinRange n.getMinRange) (max a b) 0)).setWeight 2)
        TreeNode.save { newParent with left := some nl, right := some nr, parent := n.parent }
        TreeNode.save { n with parent := some id }
        TreeNode.save { m with parent := some id }
        pure id : TM Nat) st := by
    intro nl nr st
    refine .liftBind fun a _ => .liftBind fun b _ => .liftBind fun np _ => ?_
    exact .step (save_uses _ _) (by omega) fun _ _ _ => .step (save_uses _ _) (by omega) fun _ _ _ => .step (save_uses _ _) (by omega) fun _ _ _ => .pure _ _
  simp only
  split
  · exact .bind0 (.pure _ _) fun p t _ => tail p.1 p.2 t
  · refine .liftBind fun _ _ => ?_
    split
    · exact .bind0 (.pure _ _) fun p t _ => tail p.1 p.2 t
    · exact .bind0 (.fail _ _) fun p t _ => tail p.1 p.2 t

theorem insert_uses (f : Nat) (n m : TreeNode) (st : TreeSt) : TUses (46 * f) (TreeNode.insert f n m) st := by
  induction f generalizing n st with
  | zero => exact .fail _ _
  | succ f ih =>
    unfold TreeNode.insert
    refine .ensureBind fun _ => .ensureBind fun _ => ?_
    have h1 := optCells_length (some n)
    refine .read (optCells (some n)) 2 h1 (by omega) (fun s' ha => ?_) ?_
    · rw [getLeft_view (st := st) (st' := s') fun c hc => ha c (by simp [optCells, hc]), getRight_view (st := st) (st' := s') fun c hc => ha c (by simp [optCells, hc])]
    refine .ensureBind fun _ => .liftBind fun _ _ => .liftBind fun _ _ => ?_
    simp only
    split_ifs
    · split
      · exact .fail _ _
      · exact .step (save_uses _ _) (by omega) fun _ _ _ => .step (ih _ _) (by omega) fun _ _ _ => (rebalance_uses _ _).mono (by omega)
    · split
      · exact .fail _ _
      · exact .step (save_uses _ _) (by omega) fun _ _ _ => .step (ih _ _) (by omega) fun _ _ _ => (rebalance_uses _ _).mono (by omega)
    · split
      · exact .fail _ _
      · exact .step (save_uses _ _) (by omega) fun _ _ _ => .step (ih _ _) (by omega) fun _ _ _ => (rebalance_uses _ _).mono (by omega)
    · split
      · exact .fail _ _
      · exact .step (split_uses _ _ _) (by omega) fun _ _ _ => .step (save_uses _ _) (by omega) fun _ _ _ => (rebalance_uses _ _).mono (by omega)
    · split
      · exact .fail _ _
      · exact .step (split_uses _ _ _) (by omega) fun _ _ _ => .step (save_uses _ _) (by omega) fun _ _ _ => (rebalance_uses _ _).mono (by omega)
    · exact .step (save_uses _ _) (by omega) fun _ _ _ => .step (save_uses _ _) (by omega) fun _ _ _ => (rebalance_uses _ _).mono (by omega)
    · exact .step (save_uses _ _) (by omega) fun _ _ _ => .step (save_uses _ _) (by omega) fun _ _ _ => (rebalance_uses _ _).mono (by omega)
    · exact .step (save_uses _ _) (by omega) fun _ _ _ => .step (save_uses _ _) (by omega) fun _ _ _ => (rebalance_uses _ _).mono (by omega)
    · exact .fail _ _

/-- The cells that `getRootNode` reads. -/
def rootCells (st : TreeSt) (tick : Int) (dir : Dir) : List Cell := .root tick dir :: cellOf tick (st.roots tick dir)
theorem rootCells_length (st : TreeSt) (tick : Int) (dir : Dir) : (rootCells st tick dir).length ≤ 2 := by
  have := cellOf_length tick (st.roots tick dir)
  simp [rootCells]; omega
theorem rootCells_view {st st' : TreeSt} {tick : Int} {dir : Dir} (h : ∀ c ∈ rootCells st tick dir, treeView st' c = treeView st c) :
    getRootNode st' tick dir = getRootNode st tick dir := by
  unfold getRootNode
  have e1 : st'.roots tick dir = st.roots tick dir := root_of_view (h _ (by simp [rootCells]))
  rw [e1]
  cases e : st.roots tick dir with
  | none => rfl
  | some k =>
    have e2 : st'.nodes tick k = st.nodes tick k := node_of_view (h _ (by simp [rootCells, cellOf, e]))
    simp only [e2]

theorem getOrInit_uses (tick : Int) (dir : Dir) (st : TreeSt) : TUses 5 (getOrInitRootNode tick dir) st := by
  unfold getOrInitRootNode
  refine .read (rootCells st tick dir) 2 (rootCells_length _ _ _) (by omega) (fun s' ha => by rw [rootCells_view ha]) ?_
  split
  · exact .pure _ _
  · exact .step (generate_uses _ _) (by omega) fun _ _ _ => .step (saveRoot_uses _ _ _ _) (by omega) fun _ _ _ => .pure _ _

/-- One level of the walk, given the children and the rest. -/
def walkBody (leftChild rightChild : Option TreeNode) (rc : TreeNode → Nat → Nat → Except Err Nat) (node : TreeNode) (currentSum target prevSum : Nat) :
    Except Err Nat := do
    if target < node.getMinRange then return 0
    let mx ← node.getMaxRange
    if target ≥ mx then return currentSum
    if !node.isInternal then return currentSum
    let resync ← (match leftChild, rightChild with
      | some l, some r => do
        let sumAtNode ← checkedSub currentSum node.getValue
        let diffAtNode := prevSum - sumAtNode
        let unrealizedFromLeft := l.getValue - diffAtNode
        let newEtas ← checkedAdd target unrealizedFromLeft
        if newEtas ≥ r.getMinRange then pure (some (r, newEtas)) else pure none
      | _, _ => pure none)
    match resync with
    | some (r, newEtas) => rc r currentSum newEtas
    | none =>
      let goLeft ← (match leftChild with
        | some l =>
          if target < l.getMinRange then pure (some none)
          else do
            let lmx ← l.getMaxRange
            if target < lmx then pure (some (some l)) else pure none
        | none => pure none)
      match goLeft with
      | some none => return 0
      | some (some l) => do
        let rightSum := (rightChild.map TreeNode.getValue).getD 0
        let currentSum ← checkedSub currentSum rightSum
        rc l currentSum target
      | none =>
        match rightChild with
        | none => return currentSum
        | some r =>
          if target < r.getMinRange then checkedSub currentSum r.getValue
          else do
            let rmx ← r.getMaxRange
            if target ≤ rmx then rc r currentSum target
            else return currentSum

theorem walk_body (st : TreeSt) (f : Nat) (node : TreeNode) (cs x R : Nat) :
    prefixSumWalk st (f + 1) node cs x R = walkBody (node.getLeft st) (node.getRight st) (fun n c t => prefixSumWalk st f n c t R) node cs x R := by
  rw [prefixSumWalk]
  rfl

theorem bind_one {α β γ : Type} (y : Except Err α) {g : α → (γ → Except Err β) → Except Err β} [Nonempty γ]
    (h : ∀ a, ∃ p, ∀ rc rc' : γ → Except Err β, rc p = rc' p → g a rc = g a rc') :
    ∃ p, ∀ rc rc' : γ → Except Err β, rc p = rc' p → (y >>= fun a => g a rc) = (y >>= fun a => g a rc') := by
  cases y with
  | error e => exact ⟨Classical.arbitrary γ, fun _ _ _ => rfl⟩
  | ok a => exact h a

/-- One level of the walk goes on in at most one place. -/
theorem walkBody_one (l r : Option TreeNode) (node : TreeNode) (cs x R : Nat) :
    ∃ p : TreeNode × Nat × Nat, ∀ rc rc' : TreeNode × Nat × Nat → Except Err Nat, rc p = rc' p →
      walkBody l r (fun n c t => rc (n, c, t)) node cs x R = walkBody l r (fun n c t => rc' (n, c, t)) node cs x R := by
  have : Nonempty (TreeNode × Nat × Nat) := ⟨(node, 0, 0)⟩
  unfold walkBody
  split
  · exact ⟨(node, 0, 0), fun _ _ _ => rfl⟩
  refine bind_one node.getMaxRange fun mx => ?_
  split
  · exact ⟨(node, 0, 0), fun _ _ _ => rfl⟩
  split
  · exact ⟨(node, 0, 0), fun _ _ _ => rfl⟩
  refine bind_one _ fun rs => ?_
  split
  · next r' ne => exact ⟨(r', cs, ne), fun _ _ h => h⟩
  refine bind_one _ fun gl => ?_
  split
  · exact ⟨(node, 0, 0), fun _ _ _ => rfl⟩
  · next l' => exact bind_one (g := fun c rc => rc (l', c, x)) _ fun c => ⟨(l', c, x), fun _ _ h => h⟩
  split
  · exact ⟨(node, 0, 0), fun _ _ _ => rfl⟩
  next r' =>
  split
  · exact ⟨(node, 0, 0), fun _ _ _ => rfl⟩
  refine bind_one _ fun rmx => ?_
  split
  · exact ⟨(r', cs, x), fun _ _ h => h⟩
  · exact ⟨(node, 0, 0), fun _ _ _ => rfl⟩

/-- The walk reads at most two nodes per level. -/
theorem walk_uses (st : TreeSt) (f : Nat) (node : TreeNode) (cs x R : Nat) :
    ∃ S : List Cell, S.length ≤ 2 * f ∧ ∀ st', (∀ c ∈ S, treeView st' c = treeView st c) →
      prefixSumWalk st' f node cs x R = prefixSumWalk st f node cs x R := by
  induction f generalizing node cs x with
  | zero => exact ⟨[], by simp, fun _ _ => rfl⟩
  | succ f ih =>
    obtain ⟨p, hp⟩ := walkBody_one (node.getLeft st) (node.getRight st) node cs x R
    obtain ⟨S, h1, h2⟩ := ih p.1 p.2.1 p.2.2
    have h3 := optCells_length (some node)
    refine ⟨optCells (some node) ++ S, by simp only [List.length_append]; omega, fun st' ha => ?_⟩
    rw [walk_body, walk_body, getLeft_view fun c hc => ha c (by simp [optCells, hc]), getRight_view fun c hc => ha c (by simp [optCells, hc])]
    exact hp (fun q => prefixSumWalk st' f q.1 q.2.1 q.2.2 R) (fun q => prefixSumWalk st f q.1 q.2.1 q.2.2 R) (h2 st' fun c hc => ha c (by simp [hc]))

end OB
