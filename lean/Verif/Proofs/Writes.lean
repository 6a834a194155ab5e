import Verif.Proofs.RawQuery
/- Every handler changes the store by a sequence of storage writes with well-typed keys. -/
namespace OB
open Spec

def Res.st {σ α : Type} : Res σ α → σ
  | .ok _ s => s
  | .err _ s => s

/-- `x` performs writes satisfying `W`, keeps `inv`, and its results satisfy `P`. -/
def Acts {σ α : Type} (inv : σ → Prop) (ap : σ → Write → σ) (W : Write → Prop) (P : α → Prop) (x : EM σ α) : Prop :=
  ∀ s, inv s → ∃ ws : List Write, (∀ w ∈ ws, W w) ∧ (x s).st = ws.foldl ap s ∧ inv (x s).st ∧ ∀ a s', x s = .ok a s' → P a

section
variable {σ α β : Type} {inv : σ → Prop} {ap : σ → Write → σ} {W : Write → Prop}

theorem Acts.pure {P : α → Prop} {a : α} (h : P a) : Acts inv ap W P (Pure.pure a : EM σ α) :=
  fun s hs => ⟨[], by simp, rfl, hs, fun b s' e => by cases e; exact h⟩

theorem Acts.fail {P : α → Prop} (e : Err) : Acts inv ap W P (EM.fail e : EM σ α) :=
  fun s hs => ⟨[], by simp, rfl, hs, fun b s' e => by cases e⟩

theorem Acts.bind {P : α → Prop} {Q : β → Prop} {x : EM σ α} {f : α → EM σ β} (hx : Acts inv ap W P x)
    (hf : ∀ a, P a → Acts inv ap W Q (f a)) : Acts inv ap W Q (x >>= f) := by
  intro s hs
  obtain ⟨ws, h1, h2, h3, h4⟩ := hx s hs
  have e : (x >>= f) s = match x s with | .ok a s' => f a s' | .err e s' => .err e s' := rfl
  rw [e]
  cases hxs : x s with
  | err er s' =>
    rw [hxs] at h2 h3
    exact ⟨ws, h1, h2, h3, fun a s' e => by cases e⟩
  | ok a s' =>
    rw [hxs] at h2 h3
    obtain ⟨ws', g1, g2, g3, g4⟩ := hf a (h4 a s' hxs) s' h3
    refine ⟨ws ++ ws', fun w hw => ?_, ?_, g3, g4⟩
    · rcases List.mem_append.1 hw with h | h
      · exact h1 w h
      · exact g1 w h
    · rw [List.foldl_append]
      have : s' = ws.foldl ap s := h2
      rw [← this]; exact g2

theorem Acts.mono {P Q : α → Prop} {x : EM σ α} (hx : Acts inv ap W P x) (h : ∀ a, P a → Q a) : Acts inv ap W Q x := by
  intro s hs
  obtain ⟨ws, h1, h2, h3, h4⟩ := hx s hs
  exact ⟨ws, h1, h2, h3, fun a s' e => h a (h4 a s' e)⟩

theorem Acts.get : Acts inv ap W inv (EM.get : EM σ σ) := fun s hs => ⟨[], by simp, rfl, hs, fun b s' e => by cases e; exact hs⟩

theorem Acts.lift {x : Except Err α} : Acts inv ap W (fun a => x = .ok a) (EM.lift x : EM σ α) := by
  intro s hs
  cases x with
  | ok a => exact ⟨[], by simp, rfl, hs, fun b s' e => by cases e; rfl⟩
  | error e => exact ⟨[], by simp, rfl, hs, fun b s' e => by cases e⟩

theorem Acts.ensure {c : Bool} {e : Err} : Acts inv ap W (fun _ => c = true) (EM.ensure c e : EM σ Unit) := by
  intro s hs
  cases c with
  | true => exact ⟨[], by simp, rfl, hs, fun b s' e => rfl⟩
  | false => exact ⟨[], by simp, rfl, hs, fun b s' e => by cases e⟩

theorem Acts.modify {g : σ → σ} (w : σ → Write) (hw : ∀ s, inv s → W (w s)) (hg : ∀ s, inv s → g s = ap s (w s))
    (hi : ∀ s, inv s → inv (g s)) : Acts inv ap W (fun _ => True) (EM.modify g : EM σ Unit) := by
  intro s hs
  refine ⟨[w s], by simpa using hw s hs, ?_, hi s hs, fun _ _ _ => trivial⟩
  exact hg s hs

end

/-! ### Trees -/

/-- All tree cells hold well-typed values. -/
structure TreeOk (st : TreeSt) : Prop where
  nodes : ∀ t k n, st.nodes t k = some n → NodeOk n
  roots : ∀ t d i, st.roots t d = some i → IdOk i
  counter : ∀ t n, st.counter t = some n → IdOk n

/-! Ranges of checked arithmetic. -/

theorem add_dec {x y z : Nat} (h : checkedAdd x y = .ok z) : DecOk z := by
  unfold checkedAdd at h; split_ifs at h with hc; cases h; exact hc
theorem sub_dec {x y z : Nat} (h : checkedSub x y = .ok z) (hx : DecOk x) : DecOk z := by
  unfold checkedSub at h; split_ifs at h with hc; cases h; exact Nat.lt_of_le_of_lt (Nat.sub_le _ _) hx
theorem sub_amount {x y z : Nat} (h : checkedSub x y = .ok z) (hx : AmountOk x) : AmountOk z := by
  unfold checkedSub at h; split_ifs at h with hc; cases h; exact Nat.lt_of_le_of_lt (Nat.sub_le _ _) hx
theorem ratio_dec {x y z : Nat} (h : fromRatio x y = .ok z) : DecOk z := by
  unfold fromRatio at h
  split at h
  · next a ha =>
    cases h
    unfold checkedFromRatio at ha
    split_ifs at ha with h1 h2
    cases ha; exact h2
  · cases h
theorem decOk_zero : DecOk 0 := by unfold DecOk U256; exact Nat.two_pow_pos _
theorem idOk_zero : IdOk 0 := by unfold IdOk; omega

theorem nodeValue_ok {n : TreeNode} (h : NodeOk n) : DecOk n.getValue := by
  obtain ⟨-, -, -, -, -, h⟩ := h
  unfold TreeNode.getValue
  split <;> next e => rw [e] at h; exact h.1
theorem nodeMin_ok {n : TreeNode} (h : NodeOk n) : DecOk n.getMinRange := by
  obtain ⟨-, -, -, -, -, h⟩ := h
  unfold TreeNode.getMinRange
  split <;> next e => rw [e] at h; first | exact h.2.1 | exact h.2
theorem nodeMax_ok {n : TreeNode} (h : NodeOk n) {x : Nat} (e : n.getMaxRange = .ok x) : DecOk x := by
  obtain ⟨-, -, -, -, -, h⟩ := h
  unfold TreeNode.getMaxRange at e
  split at e
  · next e' => cases e; rw [e'] at h; exact h.2.2.1
  · split at e
    · next hx => cases e; exact add_dec hx
    · cases e
theorem min_ok {x y : Nat} (hx : DecOk x) : DecOk (min x y) := Nat.lt_of_le_of_lt (Nat.min_le_left _ _) hx
theorem max_ok {x y : Nat} (hx : DecOk x) (hy : DecOk y) : DecOk (max x y) := Nat.max_lt.2 ⟨hx, hy⟩

/-- Writes to the trees. -/
def Spec.Write.isTree : Write → Prop
  | .node _ | .dropNode _ _ | .root _ _ _ | .counter _ _ => True
  | _ => False

def Spec.Write.applyTree (st : TreeSt) : Write → TreeSt
  | .node n => { st with nodes := fun t k => if t = n.tickId ∧ k = n.key then some n else st.nodes t k }
  | .dropNode t i => { st with nodes := fun t' k => if t' = t ∧ k = i then none else st.nodes t' k }
  | .root t d i => { st with roots := fun t' d' => if t' = t ∧ d' = d then some i else st.roots t' d' }
  | .counter t n => { st with counter := fun t' => if t' = t then some n else st.counter t' }
  | _ => st

abbrev TActs {α : Type} (P : α → Prop) (x : TM α) : Prop := Acts TreeOk Write.applyTree (fun w => w.Ok ∧ w.isTree) P x

theorem tacts_save {n : TreeNode} (h : NodeOk n) : TActs (fun _ => True) n.save := by
  refine Acts.modify (fun _ => .node n) (fun _ _ => ⟨h, trivial⟩) (fun _ _ => rfl) (fun s hs => ⟨fun t k m hm => ?_, hs.roots, hs.counter⟩)
  simp only at hm
  split_ifs at hm with e
  · cases hm; exact h
  · exact hs.nodes t k m hm

theorem some_ok {i : Nat} (h : IdOk i) : ∀ j ∈ some i, IdOk j := by
  intro j hj; cases hj; exact h
theorem none_ok : ∀ j ∈ (none : Option Nat), IdOk j := by intro j hj; cases hj

theorem Spec.NodeOk.setLeft {n : TreeNode} (h : NodeOk n) {x : Option Nat} (hx : ∀ i ∈ x, IdOk i) : NodeOk { n with left := x } :=
  ⟨h.1, h.2.1, hx, h.2.2.2.1, h.2.2.2.2.1, h.2.2.2.2.2⟩
theorem Spec.NodeOk.setRight {n : TreeNode} (h : NodeOk n) {x : Option Nat} (hx : ∀ i ∈ x, IdOk i) : NodeOk { n with right := x } :=
  ⟨h.1, h.2.1, h.2.2.1, hx, h.2.2.2.2.1, h.2.2.2.2.2⟩
theorem Spec.NodeOk.setParent {n : TreeNode} (h : NodeOk n) {x : Option Nat} (hx : ∀ i ∈ x, IdOk i) : NodeOk { n with parent := x } :=
  ⟨h.1, h.2.1, h.2.2.1, h.2.2.2.1, hx, h.2.2.2.2.2⟩
theorem Spec.NodeOk.setType {n : TreeNode} (h : NodeOk n) {x : NodeType} (hx : NodeTypeOk x) : NodeOk { n with ntype := x } :=
  ⟨h.1, h.2.1, h.2.2.1, h.2.2.2.1, h.2.2.2.2.1, hx⟩
theorem Spec.NodeOk.key {n : TreeNode} (h : NodeOk n) : ∀ i ∈ some n.key, IdOk i := some_ok h.2.1
theorem Spec.NodeOk.lefts {n : TreeNode} (h : NodeOk n) : ∀ i ∈ n.left, IdOk i := h.2.2.1
theorem Spec.NodeOk.rights {n : TreeNode} (h : NodeOk n) : ∀ i ∈ n.right, IdOk i := h.2.2.2.1
theorem Spec.NodeOk.parents {n : TreeNode} (h : NodeOk n) : ∀ i ∈ n.parent, IdOk i := h.2.2.2.2.1

theorem tacts_saveRoot {t : Int} (d : Dir) {k : Nat} (h : TickOk t) (hk : IdOk k) : TActs (fun _ => True) (TreeNode.saveRoot t d k) :=
  Acts.modify (fun _ => .root t d k) (fun _ _ => ⟨⟨h, hk⟩, trivial⟩) (fun _ _ => rfl) (fun s hs => ⟨hs.nodes, fun t' d' i hi => by
    simp only at hi
    split_ifs at hi with e
    · cases hi; exact hk
    · exact hs.roots t' d' i hi, hs.counter⟩)

theorem u64Succ_inv {n m : Nat} (h : u64Succ n = .ok m) : m = n + 1 ∧ n + 1 < 2 ^ 64 := by
  unfold u64Succ at h
  split_ifs at h with hn
  cases h
  exact ⟨rfl, hn⟩

theorem succ_id {n m : Nat} (h : u64Succ n = .ok m) : IdOk m := by
  obtain ⟨rfl, h2⟩ := u64Succ_inv h; exact h2

theorem tacts_generate {t : Int} (h : TickOk t) : TActs IdOk (generateNodeId t) := by
  unfold generateNodeId
  refine Acts.get.bind fun st hst => Acts.lift.bind fun c hc => Acts.bind (P := fun _ => True) ?_ fun _ _ => Acts.pure (succ_id hc)
  refine Acts.modify (fun _ => .counter t c) (fun _ _ => ⟨⟨h, succ_id hc⟩, trivial⟩) (fun _ _ => rfl) (fun s hs => ⟨hs.nodes, hs.roots, fun t' n hn => ?_⟩)
  simp only at hn
  split_ifs at hn with e
  · cases hn; exact succ_id hc
  · exact hs.counter t' n hn

theorem tacts_sync {n : TreeNode} : TActs NodeOk n.sync := by
  unfold TreeNode.sync
  refine Acts.get.bind fun st hst => ?_
  split
  · next m hm => exact Acts.pure (hst.nodes _ _ m hm)
  · exact Acts.fail _

theorem getLeft_ok {st : TreeSt} (h : TreeOk st) {n m : TreeNode} (e : n.getLeft st = some m) : NodeOk m := by
  unfold TreeNode.getLeft at e
  split at e
  · exact h.nodes _ _ m e
  · cases e

theorem getRight_ok {st : TreeSt} (h : TreeOk st) {n m : TreeNode} (e : n.getRight st = some m) : NodeOk m := by
  unfold TreeNode.getRight at e
  split at e
  · exact h.nodes _ _ m e
  · cases e

theorem getParent_ok {st : TreeSt} (h : TreeOk st) {n m : TreeNode} (e : n.getParent st = some m) : NodeOk m := by
  unfold TreeNode.getParent at e
  split at e
  · exact h.nodes _ _ m e
  · cases e

theorem setMin_ok {n m : TreeNode} {x : Nat} (h : NodeOk n) (hx : DecOk x) (e : n.setMinRange x = .ok m) : NodeOk m := by
  have hn := h.2.2.2.2.2
  unfold TreeNode.setMinRange at e; split at e <;> cases e
  next e => rw [e] at hn; exact h.setType ⟨hn.1, hx, hn.2.2.1, hn.2.2.2⟩
theorem setMax_ok {n m : TreeNode} {x : Nat} (h : NodeOk n) (hx : DecOk x) (e : n.setMaxRange x = .ok m) : NodeOk m := by
  have hn := h.2.2.2.2.2
  unfold TreeNode.setMaxRange at e; split at e <;> cases e
  next e => rw [e] at hn; exact h.setType ⟨hn.1, hn.2.1, hx, hn.2.2.2⟩
theorem setValue_ok {n m : TreeNode} {x : Nat} (h : NodeOk n) (hx : DecOk x) (e : n.setValue x = .ok m) : NodeOk m := by
  have hn := h.2.2.2.2.2
  unfold TreeNode.setValue at e; split at e <;> cases e
  next e => rw [e] at hn; exact h.setType ⟨hx, hn.2.1, hn.2.2.1, hn.2.2.2⟩
theorem setWeight_ok {n m : TreeNode} {x : Nat} (h : NodeOk n) (hx : IdOk x) (e : n.setWeight x = .ok m) : NodeOk m := by
  have hn := h.2.2.2.2.2
  unfold TreeNode.setWeight at e; split at e <;> cases e
  next e => rw [e] at hn; exact h.setType ⟨hn.1, hn.2.1, hn.2.2.1, hx⟩

theorem childRange_ok {ml mr : Option TreeNode} {p : Nat × Nat}
    (h : (match ml, mr with
      | some l, none => do let x ← l.getMaxRange; pure (l.getMinRange, x)
      | none, some r => do let x ← r.getMaxRange; pure (r.getMinRange, x)
      | some l, some r => do
        let x ← l.getMaxRange
        let y ← r.getMaxRange
        pure (min l.getMinRange r.getMinRange, max x y)
      | none, none => .error .panic : Except Err (Nat × Nat)) = .ok p) (hl : ∀ n ∈ ml, NodeOk n) (hr : ∀ n ∈ mr, NodeOk n) :
    DecOk p.1 ∧ DecOk p.2 := by
  split at h
  · next l =>
    rw [Except.bind_eq_ok'] at h
    obtain ⟨x, hx, h⟩ := h
    cases h
    exact ⟨nodeMin_ok (hl l rfl), nodeMax_ok (hl l rfl) hx⟩
  · next r =>
    rw [Except.bind_eq_ok'] at h
    obtain ⟨x, hx, h⟩ := h
    cases h
    exact ⟨nodeMin_ok (hr r rfl), nodeMax_ok (hr r rfl) hx⟩
  · next l r =>
    simp only [Except.bind_eq_ok'] at h
    obtain ⟨x, hx, y, hy, h⟩ := h
    cases h
    exact ⟨min_ok (nodeMin_ok (hl l rfl)), max_ok (nodeMax_ok (hl l rfl) hx) (nodeMax_ok (hr r rfl) hy)⟩
  · cases h

theorem tacts_syncRange {n : TreeNode} (h : NodeOk n) : TActs NodeOk n.syncRangeAndValue := by
  unfold TreeNode.syncRangeAndValue
  refine Acts.ensure.bind fun _ _ => Acts.get.bind fun st hst => ?_
  simp only
  split
  · exact Acts.pure h
  · refine Acts.lift.bind fun p hp => ?_
    obtain ⟨hp1, hp2⟩ := childRange_ok hp (fun m hm => getLeft_ok hst hm) (fun m hm => getRight_ok hst hm)
    obtain ⟨mn, mx⟩ := p
    refine Acts.lift.bind fun a ha => Acts.lift.bind fun b hb => Acts.lift.bind fun v hv => Acts.lift.bind fun c hc =>
      Acts.lift.bind fun wt hwt => Acts.lift.bind fun d hd => ?_
    have hd' := setWeight_ok (setValue_ok (setMax_ok (setMin_ok h hp1 ha) hp2 hb) (add_dec hv) hc) (succ_id hwt) hd
    exact (tacts_save hd').bind fun _ _ => Acts.pure hd'

attribute [local irreducible] TickOk IdOk AddrOk DecOk AmountOk

theorem tacts_relink {po : Option TreeNode} {self : TreeNode} {left : TreeNode} (hs : NodeOk self) (hl : NodeOk left) {c c' : Bool} :
    (∀ p, po = some p → NodeOk p) → TActs NodeOk (match po with
      | none => pure self
      | some p => do
        if c then TreeNode.save { p with left := some left.key }
        if c' then TreeNode.save { p with right := some left.key }
        pure self : TM TreeNode) := by
  intro hp
  cases po with
  | none => exact Acts.pure hs
  | some p =>
    have hp' := hp p rfl
    cases c <;> cases c'
    · exact Acts.pure hs
    · exact Acts.bind (tacts_save (hp'.setRight hl.key)) fun _ _ => Acts.pure hs
    · exact Acts.bind (tacts_save (hp'.setLeft hl.key)) fun _ _ => Acts.pure hs
    · exact Acts.bind (tacts_save (hp'.setLeft hl.key)) fun _ _ => Acts.bind (tacts_save (hp'.setRight hl.key)) fun _ _ => Acts.pure hs

theorem tacts_rotateRight {n : TreeNode} (h : NodeOk n) : TActs NodeOk n.rotateRight := by
  unfold TreeNode.rotateRight
  refine Acts.get.bind fun st hst => ?_
  simp only
  split
  · exact Acts.fail _
  · next child hl =>
    have hl0 : NodeOk child := getLeft_ok hst hl
    have hl' := (hl0.setParent h.parents).setRight (x := some n.key) h.key
    have h' := (h.setParent (x := some child.key) hl0.key).setLeft (x := child.right) hl0.rights
    refine Acts.get.bind fun st' hst' => ?_
    split
    all_goals try refine Acts.bind (tacts_save ((getLeft_ok hst' (by assumption)).setParent h.key)) fun _ _ => ?_
    all_goals
      refine Acts.bind (tacts_save hl') fun _ _ => Acts.bind (tacts_save h') fun _ _ => ?_
      split
      · refine Acts.bind (tacts_saveRoot _ hl'.1 hl'.2.1) fun _ _ => Acts.bind (tacts_syncRange h') fun a ha =>
          Acts.bind (tacts_syncRange hl') fun b hb => ?_
        exact tacts_relink ha hb (fun p hp => getParent_ok hst hp)
      · refine Acts.bind (tacts_syncRange h') fun a ha =>
          Acts.bind (tacts_syncRange hl') fun b hb => ?_
        exact tacts_relink ha hb (fun p hp => getParent_ok hst hp)

theorem tacts_rotateLeft {n : TreeNode} (h : NodeOk n) : TActs NodeOk n.rotateLeft := by
  unfold TreeNode.rotateLeft
  refine Acts.get.bind fun st hst => ?_
  simp only
  split
  · exact Acts.fail _
  · next child hl =>
    have hl0 : NodeOk child := getRight_ok hst hl
    have hl' := (hl0.setParent h.parents).setLeft (x := some n.key) h.key
    have h' := (h.setParent (x := some child.key) hl0.key).setRight (x := child.left) hl0.lefts
    refine Acts.get.bind fun st' hst' => ?_
    split
    all_goals try refine Acts.bind (tacts_save ((getRight_ok hst' (by assumption)).setParent h.key)) fun _ _ => ?_
    all_goals
      refine Acts.bind (tacts_save hl') fun _ _ => Acts.bind (tacts_save h') fun _ _ => ?_
      split
      · refine Acts.bind (tacts_saveRoot _ hl'.1 hl'.2.1) fun _ _ => Acts.bind (tacts_syncRange h') fun a ha =>
          Acts.bind (tacts_syncRange hl') fun b hb => ?_
        exact tacts_relink ha hb (fun p hp => getParent_ok hst hp)
      · refine Acts.bind (tacts_syncRange h') fun a ha =>
          Acts.bind (tacts_syncRange hl') fun b hb => ?_
        exact tacts_relink ha hb (fun p hp => getParent_ok hst hp)

theorem tacts_rebalance {n : TreeNode} : TActs NodeOk n.rebalance := by
  unfold TreeNode.rebalance
  refine tacts_sync.bind fun self hself => Acts.ensure.bind fun _ _ => Acts.ensure.bind fun _ _ => Acts.get.bind fun st hst =>
    Acts.lift.bind fun bf _ => Acts.lift.bind fun ab _ => ?_
  split
  · exact tacts_syncRange hself
  · refine Acts.lift.bind fun rbf _ => Acts.lift.bind fun lbf _ => ?_
    split_ifs
    · exact tacts_rotateLeft hself
    · exact tacts_rotateRight hself
    · split
      · exact Acts.fail _
      · next r hr => exact (tacts_rotateRight (getRight_ok hst hr)).bind fun _ _ => tacts_sync.bind fun a ha => tacts_rotateLeft ha
    · split
      · exact Acts.fail _
      · next r hr => exact (tacts_rotateLeft (getLeft_ok hst hr)).bind fun _ _ => tacts_sync.bind fun a ha => tacts_rotateRight ha
    · exact Acts.pure hself

theorem tacts_split {n m : TreeNode} (h : NodeOk n) (hm : NodeOk m) : TActs IdOk (n.split m) := by
  unfold TreeNode.split
  refine Acts.ensure.bind fun _ _ => (tacts_generate h.1).bind fun id hid => Acts.lift.bind fun acc hacc => Acts.lift.bind fun below _ => ?_
  have tail : ∀ nl nr : Nat, IdOk nl → IdOk nr → TActs IdOk (do
        let a ← EM.lift m.getMaxRange
        let b ← EM.lift n.getMaxRange
        let newParent ← EM.lift ((TreeNode.mk' n.tickId n.dir id (NodeType.internal acc (min m.getMinRange n.getMinRange) (max a b) 0)).setWeight 2)
        TreeNode.save { newParent with left := some nl, right := some nr, parent := n.parent }
        TreeNode.save { n with parent := some id }
        TreeNode.save { m with parent := some id }
        pure id : TM Nat) := by
    intro nl nr hnl hnr
    refine Acts.lift.bind fun a ha => Acts.lift.bind fun b hb => Acts.lift.bind fun np hnp => ?_
    have hnp' : NodeOk np := setWeight_ok
      (show NodeOk (TreeNode.mk' n.tickId n.dir id (NodeType.internal acc (min m.getMinRange n.getMinRange) (max a b) 0)) from ⟨h.1, hid, none_ok, none_ok, none_ok, add_dec hacc, min_ok (nodeMin_ok hm), max_ok (nodeMax_ok hm ha) (nodeMax_ok h hb),
        idOk_zero⟩) (by unfold IdOk; omega) hnp
    refine Acts.bind (tacts_save (((hnp'.setLeft (some_ok hnl)).setRight (some_ok hnr)).setParent h.parents)) fun _ _ => ?_
    refine Acts.bind (tacts_save (h.setParent (some_ok hid))) fun _ _ => ?_
    exact Acts.bind (tacts_save (hm.setParent (some_ok hid))) fun _ _ => Acts.pure hid
  simp only
  split
  · exact Acts.bind (P := fun p => IdOk p.1 ∧ IdOk p.2) (Acts.pure ⟨h.2.1, hm.2.1⟩) fun p hp => tail p.1 p.2 hp.1 hp.2
  · refine Acts.lift.bind fun _ _ => ?_
    split
    · exact Acts.bind (P := fun p => IdOk p.1 ∧ IdOk p.2) (Acts.pure ⟨hm.2.1, h.2.1⟩) fun p hp => tail p.1 p.2 hp.1 hp.2
    · exact Acts.bind (P := fun p => IdOk p.1 ∧ IdOk p.2) (Acts.fail _) fun p hp => tail p.1 p.2 hp.1 hp.2

theorem tacts_insert {f : Nat} {n m : TreeNode} (h : NodeOk n) (hm : NodeOk m) : TActs NodeOk (TreeNode.insert f n m) := by
  induction f generalizing n with
  | zero => exact Acts.fail _
  | succ f ih =>
    unfold TreeNode.insert
    refine Acts.ensure.bind fun _ _ => Acts.ensure.bind fun _ _ => Acts.get.bind fun st hst => ?_
    refine Acts.ensure.bind fun _ _ => Acts.lift.bind fun il _ => Acts.lift.bind fun lt _ => ?_
    have hmp := hm.setParent (x := some n.key) h.key
    simp only
    split_ifs
    · split
      · exact Acts.fail _
      · next l hl => exact (tacts_save h).bind fun _ _ => (ih (getLeft_ok hst hl)).bind fun _ _ => tacts_rebalance
    · split
      · exact Acts.fail _
      · next l hl => exact (tacts_save h).bind fun _ _ => (ih (getRight_ok hst hl)).bind fun _ _ => tacts_rebalance
    · split
      · exact Acts.fail _
      · next l hl => exact (tacts_save h).bind fun _ _ => (ih (getLeft_ok hst hl)).bind fun _ _ => tacts_rebalance
    · split
      · exact Acts.fail _
      · next l hl =>
        exact (tacts_split (getLeft_ok hst hl) hm).bind fun i hi => Acts.bind (tacts_save (h.setLeft (some_ok hi))) fun _ _ => tacts_rebalance
    · split
      · exact Acts.fail _
      · next l hl =>
        exact (tacts_split (getRight_ok hst hl) hm).bind fun i hi => Acts.bind (tacts_save (h.setRight (some_ok hi))) fun _ _ => tacts_rebalance
    · exact Acts.bind (tacts_save hmp) fun _ _ => Acts.bind (tacts_save ((h.setRight h.lefts).setLeft hm.key)) fun _ _ => tacts_rebalance
    · exact Acts.bind (tacts_save hmp) fun _ _ => Acts.bind (tacts_save (h.setLeft hm.key)) fun _ _ => tacts_rebalance
    · exact Acts.bind (tacts_save hmp) fun _ _ => Acts.bind (tacts_save (h.setRight hm.key)) fun _ _ => tacts_rebalance
    · exact Acts.fail _

theorem getRootNode_ok {st : TreeSt} (hst : TreeOk st) {t : Int} {d : Dir} {n : TreeNode} (hn : getRootNode st t d = .ok n) : NodeOk n := by
  unfold getRootNode at hn
  split at hn
  · cases hn
  · split at hn
    · cases hn
    · next m hm => cases hn; exact hst.nodes _ _ _ hm

theorem freshRoot_ok {t : Int} {d : Dir} {id : Nat} (h : TickOk t) (hid : IdOk id) : NodeOk (TreeNode.mk' t d id .default) :=
  ⟨h, hid, none_ok, none_ok, none_ok, decOk_zero, by unfold DecOk decMax U256; omega, decOk_zero, idOk_zero⟩

theorem tacts_getOrInit {t : Int} (d : Dir) (h : TickOk t) : TActs NodeOk (getOrInitRootNode t d) := by
  unfold getOrInitRootNode
  refine Acts.get.bind fun st hst => ?_
  split
  · next n hn => exact Acts.pure (getRootNode_ok hst hn)
  · exact (tacts_generate h).bind fun id hid => (tacts_saveRoot d h hid).bind fun _ _ => Acts.pure (freshRoot_ok h hid)

/-- A prefix sum is at most the sum it starts from. -/
theorem walk_le {st : TreeSt} {f : Nat} {n : TreeNode} {cur target prev x : Nat} (h : prefixSumWalk st f n cur target prev = .ok x) : x ≤ cur := by
  induction f generalizing n cur target prev x with
  | zero => cases h
  | succ f ih =>
    unfold prefixSumWalk at h
    split at h
    · cases h; exact Nat.zero_le _
    · rw [Except.bind_eq_ok'] at h
      obtain ⟨mx, -, h⟩ := h
      split at h
      · cases h; exact Nat.le_refl _
      · split at h
        · cases h; exact Nat.le_refl _
        · simp only at h
          rw [Except.bind_eq_ok'] at h
          obtain ⟨rs, -, h⟩ := h
          split at h
          · exact ih h
          · rw [Except.bind_eq_ok'] at h
            obtain ⟨gl, -, h⟩ := h
            split at h
            · cases h; exact Nat.zero_le _
            · rw [Except.bind_eq_ok'] at h
              obtain ⟨c, hc, h⟩ := h
              have := ih h
              unfold checkedSub at hc
              split_ifs at hc
              cases hc
              omega
            · split at h
              · cases h; exact Nat.le_refl _
              · split at h
                · unfold checkedSub at h
                  split_ifs at h
                  cases h
                  omega
                · rw [Except.bind_eq_ok'] at h
                  obtain ⟨_, -, h⟩ := h
                  split at h
                  · exact ih h
                  · cases h; exact Nat.le_refl _

theorem prefix_ok {st : TreeSt} {n : TreeNode} (hn : NodeOk n) {target prev x : Nat} (h : getPrefixSum st n target prev = .ok x) : DecOk x :=
  have := walk_le h
  have hv := nodeValue_ok hn
  by unfold DecOk at *; omega

/-! ### The contract -/

/-- All cells of the store hold well-typed values under well-typed keys. -/
structure StOk (s : Store) : Prop where
  trees : TreeOk s.trees
  orders : ∀ k o, SMap.get? s.orders k = some o → TickOk k.1 ∧ IdOk k.2 ∧ OrderOk o
  ticks : ∀ t x, SMap.get? s.ticks t = some x → TickOk t ∧ TickStateOk x
  orderId : ∀ i ∈ s.orderId, IdOk i
  book : ∀ b ∈ s.orderbook, BookOk b
  liq : ∀ d, ∀ x ∈ s.dirLiq d, DecOk x
  fee : ∀ x ∈ s.makerFee, DecOk x

abbrev MActs {α : Type} (P : α → Prop) (x : M α) : Prop := Acts StOk Write.apply Write.Ok P x

theorem foldl_tree (ws : List Write) (hw : ∀ w ∈ ws, w.isTree) (s : Store) :
    ws.foldl Write.apply s = { s with trees := ws.foldl Write.applyTree s.trees } := by
  induction ws generalizing s with
  | nil => rfl
  | cons w ws ih =>
    simp only [List.foldl_cons]
    rw [ih (fun x hx => hw x (by simp [hx]))]
    have := hw w (by simp)
    cases w <;> first | rfl | cases this

theorem macts_liftTree {α : Type} {P : α → Prop} {x : TM α} (hx : TActs P x) : MActs P (liftTree x) := by
  intro s hs
  obtain ⟨ws, h1, h2, h3, h4⟩ := hx s.trees hs.trees
  have key : (liftTree x s).st = { s with trees := (x s.trees).st } := by
    unfold liftTree
    cases x s.trees <;> rfl
  refine ⟨ws, fun w hw => (h1 w hw).1, ?_, ?_, ?_⟩
  · rw [key, h2, foldl_tree ws (fun w hw => (h1 w hw).2)]
  · rw [key]; exact ⟨h3, hs.orders, hs.ticks, hs.orderId, hs.book, hs.liq, hs.fee⟩
  · intro a s' e
    unfold liftTree at e
    cases hxt : x s.trees with
    | ok b t => rw [hxt] at e; cases e; exact h4 _ _ hxt
    | err e' t => rw [hxt] at e; cases e

theorem macts_saveTick {t : Int} {x : TickState} (h : TickOk t) (hx : TickStateOk x) : MActs (fun _ => True) (saveTick t x) := by
  refine Acts.modify (fun _ => .tick t x) (fun _ _ => ⟨h, hx⟩) (fun _ _ => rfl)
    (fun s hs => ⟨hs.trees, hs.orders, fun t' y hy => ?_, hs.orderId, hs.book, hs.liq, hs.fee⟩)
  simp only [SMap.get?_insert] at hy
  split_ifs at hy with e
  · subst e; cases hy; exact ⟨h, hx⟩
  · exact hs.ticks t' y hy

theorem macts_saveOrder {k : Int × Nat} {o : LimitOrder} (h : TickOk k.1 ∧ IdOk k.2 ∧ OrderOk o) :
    MActs (fun _ => True) (saveOrder k o) := by
  refine Acts.modify (fun _ => .saveOrder k o) (fun _ _ => h) (fun _ _ => rfl)
    (fun s hs => ⟨hs.trees, fun k' o' ho => ?_, hs.ticks, hs.orderId, hs.book, hs.liq, hs.fee⟩)
  simp only [SMap.get?_insert] at ho
  split_ifs at ho with e
  · subst e; cases ho; exact h
  · exact hs.orders k' o' ho

theorem macts_removeOrder {k : Int × Nat} (h : TickOk k.1 ∧ IdOk k.2) : MActs (fun _ => True) (removeOrder k) := by
  refine Acts.modify (fun _ => .removeOrder k) (fun _ _ => h) (fun _ _ => rfl)
    (fun s hs => ⟨hs.trees, fun k' o' ho => ?_, hs.ticks, hs.orderId, hs.book, hs.liq, hs.fee⟩)
  simp only [SMap.get?_erase] at ho
  split_ifs at ho with e
  exact hs.orders k' o' ho

theorem macts_loadOrderbook : MActs BookOk loadOrderbook := by
  unfold loadOrderbook
  refine Acts.get.bind fun s hs => ?_
  split
  · next b hb => exact Acts.pure (hs.book b hb)
  · exact Acts.fail _

theorem macts_saveOrderbook {b : Orderbook} (h : BookOk b) : MActs (fun _ => True) (saveOrderbook b) :=
  Acts.modify (fun _ => .orderbook b) (fun _ _ => h) (fun _ _ => rfl)
    (fun _ hs => ⟨hs.trees, hs.orders, hs.ticks, hs.orderId, fun b' hb => by cases hb; exact h, hs.liq, hs.fee⟩)

theorem macts_newOrderId : MActs IdOk newOrderId := by
  unfold newOrderId
  refine Acts.get.bind fun s hs => Acts.lift.bind fun n hn => Acts.bind (P := fun _ => True) ?_ fun _ _ => Acts.pure ?_
  · exact Acts.modify (fun _ => .orderId n) (fun _ _ => succ_id hn) (fun _ _ => rfl)
      (fun _ hs => ⟨hs.trees, hs.orders, hs.ticks, some_ok (succ_id hn), hs.book, hs.liq, hs.fee⟩)
  · have := (u64Succ_inv hn).2
    unfold IdOk; omega

theorem macts_saveDirLiq (d : Dir) {x : Nat} (h : DecOk x) : MActs (fun _ => True) (saveDirLiq d x) :=
  Acts.modify (fun _ => .dirLiq d x) (fun _ _ => h) (fun _ _ => rfl)
    (fun _ hs => ⟨hs.trees, hs.orders, hs.ticks, hs.orderId, hs.book, fun d' y hy => by
      simp only at hy
      split_ifs at hy with e
      · cases hy; exact h
      · exact hs.liq d' y hy, hs.fee⟩)

theorem macts_addLiq (d : Dir) (x : Nat) : MActs (fun _ => True) (addDirectionalLiquidity d x) := by
  unfold addDirectionalLiquidity
  exact Acts.get.bind fun s hs => Acts.lift.bind fun n hn => macts_saveDirLiq _ (add_dec hn)

theorem liq_ok {s : Store} (hs : StOk s) (d : Dir) : DecOk (getDirectionalLiquidity s d) := by
  unfold getDirectionalLiquidity
  cases h : s.dirLiq d with
  | none => exact decOk_zero
  | some x => exact hs.liq d x h

theorem macts_subLiq (d : Dir) (x : Nat) : MActs (fun _ => True) (subtractDirectionalLiquidity d x) := by
  unfold subtractDirectionalLiquidity
  exact Acts.get.bind fun s hs => Acts.lift.bind fun n hn => macts_saveDirLiq _ (sub_dec hn (liq_ok hs d))

theorem Spec.TickStateOk.get {x : TickState} (h : TickStateOk x) (d : Dir) : ValuesOk (x.getValues d) := by
  cases d
  · exact h.2
  · exact h.1

theorem Spec.TickStateOk.set {x : TickState} (h : TickStateOk x) (d : Dir) {v : TickValues} (hv : ValuesOk v) : TickStateOk (x.setValues d v) := by
  cases d
  · exact ⟨h.1, hv⟩
  · exact ⟨hv, h.2⟩

theorem tickDefault_ok : TickStateOk .default :=
  ⟨⟨decOk_zero, decOk_zero, decOk_zero, decOk_zero, decOk_zero⟩, ⟨decOk_zero, decOk_zero, decOk_zero, decOk_zero, decOk_zero⟩⟩

theorem tickGet_ok {s : Store} (hs : StOk s) (t : Int) : TickStateOk ((SMap.get? s.ticks t).getD .default) := by
  cases h : SMap.get? s.ticks t with
  | none => exact tickDefault_ok
  | some x => exact (hs.ticks t x h).2

theorem macts_syncSide {t : Int} (d : Dir) {v : TickValues} {x : Nat} (h : TickOk t) (hv : ValuesOk v) (hx : DecOk x) :
    MActs ValuesOk (syncSide t d v x) := by
  unfold syncSide
  split
  · exact Acts.pure hv
  · refine (macts_liftTree (tacts_getOrInit d h)).bind fun n hn => Acts.get.bind fun s hs => Acts.lift.bind fun nw hnw => Acts.lift.bind fun rl _ =>
      Acts.lift.bind fun e he => Acts.ensure.bind fun _ _ => Acts.pure ?_
    exact ⟨hv.1, hv.2.1, add_dec he, prefix_ok hn hnw, hx⟩

theorem macts_syncTick {t : Int} {x y : Nat} (hx : DecOk x) (hy : DecOk y) : MActs (fun _ => True) (syncTick t x y) := by
  unfold syncTick
  refine Acts.get.bind fun s hs => ?_
  split
  · exact Acts.fail _
  · next ts hts =>
    obtain ⟨ht, hv⟩ := hs.ticks t ts hts
    simp only
    split
    · exact Acts.pure trivial
    · exact (macts_syncSide _ ht (hv.get _) hx).bind fun a ha => (macts_syncSide _ ht (hv.get _) hy).bind fun b hb =>
        macts_saveTick ht ((hv.set _ ha).set _ hb)

theorem withPlaced_ok {b : Orderbook} (hb : BookOk b) {tick : Int} (h : TickOk tick) (d : Dir) : BookOk (b.withPlaced tick d) := by
  cases d <;> (unfold Orderbook.withPlaced; simp only; split_ifs)
  · exact ⟨hb.1, h, hb.2.2⟩
  · exact hb
  · exact ⟨hb.1, hb.2.1, h⟩
  · exact hb

theorem macts_place {env : Env} {info : MessageInfo} {tick : Int} {dir : Dir} {q : Nat} {cb : Option Nat} (h : TickOk tick)
    (hq : AmountOk q) (hcb : ∀ b ∈ cb, DecOk b) (ht : IdOk env.time)
    (ha : AddrOk info.sender) : MActs (fun _ => True) (placeLimit env info tick dir q cb) := by
  unfold placeLimit
  refine macts_loadOrderbook.bind fun b hb => Acts.ensure.bind fun _ _ => Acts.ensure.bind fun _ _ => Acts.ensure.bind fun _ _ =>
    Acts.lift.bind fun _ _ => Acts.ensure.bind fun _ _ => macts_newOrderId.bind fun i hi => (macts_saveOrderbook (withPlaced_ok hb h dir)).bind fun _ _ =>
    Acts.get.bind fun s hs => Acts.lift.bind fun _ _ => Acts.bind (macts_saveOrder ?_) fun _ _ => Acts.lift.bind fun tal htal =>
    Acts.lift.bind fun _ _ => Acts.lift.bind fun ctv hctv => (macts_saveTick h ?_).bind fun _ _ => (macts_addLiq _ _).bind fun _ _ => Acts.pure trivial
  · exact ⟨h, hi, h, hi, ha, hq, ((tickGet_ok hs tick).get dir).2.1, hcb, hq, ht⟩
  · have hv := (tickGet_ok hs tick).get dir
    exact (tickGet_ok hs tick).set dir ⟨add_dec htal, add_dec hctv, hv.2.2.1, hv.2.2.2.1, hv.2.2.2.2⟩

theorem macts_cancel {env : Env} {info : MessageInfo} {tick : Int} {id : Nat} : MActs (fun _ => True) (cancelLimit env info tick id) := by
  unfold cancelLimit
  refine Acts.lift.bind fun _ _ => Acts.get.bind fun s hs => ?_
  split
  · exact Acts.fail _
  · next o ho =>
    obtain ⟨h1, h2, h3, h4, h5, h6, h7, -⟩ := hs.orders _ _ ho
    have hv := tickGet_ok hs tick
    refine Acts.ensure.bind fun _ _ => (macts_syncTick (hv.get .bid).2.2.1 (hv.get .ask).2.2.1).bind fun _ _ => Acts.get.bind fun s' hs' =>
      Acts.ensure.bind fun _ _ =>
      (macts_liftTree (tacts_getOrInit _ h1)).bind fun tree htree => (macts_liftTree (tacts_generate h3)).bind fun nid hnid =>
      Acts.get.bind fun s'' hs'' => ?_
    split
    · exact Acts.fail _
    · next ts hts =>
      obtain ⟨-, hts'⟩ := hs''.ticks _ _ hts
      have hcv := hts'.get o.dir
      refine Acts.lift.bind fun qd hqd => (macts_liftTree (tacts_insert htree ?_)).bind fun tr htr => macts_loadOrderbook.bind fun _ _ =>
        (macts_removeOrder ⟨h3, h4⟩).bind fun _ _ => Acts.lift.bind fun _ _ => Acts.lift.bind fun tal htal => (macts_saveTick h3 ?_).bind fun _ _ =>
        (macts_subLiq _ _).bind fun _ _ => (macts_liftTree (tacts_save htr)).bind fun _ _ => Acts.pure trivial
      · exact ⟨h3, hnid, none_ok, none_ok, none_ok, ratio_dec hqd, h7⟩
      · exact hts'.set o.dir ⟨sub_dec htal hcv.1, hcv.2⟩

theorem macts_claimOrder {sender : Addr} {tick : Int} {id : Nat} : MActs (fun _ => True) (claimOrder sender tick id) := by
  unfold claimOrder
  refine macts_loadOrderbook.bind fun b _ => Acts.get.bind fun s hs => ?_
  split
  · exact Acts.fail _
  · next ts hts =>
    obtain ⟨-, hv⟩ := hs.ticks _ _ hts
    split
    · exact Acts.fail _
    · next o ho =>
      obtain ⟨h1, h2, h3, h4, h5, h6, h7, h8⟩ := hs.orders _ _ ho
      refine (macts_syncTick (hv.get .bid).2.2.1 (hv.get .ask).2.2.1).bind fun _ _ => Acts.get.bind fun s' hs' => ?_
      split
      · exact Acts.fail _
      · refine Acts.ensure.bind fun _ _ => Acts.lift.bind fun _ _ => Acts.lift.bind fun _ _ => Acts.lift.bind fun _ _ =>
          Acts.lift.bind fun q hq => Acts.lift.bind fun e he => ?_
        simp only
        split
        all_goals
          first
          | refine (macts_removeOrder ⟨h1, h2⟩).bind fun _ _ => ?_
          | refine Acts.bind (macts_saveOrder (show _ ∧ _ from ⟨h1, h2, h3, h4, h5, sub_amount hq h6, add_dec he, h8⟩)) fun _ _ => ?_
          refine Acts.lift.bind fun _ _ => Acts.lift.bind fun _ _ => Acts.lift.bind fun p _ => ?_
          obtain ⟨bo, am⟩ := p
          refine Acts.get.bind fun s'' hs'' => Acts.lift.bind fun p _ => ?_
          obtain ⟨fe, am'⟩ := p
          simp only
          split
          · exact Acts.pure trivial
          · split
            · exact Acts.fail _
            · exact Acts.pure trivial

theorem macts_claim {env : Env} {info : MessageInfo} {tick : Int} {id : Nat} : MActs (fun _ => True) (claimLimit env info tick id) := by
  unfold claimLimit
  refine Acts.lift.bind fun _ _ => macts_claimOrder.bind fun p _ => ?_
  obtain ⟨a, ms, o⟩ := p
  exact macts_loadOrderbook.bind fun _ _ => Acts.pure trivial

theorem macts_batchLoop {sender : Addr} {b : Orderbook} {l : List (Int × Nat)} : MActs (fun _ => True) (batchLoop sender b l) := by
  induction l with
  | nil => exact Acts.pure trivial
  | cons p l ih =>
    obtain ⟨t, i⟩ := p
    intro s hs
    obtain ⟨ws, h1, h2, h3, h4⟩ := macts_claimOrder (sender := sender) (tick := t) (id := i) s hs
    unfold batchLoop
    cases hc : claimOrder sender t i s with
    | ok a s' =>
      obtain ⟨am, ms, o⟩ := a
      rw [hc] at h2 h3
      obtain ⟨ws', g1, g2, g3, g4⟩ := Acts.bind (Q := fun _ => True) ih (f := fun p => (do
        let (ms', es) := p
        pure (ms ++ ms', claimedEvent sender o am (b.expectedDenom o.dir) (b.oppositeDenom o.dir) :: es) : M (List SendMsg × List Event)))
        (fun _ _ => Acts.pure trivial) s' h3
      refine ⟨ws ++ ws', fun w hw => ?_, ?_, g3, fun _ _ _ => trivial⟩
      · rcases List.mem_append.1 hw with h | h
        · exact h1 w h
        · exact g1 w h
      · rw [List.foldl_append]
        have : s' = ws.foldl Write.apply s := h2
        rw [← this]; exact g2
    | err e s' =>
      rw [hc] at h2 h3
      have hcont : ∃ ws : List Write, (∀ w ∈ ws, w.Ok) ∧ (batchLoop sender b l s').st = ws.foldl Write.apply s ∧ StOk (batchLoop sender b l s').st ∧
          ∀ a s'', batchLoop sender b l s' = .ok a s'' → True := by
        obtain ⟨ws', g1, g2, g3, g4⟩ := ih s' h3
        refine ⟨ws ++ ws', fun w hw => ?_, ?_, g3, fun _ _ _ => trivial⟩
        · rcases List.mem_append.1 hw with h | h
          · exact h1 w h
          · exact g1 w h
        · rw [List.foldl_append]
          have : s' = ws.foldl Write.apply s := h2
          rw [← this]; exact g2
      cases e <;> first | exact hcont | exact ⟨ws, h1, h2, h3, fun _ _ e => by cases e⟩

theorem macts_batch {env : Env} {info : MessageInfo} {l : List (Int × Nat)} : MActs (fun _ => True) (batchClaimLimits info env l) := by
  unfold batchClaimLimits
  refine Acts.lift.bind fun _ _ => Acts.ensure.bind fun _ _ => macts_loadOrderbook.bind fun _ _ => macts_batchLoop.bind fun p _ => ?_
  obtain ⟨a, b⟩ := p
  exact Acts.pure trivial

theorem macts_saveTicks {l : List (Int × TickState)} (h : ∀ p ∈ l, TickOk p.1 ∧ TickStateOk p.2) : MActs (fun _ => True) (saveTicks l) := by
  induction l with
  | nil => exact Acts.pure trivial
  | cons p l ih =>
    obtain ⟨t, ts⟩ := p
    unfold saveTicks
    have hp := h (t, ts) (by simp)
    exact (macts_saveTick hp.1 hp.2).bind fun _ _ => ih fun p hp => h p (by simp [hp])

theorem setNext_ok {b : Orderbook} (hb : BookOk b) {tick : Int} (h : TickOk tick) (d : Dir) : BookOk (b.setNext d tick) := by
  cases d
  · exact ⟨hb.1, h, hb.2.2⟩
  · exact ⟨hb.1, hb.2.1, h⟩

theorem marketLoop_ticks {s : Store} (hs : StOk s) {dir : Dir} {l : List Int} {st st' : LoopSt}
    (h : marketLoop s dir l st = .ok st') (hst : (∀ p ∈ st.tickUpdates, TickOk p.1 ∧ TickStateOk p.2) ∧ BookOk st.orderbook) :
    (∀ p ∈ st'.tickUpdates, TickOk p.1 ∧ TickStateOk p.2) ∧ BookOk st'.orderbook := by
  induction l generalizing st with
  | nil => cases h; exact hst
  | cons t l ih =>
    rw [marketLoop] at h
    split at h
    · cases h
    · next ts hts =>
      obtain ⟨ht, hv⟩ := hs.ticks t ts hts
      have hv' := hv.get dir.opposite
      simp only at h
      split at h
      · exact ih h hst
      · simp only [Except.bind_eq_ok'] at h
        obtain ⟨pr, _, out, _, h⟩ := h
        split at h
        · cases h; exact hst
        · simp only [Except.bind_eq_ok'] at h
          obtain ⟨_, _, _, htal, _, hetas, _, _, _, _, h⟩ := h
          split at h
          · cases h
          · simp only [Except.bind_eq_ok'] at h
            obtain ⟨_, _, _, _, _, _, h⟩ := h
            refine ih h ⟨?_, setNext_ok hst.2 ht _⟩
            intro p hp
            simp only [List.mem_append, List.mem_singleton] at hp
            rcases hp with hp | rfl
            · exact hst.1 p hp
            · exact ⟨ht, hv.set _ ⟨sub_dec htal hv'.1, hv'.2.1, add_dec hetas, hv'.2.2.2⟩⟩

theorem marketInternal_ticks {s : Store} (hs : StOk s) {o : MarketOrder} {bound : Int} {post : PostMarketOrder}
    (h : runMarketOrderInternal s o bound = .ok post) :
    (∀ p ∈ post.tickUpdates, TickOk p.1 ∧ TickStateOk p.2) ∧ BookOk post.updatedOrderbook := by
  unfold runMarketOrderInternal at h
  split at h
  · cases h
  · split at h
    · cases h
    · next ob hob =>
      simp only at h
      split at h
      · cases h
      · simp only [Except.bind_eq_ok'] at h
        obtain ⟨ticks, _, st, hst, _, _, h⟩ := h
        split at h
        all_goals
          split at h
          · cases h
            exact marketLoop_ticks hs hst ⟨by simp, hs.book ob hob⟩
          · cases h

theorem macts_market {o : MarketOrder} {bound : Int} : MActs (fun _ => True) (runMarketOrder o bound) := by
  unfold runMarketOrder
  refine Acts.get.bind fun s hs => Acts.lift.bind fun post hp => (macts_saveTicks (marketInternal_ticks hs hp).1).bind fun _ _ =>
    Acts.lift.bind fun _ _ => (macts_subLiq _ _).bind fun _ _ => (macts_saveOrderbook (marketInternal_ticks hs hp).2).bind fun _ _ => Acts.pure trivial

theorem macts_item {g : Store → Store} (w : Write) (hw : w.Ok) (h : ∀ s, g s = w.apply s)
    (hi : ∀ s, StOk s → StOk (g s)) : MActs (fun _ => True) (EM.modify g) := Acts.modify (fun _ => w) (fun _ _ => hw) (fun s _ => h s) hi

theorem macts_setActive (b : Bool) : MActs (fun _ => True) (setActive b) := by
  unfold setActive
  exact (macts_item (.isActive b) trivial (fun _ => rfl) (fun _ h => ⟨h.trees, h.orders, h.ticks, h.orderId, h.book, h.liq, h.fee⟩)).bind fun _ _ => Acts.pure trivial

theorem macts_admin (a : Option Addr) : MActs (fun _ => True) (EM.modify fun s => { s with admin := a }) :=
  macts_item (.admin a) trivial (fun _ => rfl) (fun _ h => ⟨h.trees, h.orders, h.ticks, h.orderId, h.book, h.liq, h.fee⟩)
theorem macts_adminOffer (a : Option Addr) : MActs (fun _ => True) (EM.modify fun s => { s with adminOffer := a }) :=
  macts_item (.adminOffer a) trivial (fun _ => rfl) (fun _ h => ⟨h.trees, h.orders, h.ticks, h.orderId, h.book, h.liq, h.fee⟩)
theorem macts_moderator (a : Option Addr) : MActs (fun _ => True) (EM.modify fun s => { s with moderator := a }) :=
  macts_item (.moderator a) trivial (fun _ => rfl) (fun _ h => ⟨h.trees, h.orders, h.ticks, h.orderId, h.book, h.liq, h.fee⟩)
theorem macts_moderatorOffer (a : Option Addr) : MActs (fun _ => True) (EM.modify fun s => { s with moderatorOffer := a }) :=
  macts_item (.moderatorOffer a) trivial (fun _ => rfl) (fun _ h => ⟨h.trees, h.orders, h.ticks, h.orderId, h.book, h.liq, h.fee⟩)
theorem macts_setMakerFee (x : Nat) : MActs (fun _ => True) (setMakerFee x) := by
  unfold setMakerFee
  refine Acts.ensure.bind fun _ hx => ?_
  have h : DecOk x := by
    have hle := of_decide_eq_true hx
    unfold DecOk
    exact Nat.lt_of_le_of_lt hle (by unfold U256; decide +kernel)
  exact (macts_item (.makerFee x) h (fun _ => rfl) (fun _ hs => ⟨hs.trees, hs.orders, hs.ticks, hs.orderId, hs.book, hs.liq, fun y hy => by
    cases hy; exact h⟩)).bind fun _ _ => Acts.pure trivial
theorem macts_setRecipient (env : Env) (a : Addr) : MActs (fun _ => True) (setMakerFeeRecipient env a) := by
  unfold setMakerFeeRecipient
  exact Acts.ensure.bind fun _ _ => macts_item (.makerFeeRecipient a) trivial (fun _ => rfl) (fun _ h => ⟨h.trees, h.orders, h.ticks, h.orderId, h.book, h.liq, h.fee⟩)
theorem macts_updateAdmin (env : Env) (a : Addr) : MActs (fun _ => True) (updateAdmin env a) := by
  unfold updateAdmin
  exact Acts.ensure.bind fun _ _ => macts_admin _

theorem macts_auth {env : Env} {info : MessageInfo} {m : AuthMsg} : MActs (fun _ => True) (authDispatch env info m) := by
  have hadm : MActs (fun _ => True) (ensureIsAdmin info.sender) := by
    unfold ensureIsAdmin
    exact Acts.get.bind fun _ _ => Acts.ensure.mono fun _ _ => trivial
  have hmod : MActs (fun _ => True) (ensureIsAdminOrModerator info.sender) := by
    unfold ensureIsAdminOrModerator
    exact Acts.get.bind fun _ _ => Acts.ensure.mono fun _ _ => trivial
  unfold authDispatch
  split
  · refine hadm.bind fun _ _ => Acts.bind (P := fun _ => True) ?_ fun _ _ => Acts.pure trivial
    unfold offerAdmin
    exact Acts.ensure.bind fun _ _ => macts_adminOffer _
  · exact hadm.bind fun _ _ => (macts_adminOffer none).bind fun _ _ => Acts.pure trivial
  · exact Acts.get.bind fun _ _ => Acts.ensure.bind fun _ _ => (macts_adminOffer none).bind fun _ _ => Acts.pure trivial
  · exact Acts.get.bind fun _ _ => Acts.ensure.bind fun _ _ => (macts_updateAdmin _ _).bind fun _ _ => (macts_adminOffer none).bind fun _ _ => Acts.pure trivial
  · exact hadm.bind fun _ _ => (macts_admin none).bind fun _ _ => Acts.pure trivial
  · refine hadm.bind fun _ _ => Acts.bind (P := fun _ => True) ?_ fun _ _ => Acts.pure trivial
    unfold offerModerator
    exact Acts.ensure.bind fun _ _ => macts_moderatorOffer _
  · exact Acts.get.bind fun _ _ => Acts.ensure.bind fun _ _ => (macts_moderatorOffer none).bind fun _ _ => Acts.pure trivial
  · refine Acts.get.bind fun _ _ => Acts.ensure.bind fun _ _ => Acts.bind (P := fun _ => True) ?_ fun _ _ => (macts_moderatorOffer none).bind fun _ _ => Acts.pure trivial
    unfold updateModerator
    exact Acts.ensure.bind fun _ _ => macts_moderator _
  · exact hmod.bind fun _ _ => macts_setActive _
  · exact hadm.bind fun _ _ => (macts_setMakerFee _).bind fun _ _ => Acts.pure trivial
  · exact hadm.bind fun _ _ => (macts_setRecipient _ _).bind fun _ _ => Acts.pure trivial

theorem macts_ensureActive : MActs (fun _ => True) ensureIsActive := by
  unfold ensureIsActive
  exact Acts.get.bind fun _ _ => Acts.ensure.mono fun _ _ => trivial

theorem macts_execute {env : Env} {info : MessageInfo} {m : ExecuteMsg} (hm : m.wellTyped = true) (ha : AddrOk info.sender) (ht : IdOk env.time) :
    MActs (fun _ => True) (execute env info m) := by
  unfold execute
  refine Acts.bind (P := fun _ => True) ?_ fun _ _ => ?_
  · unfold activeGate
    split
    · exact Acts.pure trivial
    · exact macts_ensureActive
  · split
    · next tick dir q cb =>
      simp only [ExecuteMsg.wellTyped, Bool.and_eq_true, i64Ok, decide_eq_true_eq] at hm
      refine macts_place ?_ ?_ ?_ ht ha
      · unfold TickOk; exact hm.1.1
      · unfold AmountOk; exact hm.1.2
      · intro b hb
        cases hb
        unfold DecOk; exact of_decide_eq_true hm.2
    · exact macts_cancel
    · exact macts_claim
    · exact macts_batch
    · exact macts_auth

theorem macts_sudo {env : Env} {m : SudoMsg} : MActs (fun _ => True) («sudo» env m) := by
  have hswap : ∀ sender tokenIn out mn fee tgt, MActs (fun _ => True) (dispatchSwapExactAmountIn env sender tokenIn out mn fee tgt) := by
    intro sender tokenIn out mn fee tgt
    unfold dispatchSwapExactAmountIn
    refine Acts.lift.bind fun _ _ => Acts.ensure.bind fun _ _ => macts_loadOrderbook.bind fun _ _ => Acts.lift.bind fun _ _ =>
      Acts.ensure.bind fun _ _ => macts_market.bind fun p _ => ?_
    obtain ⟨a, b⟩ := p
    exact Acts.lift.bind fun _ _ => Acts.pure trivial
  unfold «sudo»
  refine macts_ensureActive.bind fun _ _ => ?_
  split
  · exact hswap _ _ _ _ _ _
  · exact hswap _ _ _ _ _ _
  · exact Acts.fail _
  · exact (macts_updateAdmin _ _).bind fun _ _ => Acts.pure trivial
  · exact (macts_admin none).bind fun _ _ => Acts.pure trivial
  · exact macts_setActive _

theorem newBook_ok {quote base : Denom} : BookOk ⟨quote, base, 0, MIN_TICK, MAX_TICK⟩ := by
  have h : TickOk 0 ∧ TickOk MIN_TICK ∧ TickOk MAX_TICK := by
    unfold TickOk MIN_TICK MAX_TICK
    exact ⟨by decide, by decide, by decide⟩
  exact h

theorem macts_instantiate {env : Env} {supply : Denom → Nat} {quote base : Denom} : MActs (fun _ => True) (instantiate env supply quote base) := by
  unfold instantiate
  refine Acts.ensure.bind fun _ _ => (macts_admin _).bind fun _ _ => Acts.ensure.bind fun _ _ => (macts_moderator _).bind fun _ _ =>
    Acts.bind (P := fun _ => True) ?_ fun _ _ => Acts.pure trivial
  unfold createOrderbook
  exact Acts.ensure.bind fun _ _ => Acts.ensure.bind fun _ _ => Acts.ensure.bind fun _ _ => (macts_saveOrderbook newBook_ok).bind fun _ _ =>
    (macts_setMakerFee _).bind fun _ _ => macts_setRecipient _ _

end OB
