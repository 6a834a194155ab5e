import Verif.Model.Delete
import Verif.SpecDelete
import Verif.Proofs.TreeObs
/- Deleting nodes of a sumtree. -/
namespace OB
open Spec

variable {st st' : TreeSt} {tick : Int} {dir : Dir}

theorem Spec.Bough.key_mem {par : Option Nat} {k h : Nat} {L : List (Nat × Nat)} {ks : List Nat} (hb : Bough st tick dir par k h L ks) : k ∈ ks := by
  cases hb <;> simp

theorem Spec.Bough.congr {par : Option Nat} {k h : Nat} {L : List (Nat × Nat)} {ks : List Nat} (hb : Bough st tick dir par k h L ks)
    (hN : ∀ j ∈ ks, st'.nodes tick j = st.nodes tick j) : Bough st' tick dir par k h L ks := by
  induction hb with
  | leaf h1 => exact .leaf (by rw [hN _ (by simp)]; exact h1)
  | left h1 h2 _ ih => exact .left (by rw [hN _ (by simp)]; exact h1) h2 (ih fun j hj => hN j (by simp [hj]))
  | right h1 h2 _ ih => exact .right (by rw [hN _ (by simp)]; exact h1) h2 (ih fun j hj => hN j (by simp [hj]))
  | both h1 h2 _ _ ih1 ih2 =>
    exact .both (by rw [hN _ (by simp)]; exact h1) h2 (ih1 fun j hj => hN j (by simp [hj])) (ih2 fun j hj => hN j (by simp [hj]))

theorem Spec.Bough.height_le {par : Option Nat} {k h : Nat} {L : List (Nat × Nat)} {ks : List Nat} (hb : Bough st tick dir par k h L ks) :
    1 ≤ h ∧ h ≤ ks.length := by
  induction hb with
  | leaf h1 => simp
  | left h1 h2 _ ih => simp; omega
  | right h1 h2 _ ih => simp; omega
  | both h1 h2 _ _ ih1 ih2 => simp; omega

/-- What a parent reads of a child. -/
theorem Spec.Bough.read {par : Option Nat} {k h : Nat} {L : List (Nat × Nat)} {ks : List Nat} (hb : Bough st tick dir par k h L ks)
    (hle : ∀ x ∈ L, x.1 + x.2 < 2 ^ 256) : ∃ n mn mx, st.nodes tick k = some n ∧ n.getMinRange = mn ∧ n.getMaxRange = .ok mx ∧
      n.getValue = totalOf L ∧ n.getWeight = h ∧ RangeOf L mn mx ∧ n.parent = par ∧ n.key = k ∧ n.tickId = tick := by
  cases hb with
  | @leaf _ _ e v h1 =>
    refine ⟨_, e, e + v, h1, rfl, ?_, by simp [TreeNode.getValue, totalOf], rfl, ?_, rfl, rfl, rfl⟩
    · have h2 : v + e < U256 := by
        have := hle (e, v) (by simp)
        unfold U256; omega
      show (match checkedAdd v e with | .ok x => _ | .error _ => _) = _
      rw [checkedAdd_ok h2, Nat.add_comm]
    · simp [RangeOf]
  | @left _ _ l h mn mx _ _ h1 h2 h3 => exact ⟨_, mn, mx, h1, rfl, rfl, rfl, rfl, h2, rfl, rfl, rfl⟩
  | @right _ _ l h mn mx _ _ h1 h2 h3 => exact ⟨_, mn, mx, h1, rfl, rfl, rfl, rfl, h2, rfl, rfl, rfl⟩
  | @both _ _ l r hl hr mn mx _ _ _ _ h1 h2 h3 h4 => exact ⟨_, mn, mx, h1, rfl, rfl, rfl, rfl, h2, rfl, rfl, rfl⟩

theorem RangeOf.append {L M : List (Nat × Nat)} {a b c d : Nat} (h : RangeOf L a b) (g : RangeOf M c d) : RangeOf (L ++ M) (min a c) (max b d) := by
  obtain ⟨⟨x, hx, ex⟩, ⟨y, hy, ey⟩, h3⟩ := h
  obtain ⟨⟨z, hz, ez⟩, ⟨u, hu, eu⟩, g3⟩ := g
  refine ⟨?_, ?_, ?_⟩
  · rcases Nat.le_total a c with hc | hc
    · exact ⟨x, by simp [hx], by omega⟩
    · exact ⟨z, by simp [hz], by omega⟩
  · rcases Nat.le_total b d with hc | hc
    · exact ⟨u, by simp [hu], by omega⟩
    · exact ⟨y, by simp [hy], by omega⟩
  · intro w hw
    rcases List.mem_append.1 hw with hw | hw
    · have := h3 w hw; omega
    · have := g3 w hw; omega

/-- The children of node `p` (at least one). -/
inductive Kids (st : TreeSt) (tick : Int) (dir : Dir) (p : Nat) : Option Nat → Option Nat → Nat → List (Nat × Nat) → List Nat → Prop
  | left {l h : Nat} {L : List (Nat × Nat)} {ks : List Nat} : Bough st tick dir (some p) l h L ks → Kids st tick dir p (some l) none h L ks
  | right {r h : Nat} {L : List (Nat × Nat)} {ks : List Nat} : Bough st tick dir (some p) r h L ks → Kids st tick dir p none (some r) h L ks
  | both {l r hl hr : Nat} {Ll Lr : List (Nat × Nat)} {kl kr : List Nat} : Bough st tick dir (some p) l hl Ll kl →
      Bough st tick dir (some p) r hr Lr kr → Kids st tick dir p (some l) (some r) (max hl hr) (Ll ++ Lr) (kl ++ kr)

theorem Kids.congr {p : Nat} {l r : Option Nat} {h : Nat} {L : List (Nat × Nat)} {ks : List Nat} (hk : Kids st tick dir p l r h L ks)
    (hN : ∀ j ∈ ks, st'.nodes tick j = st.nodes tick j) : Kids st' tick dir p l r h L ks := by
  cases hk with
  | left h1 => exact .left (h1.congr hN)
  | right h1 => exact .right (h1.congr hN)
  | both h1 h2 => exact .both (h1.congr fun j hj => hN j (by simp [hj])) (h2.congr fun j hj => hN j (by simp [hj]))

theorem Kids.bough {p : Nat} {par l r : Option Nat} {h mn mx : Nat} {L : List (Nat × Nat)} {ks : List Nat} (hk : Kids st tick dir p l r h L ks)
    (hn : st.nodes tick p = some ⟨p, tick, dir, l, r, par, .internal (totalOf L) mn mx (h + 1)⟩) (hr : RangeOf L mn mx) :
    Bough st tick dir par p (h + 1) L (p :: ks) := by
  cases hk with
  | left h1 => exact .left hn hr h1
  | right h1 => exact .right hn hr h1
  | both h1 h2 => exact .both hn hr h1 h2

theorem Kids.height_le {p : Nat} {l r : Option Nat} {h : Nat} {L : List (Nat × Nat)} {ks : List Nat} (hk : Kids st tick dir p l r h L ks) :
    1 ≤ h ∧ h ≤ ks.length := by
  cases hk with
  | left h1 => exact h1.height_le
  | right h1 => exact h1.height_le
  | both h1 h2 =>
    have := h1.height_le; have := h2.height_le
    simp; omega

theorem Kids.syncNode {p : Nat} {par l r : Option Nat} {h a b c d : Nat} {L : List (Nat × Nat)} {ks : List Nat} (hk : Kids st tick dir p l r h L ks)
    (hle : ∀ x ∈ L, x.1 + x.2 < 2 ^ 256) (htot : totalOf L < 2 ^ 256) (hlen : h + 1 < 2 ^ 64) :
    ∃ mn mx, RangeOf L mn mx ∧ TreeNode.syncRangeAndValue ⟨p, tick, dir, l, r, par, .internal a b c d⟩ st =
      .ok ⟨p, tick, dir, l, r, par, .internal (totalOf L) mn mx (h + 1)⟩
        (st.setNode tick p ⟨p, tick, dir, l, r, par, .internal (totalOf L) mn mx (h + 1)⟩) := by
  have hu : h + 1 < U64 := by unfold U64; omega
  cases hk with
  | left h1 =>
    obtain ⟨n, mn, mx, g1, g2, g3, g4, g5, g6, -⟩ := h1.read hle
    refine ⟨mn, mx, g6, ?_⟩
    have hv : totalOf L + 0 < U256 := by unfold U256; omega
    unfold TreeNode.syncRangeAndValue
    simp [TreeNode.isInternal, TreeNode.getLeft, TreeNode.getRight, TreeNode.hasChild, g1, g2, g3, g4, g5,
      TreeNode.setMinRange, TreeNode.setMaxRange, TreeNode.setValue, TreeNode.setWeight, checkedAdd_ok hv, u64Succ_ok hu]
  | right h1 =>
    obtain ⟨n, mn, mx, g1, g2, g3, g4, g5, g6, -⟩ := h1.read hle
    refine ⟨mn, mx, g6, ?_⟩
    have hv : 0 + totalOf L < U256 := by unfold U256; omega
    unfold TreeNode.syncRangeAndValue
    simp [TreeNode.isInternal, TreeNode.getLeft, TreeNode.getRight, TreeNode.hasChild, g1, g2, g3, g4, g5,
      TreeNode.setMinRange, TreeNode.setMaxRange, TreeNode.setValue, TreeNode.setWeight, checkedAdd_ok hv, u64Succ_ok hu]
  | @both l r hl hr Ll Lr kl kr h1 h2 =>
    obtain ⟨n, mn, mx, g1, g2, g3, g4, g5, g6, -⟩ := h1.read fun x hx => hle x (by simp [hx])
    obtain ⟨n', mn', mx', f1, f2, f3, f4, f5, f6, -⟩ := h2.read fun x hx => hle x (by simp [hx])
    refine ⟨min mn mn', max mx mx', RangeOf.append g6 f6, ?_⟩
    have ht : totalOf (Ll ++ Lr) = totalOf Ll + totalOf Lr := by simp [totalOf]
    have hv : totalOf Ll + totalOf Lr < U256 := by rw [← ht]; unfold U256; omega
    unfold TreeNode.syncRangeAndValue
    simp [TreeNode.isInternal, TreeNode.getLeft, TreeNode.getRight, TreeNode.hasChild, g1, g2, g3, g4, g5, f1, f2, f3, f4, f5,
      TreeNode.setMinRange, TreeNode.setMaxRange, TreeNode.setValue, TreeNode.setWeight, checkedAdd_ok hv, u64Succ_ok hu, ht]

/-- The rest of a tree around the node `k`: the inner nodes above it with their other subtrees. The sums, ranges and heights of the nodes above
are not constrained. `A`, `B`: the leaves to the left and to the right; `cs`: the ids; `rk`: the root. -/
inductive Ctx (st : TreeSt) (tick : Int) (dir : Dir) (rk : Nat) : Option Nat → Nat → List (Nat × Nat) → List (Nat × Nat) → List Nat → Prop
  | top : Ctx st tick dir rk none rk [] [] []
  | onlyL {par : Option Nat} {p k a b c d : Nat} {A B : List (Nat × Nat)} {cs : List Nat} :
      st.nodes tick p = some ⟨p, tick, dir, some k, none, par, .internal a b c d⟩ → Ctx st tick dir rk par p A B cs →
      Ctx st tick dir rk (some p) k A B (p :: cs)
  | onlyR {par : Option Nat} {p k a b c d : Nat} {A B : List (Nat × Nat)} {cs : List Nat} :
      st.nodes tick p = some ⟨p, tick, dir, none, some k, par, .internal a b c d⟩ → Ctx st tick dir rk par p A B cs →
      Ctx st tick dir rk (some p) k A B (p :: cs)
  | inL {par : Option Nat} {p k r h a b c d : Nat} {A B L : List (Nat × Nat)} {cs ks : List Nat} :
      st.nodes tick p = some ⟨p, tick, dir, some k, some r, par, .internal a b c d⟩ → Bough st tick dir (some p) r h L ks →
      Ctx st tick dir rk par p A B cs → Ctx st tick dir rk (some p) k A (L ++ B) (p :: (ks ++ cs))
  | inR {par : Option Nat} {p k l h a b c d : Nat} {A B L : List (Nat × Nat)} {cs ks : List Nat} :
      st.nodes tick p = some ⟨p, tick, dir, some l, some k, par, .internal a b c d⟩ → Bough st tick dir (some p) l h L ks →
      Ctx st tick dir rk par p A B cs → Ctx st tick dir rk (some p) k (A ++ L) B (p :: (ks ++ cs))

theorem Ctx.congr {rk k : Nat} {par : Option Nat} {A B : List (Nat × Nat)} {cs : List Nat} (hc : Ctx st tick dir rk par k A B cs)
    (hN : ∀ j ∈ cs, st'.nodes tick j = st.nodes tick j) : Ctx st' tick dir rk par k A B cs := by
  induction hc with
  | top => exact .top
  | onlyL h1 _ ih => exact .onlyL (by rw [hN _ (by simp)]; exact h1) (ih fun j hj => hN j (by simp [hj]))
  | onlyR h1 _ ih => exact .onlyR (by rw [hN _ (by simp)]; exact h1) (ih fun j hj => hN j (by simp [hj]))
  | inL h1 h2 _ ih => exact .inL (by rw [hN _ (by simp)]; exact h1) (h2.congr fun j hj => hN j (by simp [hj])) (ih fun j hj => hN j (by simp [hj]))
  | inR h1 h2 _ ih => exact .inR (by rw [hN _ (by simp)]; exact h1) (h2.congr fun j hj => hN j (by simp [hj])) (ih fun j hj => hN j (by simp [hj]))

/-- Every node of a tree has a context. -/
theorem Spec.Bough.locate {par : Option Nat} {k0 h : Nat} {L : List (Nat × Nat)} {ks : List Nat} (hb : Bough st tick dir par k0 h L ks) {rk : Nat}
    {A B : List (Nat × Nat)} {cs : List Nat} (hc : Ctx st tick dir rk par k0 A B cs) {k : Nat} (hk : k ∈ ks) :
    ∃ par' A' B' cs' h' L' ks', Ctx st tick dir rk par' k A' B' cs' ∧ Bough st tick dir par' k h' L' ks' ∧
      A ++ L ++ B = A' ++ L' ++ B' ∧ (ks' ++ cs').Perm (ks ++ cs) := by
  induction hb generalizing A B cs with
  | @leaf par k0 e v h1 =>
    obtain rfl : k = k0 := by simpa using hk
    exact ⟨_, _, _, _, _, _, _, hc, .leaf h1, rfl, .refl _⟩
  | @left par k0 l h mn mx L ks h1 h2 h3 ih =>
    rcases List.mem_cons.1 hk with rfl | hk
    · exact ⟨_, _, _, _, _, _, _, hc, .left h1 h2 h3, rfl, .refl _⟩
    · obtain ⟨par', A', B', cs', h', L', ks', g1, g2, g3, g4⟩ := ih (.onlyL h1 hc) hk
      exact ⟨par', A', B', cs', h', L', ks', g1, g2, g3, g4.trans (by simp)⟩
  | @right par k0 l h mn mx L ks h1 h2 h3 ih =>
    rcases List.mem_cons.1 hk with rfl | hk
    · exact ⟨_, _, _, _, _, _, _, hc, .right h1 h2 h3, rfl, .refl _⟩
    · obtain ⟨par', A', B', cs', h', L', ks', g1, g2, g3, g4⟩ := ih (.onlyR h1 hc) hk
      exact ⟨par', A', B', cs', h', L', ks', g1, g2, g3, g4.trans (by simp)⟩
  | @both par k0 l r hl hr mn mx Ll Lr kl kr h1 h2 h3 h4 ih1 ih2 =>
    rcases List.mem_cons.1 hk with rfl | hk
    · exact ⟨_, _, _, _, _, _, _, hc, .both h1 h2 h3 h4, rfl, .refl _⟩
    · rcases List.mem_append.1 hk with hk | hk
      · obtain ⟨par', A', B', cs', h', L', ks', g1, g2, g3, g4⟩ := ih1 (.inL h1 h4 hc) hk
        refine ⟨par', A', B', cs', h', L', ks', g1, g2, by rw [← g3]; simp, g4.trans ?_⟩
        rw [List.perm_iff_count]; intro x; simp [List.count_cons]; omega
      · obtain ⟨par', A', B', cs', h', L', ks', g1, g2, g3, g4⟩ := ih2 (.inR h1 h3 hc) hk
        refine ⟨par', A', B', cs', h', L', ks', g1, g2, by rw [← g3]; simp, g4.trans ?_⟩
        rw [List.perm_iff_count]; intro x; simp [List.count_cons]; omega

/-- What changes in storage: nodes of the tick with an id in `ks` only. -/
structure NodesOnly (st st' : TreeSt) (tick : Int) (ks : List Nat) : Prop where
  roots : st'.roots = st.roots
  counter : st'.counter = st.counter
  nodes : ∀ t j, (t = tick → j ∉ ks) → st'.nodes t j = st.nodes t j

theorem NodesOnly.trans {st1 st2 : TreeSt} {ks ks' ks'' : List Nat} (h : NodesOnly st st1 tick ks) (g : NodesOnly st1 st2 tick ks')
    (h1 : ks ⊆ ks'') (h2 : ks' ⊆ ks'') : NodesOnly st st2 tick ks'' :=
  ⟨g.roots.trans h.roots, g.counter.trans h.counter, fun t j hj =>
    (g.nodes t j fun ht hm => hj ht (h2 hm)).trans (h.nodes t j fun ht hm => hj ht (h1 hm))⟩

theorem setNode_only (n : TreeNode) (k : Nat) : NodesOnly st (st.setNode tick k n) tick [k] :=
  ⟨rfl, rfl, fun t j hj => by
    rw [TreeSt.setNode_nodes', if_neg]
    rintro ⟨h1, h2⟩
    exact hj h1 (by simp [h2])⟩

theorem totalOf_append (L M : List (Nat × Nat)) : totalOf (L ++ M) = totalOf L + totalOf M := by simp [totalOf]

theorem Kids.up_one {p : Nat} {par l r : Option Nat} {h a b c d : Nat} {L : List (Nat × Nat)} {ks : List Nat} (hk : Kids st tick dir p l r h L ks)
    (hp : p ∉ ks) (hle : ∀ x ∈ L, x.1 + x.2 < 2 ^ 256) (htot : totalOf L < 2 ^ 256) (hlen : ks.length + 1 < 2 ^ 64) :
    ∃ self st1, TreeNode.syncRangeAndValue ⟨p, tick, dir, l, r, par, .internal a b c d⟩ st = .ok self st1 ∧ self.parent = par ∧ self.tickId = tick ∧
      NodesOnly st st1 tick [p] ∧ 2 ≤ h + 1 ∧ Bough st1 tick dir par p (h + 1) L (p :: ks) := by
  obtain ⟨mn, mx, g1, g2⟩ := hk.syncNode (par := par) (a := a) (b := b) (c := c) (d := d) hle htot (by have := hk.height_le; omega)
  refine ⟨_, _, g2, rfl, rfl, setNode_only _ _, by have := hk.height_le; omega, ?_⟩
  refine (hk.congr ?_).bough (par := par) (TreeSt.setNode_self _ _ _ _) g1
  intro j hj
  exact TreeSt.setNode_ne _ _ _ _ _ (fun e => hp (e ▸ hj))

theorem syncUp_top {n self : TreeNode} {st1 : TreeSt} (h : n.syncRangeAndValue st = .ok self st1) (hp : self.parent = none) (fuel : Nat) :
    TreeNode.syncRangeAndValueUp (fuel + 1) n st = .ok self st1 := by
  rw [TreeNode.syncRangeAndValueUp.eq_def]
  simp only
  rw [EM.bind_ok_of h, EM.get_bind]
  unfold TreeNode.getParent
  rw [hp]; rfl

theorem syncUp_next {n self p m : TreeNode} {st1 st2 : TreeSt} {k fuel : Nat} (h : n.syncRangeAndValue st = .ok self st1) (hp : self.parent = some k)
    (hs : st1.nodes self.tickId k = some p) (hu : TreeNode.syncRangeAndValueUp fuel p st1 = .ok m st2) :
    TreeNode.syncRangeAndValueUp (fuel + 1) n st = .ok self st2 := by
  rw [TreeNode.syncRangeAndValueUp.eq_def]
  simp only
  rw [EM.bind_ok_of h, EM.get_bind]
  unfold TreeNode.getParent
  rw [hp]; simp only; rw [hs]; simp only
  rw [EM.bind_ok_of hu]; rfl

/-- Outcome of `sync_range_and_value_up` from the node `n` with id `p`. -/
def UpOk (st : TreeSt) (tick : Int) (dir : Dir) (rk : Nat) (n : TreeNode) (p : Nat) (cs ids : List Nat) (X : List (Nat × Nat)) : Prop :=
  ∃ st1 h' ks', (∀ fuel, cs.length + 1 ≤ fuel → ∃ m, TreeNode.syncRangeAndValueUp fuel n st = .ok m st1) ∧
    NodesOnly st st1 tick (p :: cs) ∧ 2 ≤ h' ∧ Bough st1 tick dir none rk h' X ks' ∧ ks'.Perm ids

theorem UpOk.next {rk p q : Nat} {n self pn : TreeNode} {cs cs' ids ids' : List Nat} {X X' : List (Nat × Nat)} {st1 : TreeSt}
    (g1 : n.syncRangeAndValue st = .ok self st1) (g2 : self.parent = some q) (g3 : self.tickId = tick) (g4 : NodesOnly st st1 tick [p])
    (hq : st1.nodes tick q = some pn) (h : UpOk st1 tick dir rk pn q cs' ids' X') (hlt : cs'.length < cs.length) (hqc : q ∈ cs)
    (hsub : cs' ⊆ cs) (hids : ids'.Perm ids) (hX : X' = X) : UpOk st tick dir rk n p cs ids X := by
  subst hX
  obtain ⟨st2, hh, ks', e1, e2, e3, e4, e5⟩ := h
  refine ⟨st2, hh, ks', ?_, g4.trans e2 (by simp) ?_, e3, e4, e5.trans hids⟩
  · intro fuel hf
    obtain ⟨f, rfl⟩ : ∃ f, fuel = f + 1 := ⟨fuel - 1, by omega⟩
    obtain ⟨m, hm⟩ := e1 f (by omega)
    exact ⟨_, syncUp_next g1 g2 (by rw [g3]; exact hq) hm⟩
  · intro j hj
    rcases List.mem_cons.1 hj with rfl | hj
    · simp [hqc]
    · simp [hsub hj]

theorem perm_of_count {l m : List Nat} (h : ∀ x, l.count x = m.count x) : l.Perm m := List.perm_iff_count.2 h

/-- `sync_range_and_value_up` from a node with up-to-date children repairs the whole tree. -/
theorem Ctx.syncUp {rk p : Nat} {par : Option Nat} {A B : List (Nat × Nat)} {cs : List Nat} (hc : Ctx st' tick dir rk par p A B cs)
    (hsame : ∀ j ∈ cs, st.nodes tick j = st'.nodes tick j)
    {l r : Option Nat} {h a b c d : Nat} {L : List (Nat × Nat)} {ks : List Nat} (hk : Kids st tick dir p l r h L ks)
    (hnd : (p :: (ks ++ cs)).Nodup) (hle : ∀ x ∈ A ++ L ++ B, x.1 + x.2 < 2 ^ 256) (htot : totalOf (A ++ L ++ B) < 2 ^ 256)
    (hlen : (p :: (ks ++ cs)).length < 2 ^ 64) :
    UpOk st tick dir rk ⟨p, tick, dir, l, r, par, .internal a b c d⟩ p cs (p :: (ks ++ cs)) (A ++ L ++ B) := by
  induction hc generalizing st l r h a b c d L ks with
  | top =>
    obtain ⟨self, st1, g1, g2, g3, g4, g5, g6⟩ := hk.up_one (par := none) (a := a) (b := b) (c := c) (d := d)
      (by simpa using (List.nodup_cons.1 hnd).1) (fun x hx => hle x (by simp [hx])) (by simp only [totalOf_append] at htot; omega) (by simp at hlen; omega)
    refine ⟨st1, h + 1, _, ?_, g4, g5, by simpa using g6, by simp⟩
    intro fuel hf
    obtain ⟨f, rfl⟩ : ∃ f, fuel = f + 1 := ⟨fuel - 1, by omega⟩
    exact ⟨_, syncUp_top g1 g2 f⟩
  | @onlyL par q k a' b' c' d' A B cs h1 hc ih =>
    have hps : k ∉ ks ∧ k ∉ q :: cs := by simpa [not_or] using (List.nodup_cons.1 hnd).1
    obtain ⟨self, st1, g1, g2, g3, g4, g5, g6⟩ := hk.up_one (par := some q) (a := a) (b := b) (c := c) (d := d) hps.1
      (fun x hx => hle x (by simp [hx])) (by simp only [totalOf_append] at htot; omega) (by simp at hlen; omega)
    have hs1 : ∀ j ∈ q :: cs, st1.nodes tick j = st'.nodes tick j := by
      intro j hj
      rw [g4.nodes tick j fun _ hm => hps.2 (by rw [List.mem_singleton] at hm; exact hm ▸ hj)]
      exact hsame j hj
    have hperm : (q :: (k :: ks ++ cs)).Perm (k :: (ks ++ q :: cs)) :=
      perm_of_count fun x => by simp [List.count_cons]; omega
    exact UpOk.next g1 g2 g3 g4 (by rw [hs1 q (by simp)]; exact h1)
      (ih (fun j hj => hs1 j (by simp [hj])) (.left g6) (hperm.nodup_iff.2 hnd) hle htot (by rw [hperm.length_eq]; exact hlen))
      (by simp) (by simp) (by intro j hj; simp [hj]) hperm rfl
  | @onlyR par q k a' b' c' d' A B cs h1 hc ih =>
    have hps : k ∉ ks ∧ k ∉ q :: cs := by simpa [not_or] using (List.nodup_cons.1 hnd).1
    obtain ⟨self, st1, g1, g2, g3, g4, g5, g6⟩ := hk.up_one (par := some q) (a := a) (b := b) (c := c) (d := d) hps.1
      (fun x hx => hle x (by simp [hx])) (by simp only [totalOf_append] at htot; omega) (by simp at hlen; omega)
    have hs1 : ∀ j ∈ q :: cs, st1.nodes tick j = st'.nodes tick j := by
      intro j hj
      rw [g4.nodes tick j fun _ hm => hps.2 (by rw [List.mem_singleton] at hm; exact hm ▸ hj)]
      exact hsame j hj
    have hperm : (q :: (k :: ks ++ cs)).Perm (k :: (ks ++ q :: cs)) :=
      perm_of_count fun x => by simp [List.count_cons]; omega
    exact UpOk.next g1 g2 g3 g4 (by rw [hs1 q (by simp)]; exact h1)
      (ih (fun j hj => hs1 j (by simp [hj])) (.right g6) (hperm.nodup_iff.2 hnd) hle htot (by rw [hperm.length_eq]; exact hlen))
      (by simp) (by simp) (by intro j hj; simp [hj]) hperm rfl
  | @inL par q k r' h' a' b' c' d' A B M cs ms h1 hm hc ih =>
    have hps : k ∉ ks ∧ k ∉ q :: (ms ++ cs) := by simpa [not_or] using (List.nodup_cons.1 hnd).1
    obtain ⟨self, st1, g1, g2, g3, g4, g5, g6⟩ := hk.up_one (par := some q) (a := a) (b := b) (c := c) (d := d) hps.1
      (fun x hx => hle x (by simp [hx])) (by simp only [totalOf_append] at htot; omega) (by simp at hlen; omega)
    have hs1 : ∀ j ∈ q :: (ms ++ cs), st1.nodes tick j = st'.nodes tick j := by
      intro j hj
      rw [g4.nodes tick j fun _ hm => hps.2 (by rw [List.mem_singleton] at hm; exact hm ▸ hj)]
      exact hsame j hj
    have hperm : (q :: ((k :: ks) ++ ms ++ cs)).Perm (k :: (ks ++ q :: (ms ++ cs))) :=
      perm_of_count fun x => by simp [List.count_cons]; omega
    have hX : A ++ (L ++ M) ++ B = A ++ L ++ (M ++ B) := by simp
    exact UpOk.next g1 g2 g3 g4 (by rw [hs1 q (by simp)]; exact h1)
      (ih (fun j hj => hs1 j (by simp [hj])) (.both g6 (hm.congr fun j hj => hs1 j (by simp [hj]))) (hperm.nodup_iff.2 hnd) (by rw [hX]; exact hle)
        (by rw [hX]; exact htot) (by rw [hperm.length_eq]; exact hlen))
      (by simp; omega) (by simp) (by intro j hj; simp [hj]) hperm hX
  | @inR par q k l' h' a' b' c' d' A B M cs ms h1 hm hc ih =>
    have hps : k ∉ ks ∧ k ∉ q :: (ms ++ cs) := by simpa [not_or] using (List.nodup_cons.1 hnd).1
    obtain ⟨self, st1, g1, g2, g3, g4, g5, g6⟩ := hk.up_one (par := some q) (a := a) (b := b) (c := c) (d := d) hps.1
      (fun x hx => hle x (by simp [hx])) (by simp only [totalOf_append] at htot; omega) (by simp at hlen; omega)
    have hs1 : ∀ j ∈ q :: (ms ++ cs), st1.nodes tick j = st'.nodes tick j := by
      intro j hj
      rw [g4.nodes tick j fun _ hm => hps.2 (by rw [List.mem_singleton] at hm; exact hm ▸ hj)]
      exact hsame j hj
    have hperm : (q :: (ms ++ (k :: ks) ++ cs)).Perm (k :: (ks ++ q :: (ms ++ cs))) :=
      perm_of_count fun x => by simp [List.count_cons]; omega
    have hX : A ++ (M ++ L) ++ B = A ++ M ++ L ++ B := by simp
    exact UpOk.next g1 g2 g3 g4 (by rw [hs1 q (by simp)]; exact h1)
      (ih (fun j hj => hs1 j (by simp [hj])) (.both (hm.congr fun j hj => hs1 j (by simp [hj])) g6) (hperm.nodup_iff.2 hnd) (by rw [hX]; exact hle)
        (by rw [hX]; exact htot) (by rw [hperm.length_eq]; exact hlen))
      (by simp; omega) (by simp) (by intro j hj; simp [hj]) hperm hX

/-! ### `delete` -/

def TreeSt.delNode (st : TreeSt) (tick : Int) (k : Nat) : TreeSt :=
  { st with nodes := fun t q => if t = tick ∧ q = k then none else st.nodes t q }

theorem delNode_only (st : TreeSt) (tick : Int) (k : Nat) : NodesOnly st (st.delNode tick k) tick [k] :=
  ⟨rfl, rfl, fun t j hj => by
    show (if _ then _ else _) = _
    rw [if_neg]
    rintro ⟨h1, h2⟩
    exact hj h1 (by simp [h2])⟩

theorem delNode_self (st : TreeSt) (tick : Int) (k : Nat) : (st.delNode tick k).nodes tick k = none := by
  show (if _ then _ else _) = _
  simp

theorem remove_apply (n : TreeNode) (st : TreeSt) : n.remove st = .ok () (st.delNode n.tickId n.key) := rfl

theorem delete_top {n : TreeNode} (hp : n.parent = none) (fuel : Nat) : TreeNode.delete (fuel + 1) n st = .ok () (st.delNode n.tickId n.key) := by
  rw [TreeNode.delete.eq_def]
  simp only
  rw [EM.get_bind]
  unfold TreeNode.getParent
  rw [hp]; rfl

theorem delete_prune {n p : TreeNode} {k fuel : Nat} {st1 : TreeSt} (hp : n.parent = some k) (hn : st.nodes n.tickId k = some p)
    (hc : (p.dropChild n.key).hasChild = false) (hd : TreeNode.delete fuel (p.dropChild n.key) st = .ok () st1) :
    TreeNode.delete (fuel + 1) n st = .ok () (st1.delNode n.tickId n.key) := by
  rw [TreeNode.delete.eq_def]
  simp only
  rw [EM.get_bind]
  unfold TreeNode.getParent
  rw [hp]; simp only; rw [hn]; simp only
  rw [hc]
  simp only [Bool.not_false, if_true]
  rw [EM.bind_ok_of hd]; rfl

theorem delete_sync {n p m : TreeNode} {k fuel : Nat} {st1 : TreeSt} (hp : n.parent = some k) (hn : st.nodes n.tickId k = some p)
    (hc : (p.dropChild n.key).hasChild = true) (hd : TreeNode.syncRangeAndValueUp fuel (p.dropChild n.key) st = .ok m st1) :
    TreeNode.delete (fuel + 1) n st = .ok () (st1.delNode n.tickId n.key) := by
  rw [TreeNode.delete.eq_def]
  simp only
  rw [EM.get_bind]
  unfold TreeNode.getParent
  rw [hp]; simp only; rw [hn]; simp only
  rw [hc]
  simp only [Bool.not_true, Bool.false_eq_true, if_false]
  rw [EM.bind_ok_of hd]; rfl

theorem Ctx.root_mem {rk k : Nat} {par : Option Nat} {A B : List (Nat × Nat)} {cs : List Nat} (hc : Ctx st tick dir rk par k A B cs) : rk ∈ k :: cs := by
  induction hc with
  | top => simp
  | onlyL _ _ ih => simp at ih ⊢; tauto
  | onlyR _ _ ih => simp at ih ⊢; tauto
  | inL _ _ _ ih => simp at ih ⊢; tauto
  | inR _ _ _ ih => simp at ih ⊢; tauto

/-- Outcome of `delete` of the node `n` with id `k` in the context with ids `cs`, leaving the leaves `X`. -/
def DelOk (st : TreeSt) (tick : Int) (dir : Dir) (rk : Nat) (n : TreeNode) (k : Nat) (cs : List Nat) (X : List (Nat × Nat)) : Prop :=
  ∃ st1 ks', (∀ fuel, cs.length + 1 ≤ fuel → TreeNode.delete fuel n st = .ok () st1) ∧ NodesOnly st st1 tick (k :: cs) ∧ ks' ⊆ cs ∧ ks'.Nodup ∧
    (∀ j ∈ k :: cs, j ∉ ks' → st1.nodes tick j = none) ∧
    ((X = [] ∧ ks' = []) ∨ ∃ h', 2 ≤ h' ∧ Bough st1 tick dir none rk h' X ks')

theorem DelOk.prune {rk k q : Nat} {n p : TreeNode} {cs : List Nat} {X : List (Nat × Nat)} (hnk : n.key = k) (hnt : n.tickId = tick)
    (hp : n.parent = some q) (hn : st.nodes tick q = some p) (hc : (p.dropChild k).hasChild = false)
    (hk : k ∉ q :: cs) (hd : DelOk st tick dir rk (p.dropChild k) q cs X) : DelOk st tick dir rk n k (q :: cs) X := by
  subst hnk hnt
  obtain ⟨st1, ks', e1, e2, e3, e4, e5, e6⟩ := hd
  have honly := delNode_only st1 n.tickId n.key
  have hsub : ks' ⊆ q :: cs := fun j hj => by simp [e3 hj]
  refine ⟨st1.delNode n.tickId n.key, ks', ?_, e2.trans honly (by intro j hj; simp at hj ⊢; tauto) (by simp), hsub, e4, ?_, ?_⟩
  · intro fuel hf
    obtain ⟨f, rfl⟩ : ∃ f, fuel = f + 1 := ⟨fuel - 1, by omega⟩
    exact delete_prune hp hn hc (e1 f (by simp at hf; omega))
  · intro j hj hjn
    by_cases he : j = n.key
    · subst he; exact delNode_self _ _ _
    · rw [honly.nodes _ _ (fun _ hm => he (by simpa using hm))]
      exact e5 j (by simpa [he] using hj) hjn
  · rcases e6 with e6 | ⟨h', e6, e7⟩
    · exact .inl e6
    · refine .inr ⟨h', e6, e7.congr fun j hj => honly.nodes _ _ fun _ hm => ?_⟩
      rw [List.mem_singleton] at hm
      exact hk (hm ▸ hsub hj)

theorem DelOk.sync {rk k q : Nat} {n p : TreeNode} {cs ms : List Nat} {X X' : List (Nat × Nat)} (hnk : n.key = k) (hnt : n.tickId = tick)
    (hp : n.parent = some q) (hn : st.nodes tick q = some p) (hc : (p.dropChild k).hasChild = true)
    (hnd : (k :: q :: (ms ++ cs)).Nodup) (hd : UpOk st tick dir rk (p.dropChild k) q cs (q :: (ms ++ cs)) X') (hX : X' = X) :
    DelOk st tick dir rk n k (q :: (ms ++ cs)) X := by
  subst hnk hnt hX
  obtain ⟨st1, h', ks', e1, e2, e3, e4, e5⟩ := hd
  have honly := delNode_only st1 n.tickId n.key
  have hsub : ks' ⊆ q :: (ms ++ cs) := fun j hj => e5.mem_iff.1 hj
  have hk := (List.nodup_cons.1 hnd).1
  refine ⟨st1.delNode n.tickId n.key, ks', ?_, e2.trans honly (by intro j hj; simp at hj ⊢; tauto) (by simp), hsub,
    e5.nodup_iff.2 (List.nodup_cons.1 hnd).2, ?_, ?_⟩
  · intro fuel hf
    obtain ⟨f, rfl⟩ : ∃ f, fuel = f + 1 := ⟨fuel - 1, by omega⟩
    obtain ⟨m, hm⟩ := e1 f (by simp at hf; omega)
    exact delete_sync hp hn hc hm
  · intro j hj hjn
    rcases List.mem_cons.1 hj with rfl | hj
    · exact delNode_self _ _ _
    · exact absurd (e5.mem_iff.2 hj) hjn
  · refine .inr ⟨h', e3, e4.congr fun j hj => honly.nodes _ _ fun _ hm => ?_⟩
    rw [List.mem_singleton] at hm
    exact hk (hm ▸ hsub hj)

/-- `delete` takes a node out of a tree. -/
theorem Ctx.delete {rk k : Nat} {par : Option Nat} {A B : List (Nat × Nat)} {cs : List Nat} (hc : Ctx st tick dir rk par k A B cs)
    {n : TreeNode} (hnk : n.key = k) (hnt : n.tickId = tick) (hnp : n.parent = par) (hnd : (k :: cs).Nodup)
    (hle : ∀ x ∈ A ++ B, x.1 + x.2 < 2 ^ 256) (htot : totalOf (A ++ B) < 2 ^ 256) (hlen : cs.length < 2 ^ 64) :
    DelOk st tick dir rk n k cs (A ++ B) := by
  induction hc generalizing n with
  | top =>
    refine ⟨st.delNode n.tickId n.key, [], ?_, ?_, by simp, by simp, ?_, .inl ⟨rfl, rfl⟩⟩
    · intro fuel hf
      obtain ⟨f, rfl⟩ : ∃ f, fuel = f + 1 := ⟨fuel - 1, by omega⟩
      exact delete_top hnp f
    · subst hnk hnt; exact delNode_only _ _ _
    · intro j hj _
      obtain rfl : j = rk := by simpa using hj
      subst hnk hnt; exact delNode_self _ _ _
  | @onlyL par q k a' b' c' d' A B cs h1 hc ih =>
    have e : TreeNode.dropChild ⟨q, tick, dir, some k, none, par, .internal a' b' c' d'⟩ k = ⟨q, tick, dir, none, none, par, .internal a' b' c' d'⟩ := by
      simp [TreeNode.dropChild]
    refine DelOk.prune hnk hnt hnp h1 (by rw [e]; rfl) (List.nodup_cons.1 hnd).1 ?_
    rw [e]
    exact ih rfl rfl rfl (List.nodup_cons.1 hnd).2 hle htot (by simp at hlen; omega)
  | @onlyR par q k a' b' c' d' A B cs h1 hc ih =>
    have e : TreeNode.dropChild ⟨q, tick, dir, none, some k, par, .internal a' b' c' d'⟩ k = ⟨q, tick, dir, none, none, par, .internal a' b' c' d'⟩ := by
      simp [TreeNode.dropChild]
    refine DelOk.prune hnk hnt hnp h1 (by rw [e]; rfl) (List.nodup_cons.1 hnd).1 ?_
    rw [e]
    exact ih rfl rfl rfl (List.nodup_cons.1 hnd).2 hle htot (by simp at hlen; omega)
  | @inL par q k r' h' a' b' c' d' A B M cs ms h1 hm hc ih =>
    have e : TreeNode.dropChild ⟨q, tick, dir, some k, some r', par, .internal a' b' c' d'⟩ k = ⟨q, tick, dir, none, some r', par, .internal a' b' c' d'⟩ := by
      simp [TreeNode.dropChild]
    have hX : A ++ M ++ B = A ++ (M ++ B) := by simp
    refine DelOk.sync hnk hnt hnp h1 (by rw [e]; rfl) hnd ?_ hX
    rw [e]
    exact hc.syncUp (fun _ _ => rfl) (.right hm) (List.nodup_cons.1 hnd).2 (by rw [hX]; exact hle) (by rw [hX]; exact htot) hlen
  | @inR par q k l' h' a' b' c' d' A B M cs ms h1 hm hc ih =>
    have hne : l' ≠ k := by
      rintro rfl
      exact (List.nodup_cons.1 hnd).1 (by simp [hm.key_mem])
    have e : TreeNode.dropChild ⟨q, tick, dir, some l', some k, par, .internal a' b' c' d'⟩ k = ⟨q, tick, dir, some l', none, par, .internal a' b' c' d'⟩ := by
      simp [TreeNode.dropChild, hne]
    refine DelOk.sync hnk hnt hnp h1 (by rw [e]; rfl) hnd ?_ rfl
    rw [e]
    exact hc.syncUp (fun _ _ => rfl) (.left hm) (List.nodup_cons.1 hnd).2 hle htot hlen

/-! ### Trees of the contract -/

theorem totalOf_le {L : List (Nat × Nat)} (ho : L.Pairwise fun a b => a.1 + a.2 ≤ b.1) : ∀ {lo M : Nat}, (∀ x ∈ L, lo ≤ x.1) →
    (∀ x ∈ L, x.1 + x.2 ≤ M) → lo ≤ M → lo + totalOf L ≤ M := by
  induction L with
  | nil => intro lo M _ _ h; simpa [totalOf] using h
  | cons y L ih =>
    intro lo M h1 h2 h3
    obtain ⟨g1, g2⟩ := List.pairwise_cons.1 ho
    have a := ih g2 (lo := y.1 + y.2) (M := M) g1 (fun x hx => h2 x (by simp [hx])) (h2 y (by simp))
    have b := h1 y (by simp)
    have e : totalOf (y :: L) = y.2 + totalOf L := by simp [totalOf]
    omega

theorem totalOf_lt {L : List (Nat × Nat)} (ho : L.Pairwise fun a b => a.1 + a.2 ≤ b.1) (hle : ∀ x ∈ L, x.1 + x.2 < 2 ^ 256) : totalOf L < 2 ^ 256 := by
  have := totalOf_le ho (lo := 0) (M := 2 ^ 256 - 1) (fun _ _ => Nat.zero_le _) (fun x hx => by have := hle x hx; omega) (Nat.zero_le _)
  omega

theorem Spec.Subtree.bough {par : Option Nat} {k h : Nat} {L : List (Nat × Nat)} {ks : List Nat} (hs : Subtree st tick dir par k h L ks) :
    Bough st tick dir par k h L ks := by
  induction hs with
  | leaf h1 _ => exact .leaf h1
  | node h1 h2 _ _ _ _ _ ih1 ih2 => exact .both h1 h2 ih1 ih2

theorem Spec.ValidOn.loose {h : Nat} {L : List (Nat × Nat)} {ks : List Nat} (hv : ValidOn st tick dir h L ks) : LooseTree st tick dir L ks := by
  obtain ⟨rt, h1, -, h3, -⟩ := ValidOn.rootRep hv
  have hs := h1.sorted
  rw [h3] at hs
  refine ⟨?_, hv.nodup, hs.1, hs.2⟩
  cases hv.tree with
  | empty g => exact .inl ⟨rfl, rfl, fun k hk => (g k hk).1⟩
  | @single k l e v g1 g2 g3 g4 =>
    refine .inr ⟨k, 1 + 1, g1, le_refl _, .left (mn := e) (mx := v + e) ?_ (by simp [RangeOf, Nat.add_comm]) (.leaf g3)⟩
    rw [g2]; simp [totalOf]
  | tree g1 g2 g3 => exact .inr ⟨_, _, g1, g2, g3.bough⟩

/-- The node under an id of a tree is determined. -/
theorem Spec.Bough.node {par : Option Nat} {k h : Nat} {L : List (Nat × Nat)} {ks : List Nat} (hb : Bough st tick dir par k h L ks) :
    ∃ n, st.nodes tick k = some n ∧ n.key = k ∧ n.tickId = tick ∧ n.parent = par := by
  cases hb with
  | leaf h1 => exact ⟨_, h1, rfl, rfl, rfl⟩
  | left h1 => exact ⟨_, h1, rfl, rfl, rfl⟩
  | right h1 => exact ⟨_, h1, rfl, rfl, rfl⟩
  | both h1 => exact ⟨_, h1, rfl, rfl, rfl⟩

end OB
