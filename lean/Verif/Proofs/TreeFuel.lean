import Verif.Proofs.Tree.Root
/- More fuel never changes a result: the recursions stop at the height of the tree. -/
namespace OB

/-- `y` gives the result of `x` unless `x` ran out of fuel. -/
def EM.Below {σ α : Type} (x y : EM σ α) : Prop := ∀ s, x s = y s ∨ ∃ s', x s = .err .diverge s'

namespace EM.Below
variable {σ α β : Type}

theorem refl (x : EM σ α) : Below x x := fun _ => Or.inl rfl

theorem diverge (y : EM σ α) : Below (EM.fail .diverge) y := fun s => Or.inr ⟨s, rfl⟩

theorem bind_left {x y : EM σ α} (h : Below x y) (f : α → EM σ β) : Below (x >>= f) (y >>= f) := by
  intro s
  rcases h s with h | ⟨s', h⟩
  · left; rw [EM.bind_apply, EM.bind_apply, h]
  · right; exact ⟨s', by rw [EM.bind_err_of h]⟩

theorem bind_right (x : EM σ α) {f g : α → EM σ β} (h : ∀ a, Below (f a) (g a)) : Below (x >>= f) (x >>= g) := by
  intro s
  rw [EM.bind_apply, EM.bind_apply]
  cases hx : x s with
  | ok a s' => exact h a s'
  | err e s' => exact Or.inl rfl

theorem ite {c : Prop} [Decidable c] {x y x' y' : EM σ α} (h : Below x y) (h' : Below x' y') :
    Below (if c then x else x') (if c then y else y') := by
  split
  · exact h
  · exact h'

theorem eq_of_ok {x y : EM σ α} (h : Below x y) {s s' : σ} {a : α} (hx : x s = .ok a s') : y s = .ok a s' := by
  rcases h s with h | ⟨s2, h⟩
  · rw [← h, hx]
  · rw [hx] at h; simp at h

end EM.Below

open EM TreeNode T

theorem insert_below (fuel : Nat) (self new : TreeNode) : Below (TreeNode.insert fuel self new) (TreeNode.insert (fuel + 1) self new) := by
  induction fuel generalizing self with
  | zero => exact Below.diverge _
  | succ fuel ih =>
    unfold TreeNode.insert
    refine Below.bind_right _ fun _ => Below.bind_right _ fun _ => Below.bind_right _ fun st => Below.bind_right _ fun _ =>
      Below.bind_right _ fun b1 => Below.bind_right _ fun b2 => ?_
    refine Below.ite ?_ (Below.ite ?_ (Below.ite ?_ (Below.refl _)))
    · cases self.getLeft st with
      | none => exact Below.refl _
      | some l => exact Below.bind_right _ fun _ => Below.bind_left (ih l) _
    · cases self.getRight st with
      | none => exact Below.refl _
      | some l => exact Below.bind_right _ fun _ => Below.bind_left (ih l) _
    · cases self.getLeft st with
      | none => exact Below.refl _
      | some l => exact Below.bind_right _ fun _ => Below.bind_left (ih l) _

theorem insert_fuel {fuel fuel' : Nat} (hle : fuel ≤ fuel') {self new n : TreeNode} {st st' : TreeSt}
    (h : TreeNode.insert fuel self new st = .ok n st') : TreeNode.insert fuel' self new st = .ok n st' := by
  induction hle with
  | refl => exact h
  | step _ ih => exact (insert_below _ _ _).eq_of_ok ih

/-- Two fuels that both suffice give the same result. -/
theorem insert_fuel_eq {fuel fuel' : Nat} {self new n n' : TreeNode} {st st1 st2 : TreeSt}
    (h : TreeNode.insert fuel self new st = .ok n st1) (h' : TreeNode.insert fuel' self new st = .ok n' st2) :
    n' = n ∧ st2 = st1 := by
  rcases Nat.le_total fuel fuel' with hle | hle
  · have := insert_fuel hle h
    rw [h'] at this
    simp only [Res.ok.injEq] at this
    exact this
  · have := insert_fuel hle h'
    rw [h] at this
    simp only [Res.ok.injEq] at this
    exact ⟨this.1.symm, this.2.symm⟩

/-- Height of a represented tree. -/
def RT.height : RT → Nat
  | .empty => 0
  | .one .. => 2
  | .full t => t.wt

/-- The insertion of a cancellation needs no more recursion than the height of the tree. -/
theorem cancelTree_fuel {st : TreeSt} {tick : Int} {dir : Dir} {rt : RT} {e v : Nat} (h : RootRep st tick dir rt)
    (h64 : st.cnt tick + rt.need < U64) (hv : 0 < v) (hd : Disj e v rt.leaves)
    (hle : ∀ y ∈ rt.leaves, y.1 + y.2 < U256) (hh : v + e < U256) (hs : sumv rt.leaves + v < U256)
    {root n : TreeNode} {st1 st2 st3 : TreeSt} {nk f : Nat} (g1 : getOrInitRootNode tick dir st = .ok root st1)
    (g2 : generateNodeId tick st1 = .ok nk st2) (g3 : insert f root (mk' tick dir nk (.leaf v e)) st2 = .ok n st3)
    {fuel : Nat} (h1 : 1 ≤ fuel) (h2 : rt.height ≤ fuel + 1) : insert fuel root (mk' tick dir nk (.leaf v e)) st2 = .ok n st3 := by
  suffices hsuff : ∃ n' st', insert fuel root (mk' tick dir nk (.leaf v e)) st2 = .ok n' st' by
    obtain ⟨n', st', hi⟩ := hsuff
    obtain ⟨rfl, rfl⟩ := insert_fuel_eq g3 hi
    exact hi
  obtain ⟨fuel, rfl⟩ : ∃ k, fuel = k + 1 := ⟨fuel - 1, by omega⟩
  cases rt with
  | empty =>
    simp only [RT.need] at h64
    rw [getOrInit_fresh h (by omega)] at g1
    simp only [Res.ok.injEq] at g1
    obtain ⟨rfl, rfl⟩ := g1
    rw [generateNodeId_spec (c := st.cnt tick + 1) (by simp) (by omega)] at g2
    simp only [Res.ok.injEq] at g2
    obtain ⟨rfl, rfl⟩ := g2
    exact ⟨_, _, insert_first (by omega) hv hh⟩
  | one k lk le lv =>
    simp only [RT.need] at h64
    obtain ⟨a1, a2, a3, a4, a5, a6, a7⟩ := h
    have hgo : getOrInitRootNode tick dir st = .ok (oneRoot tick dir k lk le lv) st := by
      unfold getOrInitRootNode
      simp only [EM.get_bind, getRootNode, a1, a2]; rfl
    rw [hgo] at g1
    simp only [Res.ok.injEq] at g1
    obtain ⟨rfl, rfl⟩ := g1
    rw [generateNodeId_spec rfl (by unfold TreeSt.cnt at h64; omega)] at g2
    simp only [Res.ok.injEq] at g2
    obtain ⟨rfl, rfl⟩ := g2
    have hd' := hd (le, lv) (by simp [RT.leaves])
    have hl' := hle (le, lv) (by simp [RT.leaves])
    simp only [RT.leaves, sumv_cons, sumv_nil] at hs hd' hl'
    unfold TreeSt.cnt at a5 a6
    obtain ⟨n', st', x1, -⟩ := insert_second (st := st.setCounter tick ((st.counter tick).getD 0 + 1)) (fuel := fuel)
      (e := e) (v := v) (nk := (st.counter tick).getD 0 + 1) a2 a3 ⟨a4, by omega, by omega⟩ a7 hd' hh (by omega) (by omega)
    exact ⟨n', st', x1⟩
  | full t =>
    simp only [RT.need] at h64
    obtain ⟨a1, a2, a3, a4, a5, a6, a7⟩ := h
    have hgo : getOrInitRootNode tick dir st = .ok (t.toNode tick dir none) st := by
      unfold getOrInitRootNode
      simp only [EM.get_bind, getRootNode, a1, a2.root]; rfl
    rw [hgo] at g1
    simp only [Res.ok.injEq] at g1
    obtain ⟨rfl, rfl⟩ := g1
    rw [generateNodeId_spec rfl (by unfold TreeSt.cnt at h64; omega)] at g2
    simp only [Res.ok.injEq] at g2
    obtain ⟨rfl, rfl⟩ := g2
    generalize hc : (st.counter tick).getD 0 = c at *
    have hc' : st.cnt tick = c := hc
    have hf1 : (c + 1) ∉ t.keys := fun hm => by have := a5 _ hm; omega
    have hf2 : (c + 2) ∉ t.keys := fun hm => by have := a5 _ hm; omega
    have hhi : t.hi < U256 := by
      obtain ⟨y, hy, ey⟩ := T.exists_hi t
      rw [← ey]; exact hle y hy
    have hpar : ParOk (st.setCounter tick (c + 1)) tick none t.key ((c + 1 + 1) :: (c + 1) :: t.keys) := by
      intro pk h; cases h
    obtain ⟨n', st', x1, -⟩ := insert_spec t (st := st.setCounter tick (c + 1)) (dir := dir) (par := none) (c := c + 1)
      (nk := c + 1) (e := e) (v := v) (fuel := fuel + 1) a3 a2 (by simp [a4, hf1, hf2]) hpar (by simp) (by omega) a7 hv hd hhi hh
      (by rw [val_eq_sumv]; exact hs) a6 (T.wt_small a6 a4 a5 (by omega)) h2
    exact ⟨n', st', x1⟩

/-! ### The walk -/

/-- As `Below`, for pure computations. -/
def ExBelow {α : Type} (x y : Except Err α) : Prop := x = y ∨ x = .error .diverge

namespace ExBelow
variable {α β : Type}
theorem refl (x : Except Err α) : ExBelow x x := Or.inl rfl
theorem bind_right (x : Except Err α) {f g : α → Except Err β} (h : ∀ a, ExBelow (f a) (g a)) : ExBelow (x >>= f) (x >>= g) := by
  cases x with
  | ok a => exact h a
  | error e => exact Or.inl rfl
theorem ite {c : Prop} [Decidable c] {x y x' y' : Except Err α} (h : ExBelow x y) (h' : ExBelow x' y') :
    ExBelow (if c then x else x') (if c then y else y') := by
  split
  · exact h
  · exact h'
end ExBelow

theorem walk_below (st : TreeSt) (fuel : Nat) (node : TreeNode) (cs x R : Nat) :
    ExBelow (prefixSumWalk st fuel node cs x R) (prefixSumWalk st (fuel + 1) node cs x R) := by
  induction fuel generalizing node cs x with
  | zero => exact Or.inr rfl
  | succ fuel ih =>
    rw [prefixSumWalk.eq_def st (fuel + 1 + 1), prefixSumWalk.eq_def st (fuel + 1)]
    simp only
    refine ExBelow.ite (ExBelow.refl _) (ExBelow.bind_right _ fun mx => ExBelow.ite (ExBelow.refl _) (ExBelow.ite (ExBelow.refl _) ?_))
    refine ExBelow.bind_right _ fun o => ?_
    cases o with
    | some p => exact ih _ _ _
    | none =>
      refine ExBelow.bind_right _ fun gl => ?_
      cases gl with
      | some o =>
        cases o with
        | none => exact ExBelow.refl _
        | some l => exact ExBelow.bind_right _ fun _ => ih _ _ _
      | none =>
        simp only
        cases node.getRight st with
        | none => exact ExBelow.refl _
        | some r =>
          exact ExBelow.ite (ExBelow.refl _) (ExBelow.bind_right _ fun _ => ExBelow.ite (ih _ _ _) (ExBelow.refl _))

theorem walk_fuel {st : TreeSt} {fuel fuel' : Nat} (hle : fuel ≤ fuel') {node : TreeNode} {cs x R : Nat}
    (h : prefixSumWalk st fuel node cs x R ≠ .error .diverge) :
    prefixSumWalk st fuel' node cs x R = prefixSumWalk st fuel node cs x R := by
  induction hle with
  | refl => rfl
  | step _ ih =>
    rcases walk_below st _ node cs x R with h1 | h1
    · rw [← h1, ih]
    · rw [ih] at h1; exact absurd h1 h

/-- On a stored tree the walk never goes deeper than the height, whatever the arguments. -/
theorem walk_depth {st : TreeSt} {tick : Int} {dir : Dir} {t : T} {par : Option Nat} (hr : t.Rep (st.nodes tick) tick dir par)
    {fuel : Nat} (hf : t.wt ≤ fuel) (cs x R : Nat) :
    prefixSumWalk st fuel (t.toNode tick dir par) cs x R ≠ .error .diverge := by
  have hbind : ∀ {α β : Type} (y : Except Err α) (f : α → Except Err β), y ≠ .error .diverge → (∀ a, f a ≠ .error .diverge) →
      (y >>= f) ≠ .error .diverge := by
    intro α β y f h1 h2
    cases y with
    | ok a => exact h2 a
    | error e => simpa using h1
  have hmax : ∀ n : TreeNode, n.getMaxRange ≠ .error .diverge := by
    intro n
    unfold getMaxRange
    cases n.ntype with
    | internal a b c d => simp
    | leaf v e =>
      simp only
      cases checkedAdd v e <;> simp
  have hsub : ∀ a b, checkedSub a b ≠ .error .diverge := by
    intro a b; unfold checkedSub; split <;> simp
  have hadd : ∀ a b, checkedAdd a b ≠ .error .diverge := by
    intro a b; unfold checkedAdd; split <;> simp
  induction t generalizing par fuel cs x with
  | leaf k e v =>
    cases fuel with
    | zero => simp [wt] at hf
    | succ fuel =>
      rw [prefixSumWalk.eq_def]
      simp only
      split
      · simp
      refine hbind _ _ (hmax _) fun mx => ?_
      split
      · simp
      rw [if_pos (by simp)]
      simp
  | node k l r ihl ihr =>
    obtain ⟨h1, h2, h3⟩ := hr
    simp only [wt] at hf
    cases fuel with
    | zero => omega
    | succ fuel =>
      have hl := fun cs x => ihl h2 (fuel := fuel) (by omega) cs x
      have hrr := fun cs x => ihr h3 (fuel := fuel) (by omega) cs x
      have hgl : TreeNode.getLeft ((node k l r).toNode tick dir par) st = some (l.toNode tick dir (some k)) := h2.root
      have hgr : TreeNode.getRight ((node k l r).toNode tick dir par) st = some (r.toNode tick dir (some k)) := h3.root
      rw [prefixSumWalk.eq_def]
      simp only [hgl, hgr]
      split
      · simp
      refine hbind _ _ (hmax _) fun mx => ?_
      split
      · simp
      split
      · simp
      have hbindP : ∀ {α β : Type} (y : Except Err α) (f : α → Except Err β), y ≠ .error .diverge →
          (∀ a, y = .ok a → f a ≠ .error .diverge) → (y >>= f) ≠ .error .diverge := by
        intro α β y f g1 g2
        cases y with
        | ok a => exact g2 a rfl
        | error e => simpa using g1
      refine hbindP _ _ (hbind _ _ (hsub _ _) fun sum => hbind _ _ (hadd _ _) fun ne => by split <;> simp) ?_
      intro o ho
      cases o with
      | some p =>
        obtain ⟨n, ne⟩ := p
        simp only [Except.bind_eq_ok'] at ho
        obtain ⟨_, -, _, -, ho⟩ := ho
        split at ho
        · simp only [Except.pure_eq', Except.ok.injEq, Option.some.injEq, Prod.mk.injEq] at ho
          obtain ⟨rfl, rfl⟩ := ho
          exact hrr _ _
        · simp at ho
      | none =>
        simp only
        refine hbindP _ _ ?_ ?_
        · split
          · simp
          · refine hbind _ _ (hmax _) fun a => ?_
            split <;> simp
        · intro gl hgl'
          cases gl with
          | some o =>
            cases o with
            | none => simp
            | some n =>
              have hn : n = l.toNode tick dir (some k) := by
                split at hgl'
                · simp at hgl'
                · simp only [Except.bind_eq_ok'] at hgl'
                  obtain ⟨_, -, hgl'⟩ := hgl'
                  split at hgl'
                  · simp only [Except.pure_eq', Except.ok.injEq, Option.some.injEq] at hgl'
                    exact hgl'.symm
                  · simp at hgl'
              subst hn
              simp only
              exact hbind _ _ (hsub _ _) fun _ => hl _ _
          | none =>
            simp only
            split
            · exact hsub _ _
            · refine hbind _ _ (hmax _) fun a => ?_
              split
              · exact hrr _ _
              · simp

/-- The walk from the root of a represented tree. -/
theorem RootRep.walk_depth' {st : TreeSt} {tick : Int} {dir : Dir} {rt : RT} (h : RootRep st tick dir rt) {root : TreeNode}
    (hroot : getRootNode st tick dir = .ok root) (x R : Nat) :
    prefixSumWalk st rt.height root root.getValue x R ≠ .error .diverge ∧ rt.height ≤ treeFuel st root.tickId := by
  cases rt with
  | empty => rw [h.getRoot_empty] at hroot; simp at hroot
  | full t =>
    obtain ⟨h1, h2, h3, h4, h5, h6, h7⟩ := h
    unfold getRootNode at hroot
    simp only [h1, h2.root, Except.ok.injEq] at hroot
    subst hroot
    exact ⟨OB.walk_depth h2 (le_refl _) _ _ _, wt_le_cnt h4 h5⟩
  | one k lk e v =>
    obtain ⟨h1, h2, h3, h4, h5, h6, h7⟩ := h
    unfold getRootNode at hroot
    simp only [h1, h2, Except.ok.injEq] at hroot
    subst hroot
    refine ⟨?_, ?_⟩
    · have hgl : TreeNode.getLeft (oneRoot tick dir k lk e v) st = some ((leaf lk e v).toNode tick dir (some k)) := h3
      have hgr : TreeNode.getRight (oneRoot tick dir k lk e v) st = none := rfl
      have hl := fun cs x => OB.walk_depth (t := leaf lk e v) (dir := dir) (par := some k) (st := st) h3 (fuel := 1) (le_refl _) cs x R
      simp only [RT.height]
      rw [prefixSumWalk.eq_def]
      simp only [hgl, hgr]
      split
      · simp
      have hm : (oneRoot tick dir k lk e v).getMaxRange = .ok (v + e) := rfl
      simp only [hm, Except.ok_bind']
      split
      · simp
      split
      · simp
      simp only [Except.pure_eq', Except.ok_bind']
      split
      · simp
      · have hmax : ((leaf lk e v).toNode tick dir (some k)).getMaxRange ≠ .error .diverge := by
          unfold getMaxRange
          simp only [toNode_ntype, T.ntype]
          cases checkedAdd v e <;> simp
        cases hmx : ((leaf lk e v).toNode tick dir (some k)).getMaxRange with
        | error e' => rw [hmx] at hmax; simpa using hmax
        | ok mx =>
          simp only [Except.ok_bind']
          split
          · simp only [Except.ok_bind', Option.map_none, Option.getD_none]
            have : checkedSub (oneRoot tick dir k lk e v).getValue 0 = .ok ((oneRoot tick dir k lk e v).getValue - 0) := checkedSub_ok (Nat.zero_le _)
            rw [this]
            exact hl _ _
          · simp
    · have : lk ≤ (st.counter tick).getD 0 := h6
      simp [RT.height, treeFuel]

theorem RootRep.walk_depth {st : TreeSt} {tick : Int} {dir : Dir} {rt : RT} (h : RootRep st tick dir rt) {root : TreeNode}
    (hroot : getRootNode st tick dir = .ok root) (x R : Nat) :
    getPrefixSum st root x R = prefixSumWalk st rt.height root root.getValue x R := by
  have hs := h.walk_depth' hroot x R
  exact walk_fuel hs.2 hs.1

end OB
