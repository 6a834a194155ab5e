import Verif.Proofs.Tree.Rebalance
/- Pure insertion into abstract trees and its properties. -/
namespace OB
namespace T

/-- Two leaves under a new internal node `id` (counterpart of `split`). -/
def split2 (id : Nat) (self : T) (nk e v : Nat) : T :=
  if self.hi ≤ e then node id self (leaf nk e v) else node id (leaf nk e v) self

/-- Does `insert` descend to the left child? (node.rs cases 1-5) -/
def goLeft (l r : T) (e : Nat) : Bool :=
  (l.isNode && decide (e < l.hi)) ||
  (!(r.isNode && decide (r.lo ≤ e)) && ((l.isNode && r.isNode) || (!l.isNode && decide (e < r.lo))))

/-- Pure counterpart of `insert` of the leaf `(nk, e, v)`; `id` is the id generated for the new internal node. -/
def ins (id nk e v : Nat) : T → T
  | leaf k e' v' => split2 id (leaf k e' v') nk e v
  | node k l r =>
    if goLeft l r e then rebal k (ins id nk e v l) r else rebal k l (ins id nk e v r)

/-- Insertion into a position-sorted list of leaves. -/
def insL (e v : Nat) : List (Nat × Nat) → List (Nat × Nat)
  | [] => [(e, v)]
  | x :: xs => if e < x.1 then (e, v) :: x :: xs else x :: insL e v xs

/-- The interval `[e, e+v)` is disjoint from all leaves. -/
def Disj (e v : Nat) (L : List (Nat × Nat)) : Prop := ∀ x ∈ L, x.1 + x.2 ≤ e ∨ e + v ≤ x.1

/-- Case analysis of `rebal`. -/
theorem rebal_cases {P : T → Prop} {k : Nat} {l r : T}
    (h0 : P (node k l r))
    (h1 : ∀ rk rl rr, r = node rk rl rr → l.wt + 1 < r.wt → rl.wt ≤ rr.wt → P (node rk (node k l rl) rr))
    (h2 : ∀ rk m a b rr, r = node rk (node m a b) rr → l.wt + 1 < r.wt → rr.wt < (node m a b).wt →
      P (node m (node k l a) (node rk b rr)))
    (h3 : ∀ lk ll lr, l = node lk ll lr → r.wt + 1 < l.wt → lr.wt ≤ ll.wt → P (node lk ll (node k lr r)))
    (h4 : ∀ lk ll m a b, l = node lk ll (node m a b) → r.wt + 1 < l.wt → ll.wt < (node m a b).wt →
      P (node m (node lk ll a) (node k b r))) :
    P (rebal k l r) := by
  unfold rebal
  split
  · exact h0
  · rename_i hb
    split
    · cases r with
      | leaf => exact h0
      | node rk rl rr =>
        dsimp only
        split
        · exact h1 _ _ _ rfl (by omega) ‹_›
        · cases rl with
          | leaf => exact h0
          | node m a b => exact h2 _ _ _ _ _ rfl (by omega) (by omega)
    · cases l with
      | leaf => exact h0
      | node lk ll lr =>
        dsimp only
        split
        · exact h3 _ _ _ rfl (by omega) ‹_›
        · cases lr with
          | leaf => exact h0
          | node m a b => exact h4 _ _ _ _ _ rfl (by omega) (by omega)

theorem rebal_val (k : Nat) (l r : T) : (rebal k l r).val = l.val + r.val := by
  refine rebal_cases (P := fun t => t.val = l.val + r.val) rfl ?_ ?_ ?_ ?_ <;> intros <;> subst_vars <;> simp only [val] <;> omega

theorem rebal_hi (k : Nat) (l r : T) : (rebal k l r).hi = max l.hi r.hi := by
  refine rebal_cases (P := fun t => t.hi = max l.hi r.hi) rfl ?_ ?_ ?_ ?_ <;> intros <;> subst_vars <;> simp only [hi] <;> omega

theorem rebal_lo (k : Nat) (l r : T) : (rebal k l r).lo = min l.lo r.lo := by
  refine rebal_cases (P := fun t => t.lo = min l.lo r.lo) rfl ?_ ?_ ?_ ?_ <;> intros <;> subst_vars <;> simp only [lo] <;> omega

theorem rebal_leaves (k : Nat) (l r : T) : (rebal k l r).leaves = l.leaves ++ r.leaves := by
  refine rebal_cases (P := fun t => t.leaves = l.leaves ++ r.leaves) rfl ?_ ?_ ?_ ?_ <;> intros <;> subst_vars <;>
    simp only [leaves, List.append_assoc]

theorem rebal_keys (k : Nat) (l r : T) : (rebal k l r).keys.Perm (node k l r).keys := by
  refine rebal_cases (P := fun t => t.keys.Perm (node k l r).keys) (List.Perm.refl _) ?_ ?_ ?_ ?_ <;> intros <;> subst_vars <;>
    (rw [List.perm_iff_count]; intro q; simp only [keys, List.count_cons, List.count_append, List.cons_append]; ring)

theorem rebal_isNode (k : Nat) (l r : T) : (rebal k l r).isNode = true := by
  refine rebal_cases (P := fun t => t.isNode = true) rfl ?_ ?_ ?_ ?_ <;> intros <;> rfl

theorem rebal_wt {k : Nat} {l r : T} (hl : l.AVL) (hr : r.AVL) (h1 : l.wt ≤ r.wt + 2) (h2 : r.wt ≤ l.wt + 2) :
    (rebal k l r).AVL ∧ max l.wt r.wt ≤ (rebal k l r).wt ∧ (rebal k l r).wt ≤ max l.wt r.wt + 1 ∧
      (l.wt ≤ r.wt + 1 → r.wt ≤ l.wt + 1 → (rebal k l r).wt = max l.wt r.wt + 1) := by
  by_cases hb : r.wt ≤ l.wt + 1 ∧ l.wt ≤ r.wt + 1
  · have : rebal k l r = node k l r := by unfold rebal; rw [if_pos hb]
    rw [this]
    refine ⟨⟨hl, hr, hb.2, hb.1⟩, ?_, ?_, ?_⟩ <;> simp [wt]
  · refine (?_ : _ ∧ _ ∧ _ ∧ _)
    have key : (rebal k l r).AVL ∧ max l.wt r.wt ≤ (rebal k l r).wt ∧ (rebal k l r).wt ≤ max l.wt r.wt + 1 := by
      unfold rebal
      rw [if_neg hb]
      split
      · cases r with
        | leaf => simp only [wt] at *; omega
        | node rk rl rr =>
          dsimp only
          obtain ⟨r1, r2, r3, r4⟩ := hr
          split
          · simp only [AVL, wt, hl, r1, r2, true_and] at *; omega
          · cases rl with
            | leaf => simp only [wt] at *; have := rr.wt_pos; omega
            | node m a b =>
              obtain ⟨s1, s2, s3, s4⟩ := r1
              simp only [AVL, wt, hl, r2, s1, s2, true_and] at *; omega
      · cases l with
        | leaf => simp only [wt] at *; omega
        | node lk ll lr =>
          dsimp only
          obtain ⟨r1, r2, r3, r4⟩ := hl
          split
          · simp only [AVL, wt, hr, r1, r2, true_and] at *; omega
          · cases lr with
            | leaf => simp only [wt] at *; have := ll.wt_pos; omega
            | node m a b =>
              obtain ⟨s1, s2, s3, s4⟩ := r2
              simp only [AVL, wt, hr, r1, s1, s2, true_and] at *; omega
    exact ⟨key.1, key.2.1, key.2.2, fun h h' => absurd ⟨h', h⟩ hb⟩

theorem split2_val (id : Nat) (s : T) (nk e v : Nat) : (split2 id s nk e v).val = s.val + v := by
  unfold split2; split <;> simp [val]; omega
theorem split2_hi (id : Nat) (s : T) (nk e v : Nat) : (split2 id s nk e v).hi = max s.hi (v + e) := by
  unfold split2; split <;> simp [hi]; omega
theorem split2_lo (id : Nat) (s : T) (nk e v : Nat) : (split2 id s nk e v).lo = min s.lo e := by
  unfold split2; split <;> simp [lo]; omega

variable (id nk e v : Nat) (t : T)

theorem ins_val : (ins id nk e v t).val = t.val + v := by
  induction t with
  | leaf => exact split2_val ..
  | node k l r ihl ihr =>
    simp only [ins]; split <;> simp only [rebal_val, val, ihl, ihr] <;> omega

theorem ins_hi : (ins id nk e v t).hi = max t.hi (v + e) := by
  induction t with
  | leaf => exact split2_hi ..
  | node k l r ihl ihr =>
    simp only [ins]; split <;> simp only [rebal_hi, hi, ihl, ihr] <;> omega

theorem ins_lo : (ins id nk e v t).lo = min t.lo e := by
  induction t with
  | leaf => exact split2_lo ..
  | node k l r ihl ihr =>
    simp only [ins]; split <;> simp only [rebal_lo, lo, ihl, ihr] <;> omega

theorem ins_keys : (ins id nk e v t).keys.Perm (id :: nk :: t.keys) := by
  induction t with
  | leaf k e' v' =>
    simp only [ins, split2]; split
    · rw [List.perm_iff_count]; intro q
      simp only [keys, List.count_cons, List.count_append, List.cons_append, List.count_nil]; ring
    · simp only [keys]; exact List.Perm.refl _
  | node k l r ihl ihr =>
    simp only [ins]
    split
    · refine (rebal_keys _ _ _).trans ?_
      simp only [keys]
      rw [List.perm_iff_count] at *
      intro q
      have := ihl q
      simp only [List.count_cons, List.count_append] at *
      omega
    · refine (rebal_keys _ _ _).trans ?_
      simp only [keys]
      rw [List.perm_iff_count] at *
      intro q
      have := ihr q
      simp only [List.count_cons, List.count_append] at *
      omega

theorem ins_isNode : (ins id nk e v t).isNode = true := by
  cases t with
  | leaf => simp only [ins, split2]; split <;> rfl
  | node k l r => simp only [ins]; split <;> exact rebal_isNode ..

variable {id nk e v t}

theorem ins_AVL (h : t.AVL) : (ins id nk e v t).AVL ∧ t.wt ≤ (ins id nk e v t).wt ∧ (ins id nk e v t).wt ≤ t.wt + 1 := by
  induction t with
  | leaf => simp only [ins, split2]; split <;> simp [AVL, wt]
  | node k l r ihl ihr =>
    obtain ⟨h1, h2, h3, h4⟩ := h
    obtain ⟨a1, a2, a3⟩ := ihl h1
    obtain ⟨b1, b2, b3⟩ := ihr h2
    simp only [ins]
    split
    · obtain ⟨c1, c2, c3, c4⟩ := rebal_wt (k := k) a1 h2 (by omega) (by omega)
      refine ⟨c1, ?_, ?_⟩
      · simp only [wt]
        by_cases hb : (ins id nk e v l).wt ≤ r.wt + 1 ∧ r.wt ≤ (ins id nk e v l).wt + 1
        · have := c4 hb.1 hb.2; omega
        · omega
      · simp only [wt]
        by_cases hb : (ins id nk e v l).wt ≤ r.wt + 1 ∧ r.wt ≤ (ins id nk e v l).wt + 1
        · have := c4 hb.1 hb.2; omega
        · omega
    · obtain ⟨c1, c2, c3, c4⟩ := rebal_wt (k := k) h1 b1 (by omega) (by omega)
      refine ⟨c1, ?_, ?_⟩
      · simp only [wt]
        by_cases hb : l.wt ≤ (ins id nk e v r).wt + 1 ∧ (ins id nk e v r).wt ≤ l.wt + 1
        · have := c4 hb.1 hb.2; omega
        · omega
      · simp only [wt]
        by_cases hb : l.wt ≤ (ins id nk e v r).wt + 1 ∧ (ins id nk e v r).wt ≤ l.wt + 1
        · have := c4 hb.1 hb.2; omega
        · omega

/-! ### Order of the leaves -/

/-- Position-sorted disjoint intervals of positive length. -/
def SortedL (L : List (Nat × Nat)) : Prop := (∀ x ∈ L, 0 < x.2) ∧ L.Pairwise (fun a b => a.1 + a.2 ≤ b.1)

theorem lo_le_leaf {x : Nat × Nat} (hx : x ∈ t.leaves) : t.lo ≤ x.1 := by
  induction t with
  | leaf => simp [leaves, lo] at *; simp [hx]
  | node k l r ihl ihr =>
    simp only [leaves, List.mem_append] at hx
    simp only [lo]
    rcases hx with h | h
    · have := ihl h; omega
    · have := ihr h; omega

theorem leaf_le_hi {x : Nat × Nat} (hx : x ∈ t.leaves) : x.1 + x.2 ≤ t.hi := by
  induction t with
  | leaf => simp [leaves, hi] at *; simp [hx]; omega
  | node k l r ihl ihr =>
    simp only [leaves, List.mem_append] at hx
    simp only [hi]
    rcases hx with h | h
    · have := ihl h; omega
    · have := ihr h; omega

theorem exists_lo (t : T) : ∃ x ∈ t.leaves, x.1 = t.lo := by
  induction t with
  | leaf k e v => exact ⟨(e, v), by simp [leaves], rfl⟩
  | node k l r ihl ihr =>
    obtain ⟨x, hx, ex⟩ := ihl
    obtain ⟨y, hy, ey⟩ := ihr
    simp only [lo, leaves]
    by_cases h : l.lo ≤ r.lo
    · exact ⟨x, by simp [hx], by omega⟩
    · exact ⟨y, by simp [hy], by omega⟩

theorem exists_hi (t : T) : ∃ x ∈ t.leaves, x.1 + x.2 = t.hi := by
  induction t with
  | leaf k e v => exact ⟨(e, v), by simp [leaves], by simp [hi]; omega⟩
  | node k l r ihl ihr =>
    obtain ⟨x, hx, ex⟩ := ihl
    obtain ⟨y, hy, ey⟩ := ihr
    simp only [hi, leaves]
    by_cases h : r.hi ≤ l.hi
    · exact ⟨x, by simp [hx], by omega⟩
    · exact ⟨y, by simp [hy], by omega⟩

theorem Ord_iff_sorted (t : T) : t.Ord ↔ SortedL t.leaves := by
  induction t with
  | leaf k e v => simp [Ord, SortedL, leaves]
  | node k l r ihl ihr =>
    simp only [Ord, leaves, SortedL, List.mem_append, List.pairwise_append]
    rw [ihl, ihr]
    constructor
    · rintro ⟨⟨h1, h2⟩, ⟨h3, h4⟩, h5⟩
      refine ⟨fun x hx => hx.elim (h1 x) (h3 x), h2, h4, fun a ha b hb => ?_⟩
      have := leaf_le_hi ha; have := lo_le_leaf hb; omega
    · rintro ⟨h1, h2, h3, h4⟩
      refine ⟨⟨fun x hx => h1 x (Or.inl hx), h2⟩, ⟨fun x hx => h1 x (Or.inr hx), h3⟩, ?_⟩
      obtain ⟨x, hx, ex⟩ := exists_hi l
      obtain ⟨y, hy, ey⟩ := exists_lo r
      have := h4 x hx y hy; omega

theorem val_eq_sum (t : T) : t.val = (t.leaves.map Prod.snd).sum := by
  induction t with
  | leaf => simp [val, leaves]
  | node k l r ihl ihr => simp [val, leaves, ihl, ihr]

/-- Where `insert` descends, given that the new interval overlaps nothing. -/
theorem goLeft_spec {k : Nat} {l r : T} (ho : (node k l r).Ord) (hd : Disj e v (node k l r).leaves) :
    (goLeft l r e = true → e + v ≤ r.lo) ∧ (goLeft l r e = false → l.hi ≤ e) := by
  obtain ⟨h1, h2, h3⟩ := ho
  obtain ⟨x, hx, ex⟩ := exists_hi l
  obtain ⟨y, hy, ey⟩ := exists_lo r
  have dx := hd x (by simp [leaves, hx])
  have dy := hd y (by simp [leaves, hy])
  have px := ((Ord_iff_sorted l).1 h1).1 x hx
  have py := ((Ord_iff_sorted r).1 h2).1 y hy
  unfold goLeft
  cases l.isNode <;> cases r.isNode <;> simp <;> omega

theorem Disj.left {k : Nat} {l r : T} (hd : Disj e v (node k l r).leaves) : Disj e v l.leaves :=
  fun x hx => hd x (by simp [leaves, hx])
theorem Disj.right {k : Nat} {l r : T} (hd : Disj e v (node k l r).leaves) : Disj e v r.leaves :=
  fun x hx => hd x (by simp [leaves, hx])

theorem insL_append_left {L R : List (Nat × Nat)} (h : ∀ x ∈ R, e < x.1) :
    insL e v (L ++ R) = insL e v L ++ R := by
  induction L with
  | nil =>
    cases R with
    | nil => rfl
    | cons y ys => simp [insL, h y (by simp)]
  | cons x xs ih => simp only [List.cons_append, insL]; split <;> simp [ih]

theorem insL_append_right {L R : List (Nat × Nat)} (h : ∀ x ∈ L, x.1 ≤ e) :
    insL e v (L ++ R) = L ++ insL e v R := by
  induction L with
  | nil => rfl
  | cons x xs ih =>
    simp only [List.cons_append, insL]
    rw [if_neg (by have := h x (by simp); omega), ih (fun y hy => h y (by simp [hy]))]

theorem ins_leaves (ho : t.Ord) (hv : 0 < v) (hd : Disj e v t.leaves) :
    (ins id nk e v t).leaves = insL e v t.leaves := by
  induction t with
  | leaf k e' v' =>
    have := hd (e', v') (by simp [leaves])
    simp only [Ord] at ho
    simp only [ins, split2]
    have hh : (leaf k e' v').hi = v' + e' := rfl
    have hl : (leaf k e' v').leaves = [(e', v')] := rfl
    rw [hl]
    simp only [insL]
    by_cases h : (leaf k e' v').hi ≤ e
    · rw [if_pos h, if_neg (by omega)]; rfl
    · rw [if_neg h, if_pos (by omega)]; rfl
  | node k l r ihl ihr =>
    have hg := goLeft_spec ho hd
    simp only [ins]
    split
    · rename_i h
      have := hg.1 h
      rw [rebal_leaves, ihl ho.1 hd.left]
      simp only [leaves]
      rw [insL_append_left]
      intro x hx; have := lo_le_leaf hx; omega
    · rename_i h
      have := hg.2 (by simpa using h)
      rw [rebal_leaves, ihr ho.2.1 hd.right]
      simp only [leaves]
      rw [insL_append_right]
      intro x hx; have := leaf_le_hi hx; omega

theorem insL_sorted {L : List (Nat × Nat)} (h : SortedL L) (hv : 0 < v) (hd : Disj e v L) :
    SortedL (insL e v L) := by
  induction L with
  | nil => simp [insL, SortedL, hv]
  | cons x xs ih =>
    obtain ⟨h1, h2⟩ := h
    rw [List.pairwise_cons] at h2
    have ih := ih ⟨fun y hy => h1 y (by simp [hy]), h2.2⟩ (fun y hy => hd y (by simp [hy]))
    have dx := hd x (by simp)
    have px := h1 x (by simp)
    unfold insL
    split
    · refine ⟨?_, ?_⟩
      · intro y hy; simp at hy; rcases hy with rfl | rfl | hy
        · exact hv
        · exact px
        · exact h1 y (by simp [hy])
      · rw [List.pairwise_cons]
        refine ⟨?_, List.pairwise_cons.2 h2⟩
        intro y hy
        simp at hy
        rcases hy with rfl | hy
        · simp; omega
        · have := h2.1 y hy; simp; omega
    · refine ⟨?_, ?_⟩
      · intro y hy; simp at hy; rcases hy with rfl | hy
        · exact px
        · exact ih.1 y hy
      · rw [List.pairwise_cons]
        refine ⟨?_, ih.2⟩
        intro y hy
        have : y = (e, v) ∨ y ∈ xs := by
          clear * - hy
          induction xs with
          | nil => simpa [insL] using hy
          | cons z zs ih =>
            simp only [insL] at hy
            split at hy
            · simpa using hy
            · simp at hy ⊢; rcases hy with rfl | hy
              · simp
              · rcases ih hy with h | h <;> simp [h]
        rcases this with rfl | hy
        · simp; omega
        · exact h2.1 y hy

theorem ins_Ord (ho : t.Ord) (hv : 0 < v) (hd : Disj e v t.leaves) : (ins id nk e v t).Ord := by
  rw [Ord_iff_sorted, ins_leaves ho hv hd]
  exact insL_sorted ((Ord_iff_sorted t).1 ho) hv hd

end T
end OB
