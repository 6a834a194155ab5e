import Verif.Proofs.Tree.Insert
/- The prefix-sum walk equals sequential realization. -/
namespace OB
open T

/-- Sum of the values of a list of leaves. -/
def sumv (L : List (Nat × Nat)) : Nat := (L.map Prod.snd).sum

@[simp] theorem sumv_nil : sumv [] = 0 := rfl
@[simp] theorem sumv_cons (x : Nat × Nat) (L : List (Nat × Nat)) : sumv (x :: L) = x.2 + sumv L := by simp [sumv]
@[simp] theorem sumv_append (L M : List (Nat × Nat)) : sumv (L ++ M) = sumv L + sumv M := by simp [sumv]
theorem val_eq_sumv (t : T) : t.val = sumv t.leaves := val_eq_sum t

/-- `d` of the leaves' total is already realized; realize further leaves from position `x`. -/
def walkSpec (x d : Nat) : List (Nat × Nat) → Nat
  | [] => 0
  | (e, v) :: L =>
    if v ≤ d then v + walkSpec x (d - v) L
    else if e ≤ x then v + walkSpec (x + v) 0 L
    else 0

/-- The realized amount `d` is a sum of leading leaves, each of which ends at or before `x`. -/
def DoneOk (x d : Nat) : List (Nat × Nat) → Prop
  | [] => True
  | (e, v) :: L => if v ≤ d then e + v ≤ x ∧ DoneOk x (d - v) L else d = 0

theorem doneOk_zero {x : Nat} {L : List (Nat × Nat)} (h : ∀ y ∈ L, 0 < y.2) : DoneOk x 0 L := by
  cases L with
  | nil => trivial
  | cons y ys =>
    obtain ⟨e, v⟩ := y
    have := h (e, v) (by simp)
    unfold DoneOk
    rw [if_neg (by simp at this; omega)]

theorem DoneOk.mono {x x' d : Nat} {L : List (Nat × Nat)} (h : DoneOk x d L) (hx : x ≤ x') : DoneOk x' d L := by
  induction L generalizing d with
  | nil => trivial
  | cons y ys ih =>
    obtain ⟨e, v⟩ := y
    simp only [DoneOk] at h ⊢
    split
    · rename_i hv
      rw [if_pos hv] at h
      exact ⟨by omega, ih h.2⟩
    · rename_i hv
      rwa [if_neg hv] at h

theorem doneOk_append {x d : Nat} {L M : List (Nat × Nat)} (hM : ∀ y ∈ M, 0 < y.2) (h : DoneOk x d (L ++ M)) :
    DoneOk x d L ∧ DoneOk x (d - sumv L) M := by
  induction L generalizing d with
  | nil => exact ⟨trivial, by simpa using h⟩
  | cons y ys ih =>
    obtain ⟨e, v⟩ := y
    simp only [List.cons_append, DoneOk] at h ⊢
    by_cases hv : v ≤ d
    · rw [if_pos hv] at h
      rw [if_pos hv]
      obtain ⟨h1, h2⟩ := ih h.2
      refine ⟨⟨h.1, h1⟩, ?_⟩
      rw [sumv_cons]
      rwa [show d - (v + sumv ys) = d - v - sumv ys by omega]
    · rw [if_neg hv] at h
      rw [if_neg hv]
      refine ⟨h, ?_⟩
      subst h
      simpa using doneOk_zero hM

theorem walkSpec_le (x d : Nat) (L : List (Nat × Nat)) : walkSpec x d L ≤ sumv L := by
  induction L generalizing x d with
  | nil => simp [walkSpec]
  | cons y ys ih =>
    obtain ⟨e, v⟩ := y
    simp only [walkSpec, sumv_cons]
    split
    · have := ih x (d - v); omega
    · split
      · have := ih (x + v) 0; omega
      · omega

theorem walkSpec_append {x d : Nat} {L M : List (Nat × Nat)} (hL : ∀ y ∈ L, 0 < y.2) (h : DoneOk x d L) :
    walkSpec x d (L ++ M) =
      if walkSpec x d L = sumv L then sumv L + walkSpec (x + (sumv L - d)) (d - sumv L) M else walkSpec x d L := by
  induction L generalizing x d with
  | nil => simp [walkSpec]
  | cons y ys ih =>
    obtain ⟨e, v⟩ := y
    have hv0 := hL (e, v) (by simp)
    have hL' : ∀ y ∈ ys, 0 < y.2 := fun y hy => hL y (by simp [hy])
    simp only [List.cons_append, walkSpec, sumv_cons, DoneOk] at *
    by_cases hv : v ≤ d
    · rw [if_pos hv] at h
      simp only [if_pos hv]
      rw [ih hL' h.2]
      by_cases hc : walkSpec x (d - v) ys = sumv ys
      · rw [if_pos hc, if_pos (by omega)]
        rw [show v + sumv ys - d = sumv ys - (d - v) by omega, show d - (v + sumv ys) = d - v - sumv ys by omega]
        omega
      · rw [if_neg hc, if_neg (by omega)]
    · rw [if_neg hv] at h
      simp only [if_neg hv]
      subst h
      by_cases he : e ≤ x
      · simp only [if_pos he]
        rw [ih hL' (doneOk_zero hL')]
        by_cases hc : walkSpec (x + v) 0 ys = sumv ys
        · rw [if_pos hc, if_pos (by omega)]
          simp only [Nat.sub_zero, Nat.zero_sub]
          rw [show x + v + sumv ys = x + (v + sumv ys) by omega]
          omega
        · rw [if_neg hc, if_neg (by omega)]
      · simp only [if_neg he]
        rw [if_neg (by omega)]

/-- All leaves of a sorted list below `h` are realized if position plus unrealized total reaches `h`. -/
theorem walkSpec_full {x d h : Nat} {L : List (Nat × Nat)} (hs : SortedL L) (hh : ∀ y ∈ L, y.1 + y.2 ≤ h)
    (hd : DoneOk x d L) (hx : h ≤ x + (sumv L - d)) : walkSpec x d L = sumv L := by
  induction L generalizing x d with
  | nil => rfl
  | cons y ys ih =>
    obtain ⟨e, v⟩ := y
    obtain ⟨s1, s2⟩ := hs
    rw [List.pairwise_cons] at s2
    have hs' : SortedL ys := ⟨fun y hy => s1 y (by simp [hy]), s2.2⟩
    have hh' : ∀ y ∈ ys, y.1 + y.2 ≤ h := fun y hy => hh y (by simp [hy])
    have hsum : e + (v + sumv ys) ≤ h := by
      have hh1 := hh (e, v) (by simp)
      have hlt := s2.1
      clear ih hd hx hs' s1
      have s3 := s2.2
      clear s2
      induction ys generalizing e v with
      | nil => simpa using hh1
      | cons z zs ih2 =>
        obtain ⟨e', v'⟩ := z
        rw [List.pairwise_cons] at s3
        have := ih2 e' v' (by intro y hy; exact hh y (by simp at hy ⊢; tauto))
          (fun y hy => hh' y (by simp [hy])) (hh' (e', v') (by simp)) s3.1 s3.2
        have := hlt (e', v') (by simp)
        simp only [sumv_cons] at *
        omega
    simp only [walkSpec, sumv_cons, DoneOk] at *
    by_cases hv : v ≤ d
    · rw [if_pos hv] at hd
      rw [if_pos hv, ih hs' hh' hd.2 (by omega)]
    · rw [if_neg hv] at hd
      subst hd
      rw [if_neg hv, if_pos (by omega), ih hs' hh' (doneOk_zero hs'.1) (by omega)]

theorem walkSpec_of_lt {x d : Nat} {L : List (Nat × Nat)} (hs : SortedL L) (hlt : ∀ y ∈ L, x < y.1) (hd : DoneOk x d L) :
    walkSpec x d L = 0 := by
  cases L with
  | nil => rfl
  | cons y ys =>
    obtain ⟨e, v⟩ := y
    have := hlt (e, v) (by simp)
    simp only [walkSpec, DoneOk] at *
    split at hd
    · omega
    · rw [if_neg ‹_›, if_neg (by omega)]

/-- The stored walk computes `walkSpec`, for a subtree whose leading leaves total `B` precede it. -/
theorem prefixSumWalk_spec {st : TreeSt} {tick : Int} {dir : Dir} : ∀ (t : T) {par : Option Nat} {fuel B x R : Nat},
    Rep (st.nodes tick) tick dir par t → t.Ord → t.hi < U256 → t.wt ≤ fuel → t.lo ≤ x →
    DoneOk x (R - B) t.leaves → x + (t.val - (R - B)) < U256 →
    prefixSumWalk st fuel (t.toNode tick dir par) (B + t.val) x R = .ok (B + walkSpec x (R - B) t.leaves) := by
  intro t
  induction t with
  | leaf k e v =>
    intro par fuel B x R hrep ho hh hf hx hd hov
    cases fuel with
    | zero => simp [wt] at hf
    | succ fuel =>
    have hfull : walkSpec x (R - B) (leaf k e v).leaves = v := by
      simp only [leaves, walkSpec, lo] at *
      split
      · omega
      · omega
    unfold prefixSumWalk
    rw [hfull]
    simp only [toNode_getMinRange, if_neg (not_lt.mpr hx), toNode_getMaxRange hh, Except.ok_bind', Except.pure_eq',
      toNode_isInternal, isNode_leaf, Bool.not_false, if_true, val, ite_self]
  | node k l r ihl ihr =>
    intro par fuel B x R hrep ho hh hf hx hd hov
    cases fuel with
    | zero => simp [wt] at hf
    | succ fuel =>
    have hso := (Ord_iff_sorted _).1 ho
    have hol := ho.1
    have hor := ho.2.1
    have hmid := ho.2.2
    have hlon := ho.lo_node
    have hhin := ho.hi_node
    have hl := hrep.2.1
    have hr := hrep.2.2
    have hsl := (Ord_iff_sorted l).1 hol
    have hsr := (Ord_iff_sorted r).1 hor
    have hll := hol.lo_lt_hi
    have hrl := hor.lo_lt_hi
    have hgl : TreeNode.getLeft ((node k l r).toNode tick dir par) st = some (l.toNode tick dir (some k)) := hl.root
    have hgr : TreeNode.getRight ((node k l r).toNode tick dir par) st = some (r.toNode tick dir (some k)) := hr.root
    have hval : (node k l r).val = l.val + r.val := rfl
    have hlv := val_eq_sumv l
    have hrv := val_eq_sumv r
    simp only [wt] at hf
    have hhl : l.hi < U256 := by omega
    have hhr : r.hi < U256 := by omega
    obtain ⟨hd1, hd2⟩ := doneOk_append hsr.1 hd
    rw [← hlv] at hd2
    have hleaves : (node k l r).leaves = l.leaves ++ r.leaves := rfl
    have happ := walkSpec_append (M := r.leaves) hsl.1 hd1
    rw [← hleaves, ← hlv] at happ
    unfold prefixSumWalk
    simp only [toNode_getMinRange, if_neg (not_lt.mpr hx), toNode_getMaxRange hh, Except.ok_bind', Except.pure_eq',
      toNode_isInternal, isNode_node, Bool.not_true, Bool.false_eq_true, if_false, hgl, hgr, toNode_getValue,
      checkedSub_ok (Nat.le_add_left (node k l r).val B), Nat.add_sub_cancel]
    by_cases hmax : x ≥ (node k l r).hi
    · rw [if_pos hmax]
      rw [walkSpec_full hso (fun y hy => leaf_le_hi hy) hd (by omega), ← val_eq_sumv]
    rw [if_neg hmax]
    rw [checkedAdd_ok (show x + (l.val - (R - B)) < U256 by omega)]
    simp only [Except.ok_bind']
    by_cases hres : x + (l.val - (R - B)) ≥ r.lo
    · -- resync: everything on the left is realized
      simp only [if_pos hres, Except.ok_bind']
      have hfl : walkSpec x (R - B) l.leaves = l.val := by
        rw [hlv]; exact walkSpec_full hsl (fun y hy => leaf_le_hi hy) hd1 (by rw [← hlv]; omega)
      rw [happ, if_pos hfl]
      have hRB : R - B - l.val = R - (B + l.val) := by omega
      have := ihr (fuel := fuel) (B := B + l.val) (x := x + (l.val - (R - B))) (R := R) hr hor hhr (by omega) hres
        (by rw [← hRB]; exact hd2.mono (by omega)) (by omega)
      rw [hval, ← Nat.add_assoc, this, hRB]
      congr 1; omega
    · simp only [if_neg hres, Except.ok_bind']
      -- nothing on the right is realized
      have hdl : R - B ≤ l.val := by
        by_contra hc
        obtain ⟨y, hy, ey⟩ := exists_lo r
        cases hrle : r.leaves with
        | nil => rw [hrle] at hy; simp at hy
        | cons z zs =>
          obtain ⟨e', v'⟩ := z
          rw [hrle] at hd2
          simp only [DoneOk] at hd2
          have := lo_le_leaf (t := r) (x := (e', v')) (by rw [hrle]; simp)
          split at hd2
          · simp at this; omega
          · omega
      have hr0 : R - B - l.val = 0 := by omega
      have hwr : walkSpec (x + (l.val - (R - B))) 0 r.leaves = 0 := by
        refine walkSpec_of_lt hsr (fun y hy => ?_) (doneOk_zero hsr.1)
        have := lo_le_leaf hy; omega
      rw [hr0, hwr, Nat.add_zero] at happ
      have happ' : walkSpec x (R - B) (node k l r).leaves = walkSpec x (R - B) l.leaves := by
        rw [happ]; split <;> simp_all
      rw [happ']
      rw [if_neg (show ¬ x < l.lo by omega), toNode_getMaxRange hhl]
      simp only [Except.ok_bind']
      by_cases hxl : x < l.hi
      · simp only [if_pos hxl, Except.ok_bind']
        rw [show B + (node k l r).val = B + l.val + r.val by omega]
        simp only [Option.map_some, toNode_getValue, Option.getD_some, checkedSub_ok (Nat.le_add_left r.val (B + l.val)),
          Nat.add_sub_cancel, Except.ok_bind']
        exact ihl (fuel := fuel) hl hol hhl (by omega) (by omega) hd1 (by omega)
      · simp only [if_neg hxl, Except.ok_bind']
        rw [if_pos (show x < r.lo by omega)]
        rw [show B + (node k l r).val = B + l.val + r.val by omega, checkedSub_ok (by omega), Nat.add_sub_cancel]
        rw [walkSpec_full hsl (h := l.hi) (fun y hy => leaf_le_hi hy) hd1 (by omega), ← hlv]

end OB
