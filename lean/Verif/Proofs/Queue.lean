import Verif.Spec
import Verif.Proofs.Tree.Walk
/- Queue arithmetic: positions, FIFO fills, realizable cancels. -/
namespace OB

/-- Amount of the order that swaps can ever take. -/
def Entry.cap (x : Entry) : Nat := if x.cancelled then x.claimed else x.placed
/-- Amount refunded by a cancel. -/
def Entry.gap (x : Entry) : Nat := x.placed - x.cap

structure EntryOk (x : Entry) : Prop where
  pos : 0 < x.placed
  lt : x.placed < U128
  claimed_le : x.claimed ≤ x.filled
  filled_le : x.filled ≤ x.placed
  canc : x.cancelled = true → x.filled = x.claimed ∧ x.claimed < x.placed

def sumBy (f : Entry → Nat) (q : List Entry) : Nat := (q.map f).sum

@[simp] theorem sumBy_nil (f : Entry → Nat) : sumBy f [] = 0 := rfl
@[simp] theorem sumBy_cons (f : Entry → Nat) (x : Entry) (q : List Entry) : sumBy f (x :: q) = f x + sumBy f q := by
  simp [sumBy]
@[simp] theorem sumBy_append (f : Entry → Nat) (p q : List Entry) : sumBy f (p ++ q) = sumBy f p + sumBy f q := by
  simp [sumBy]

theorem EntryOk.cap_le {x : Entry} (h : EntryOk x) : x.cap ≤ x.placed := by
  unfold Entry.cap
  have := h.claimed_le; have := h.filled_le
  split <;> omega
theorem EntryOk.cap_add_gap {x : Entry} (h : EntryOk x) : x.cap + x.gap = x.placed := by
  have := h.cap_le; unfold Entry.gap; omega
theorem EntryOk.filled_add_left {x : Entry} (h : EntryOk x) : x.filled + x.left = x.cap := by
  unfold Entry.left Entry.cap
  have := h.filled_le
  cases hc : x.cancelled with
  | true => have := (h.canc hc).1; simp; omega
  | false => simp; omega

theorem sum_cap_gap {q : List Entry} (h : ∀ x ∈ q, EntryOk x) :
    sumBy Entry.cap q + sumBy Entry.gap q = sumBy Entry.placed q := by
  induction q with
  | nil => rfl
  | cons x q ih =>
    have := ih (fun y hy => h y (by simp [hy]))
    have := (h x (by simp)).cap_add_gap
    simp; omega

theorem sum_filled_left {q : List Entry} (h : ∀ x ∈ q, EntryOk x) :
    sumBy Entry.filled q + sumBy Entry.left q = sumBy Entry.cap q := by
  induction q with
  | nil => rfl
  | cons x q ih =>
    have := ih (fun y hy => h y (by simp [hy]))
    have := (h x (by simp)).filled_add_left
    simp; omega

/-! ### FIFO -/

/-- A total of `S` is distributed over the queue, oldest first. -/
def Fifo : Nat → List Entry → Prop
  | _, [] => True
  | S, x :: q => x.filled = min S x.cap ∧ Fifo (S - x.cap) q

theorem fifo_append {S : Nat} {p q : List Entry} :
    Fifo S (p ++ q) ↔ Fifo S p ∧ Fifo (S - sumBy Entry.cap p) q := by
  induction p generalizing S with
  | nil => simp [Fifo]
  | cons x p ih => simp [Fifo, ih, Nat.sub_sub, and_assoc]

theorem fillQ_zero (q : List Entry) : fillQ 0 q = q := by
  induction q with
  | nil => rfl
  | cons x q ih => simp [fillQ, ih]

theorem fillQ_cap (f : Nat) (x : Entry) (y : Nat) : ({ x with filled := y } : Entry).cap = x.cap := rfl

theorem fillQ_fifo {S f : Nat} {q : List Entry} (h : ∀ x ∈ q, EntryOk x) (hf : Fifo S q) : Fifo (S + f) (fillQ f q) := by
  induction q generalizing S f with
  | nil => trivial
  | cons x q ih =>
    have hx := (h x (by simp)).filled_add_left
    obtain ⟨h1, h2⟩ := hf
    simp only [fillQ, Fifo, fillQ_cap]
    refine ⟨by omega, ?_⟩
    have h3 := ih (f := f - min f x.left) (fun y hy => h y (by simp [hy])) h2
    have : S - x.cap + (f - min f x.left) = S + f - x.cap := by omega
    rwa [this] at h3

theorem fillQ_sumFilled {f : Nat} {q : List Entry} (h : f ≤ sumBy Entry.left q) :
    sumBy Entry.filled (fillQ f q) = sumBy Entry.filled q + f := by
  induction q generalizing f with
  | nil => simp at h; simp [fillQ, h]
  | cons x q ih =>
    simp only [sumBy_cons, fillQ] at h ⊢
    have := ih (f := f - min f x.left) (by omega)
    omega

theorem fillQ_sumLeft {f : Nat} {q : List Entry} (h : f ≤ sumBy Entry.left q) :
    sumBy Entry.left (fillQ f q) = sumBy Entry.left q - f := by
  induction q generalizing f with
  | nil => simp [fillQ]
  | cons x q ih =>
    simp only [sumBy_cons, fillQ] at h ⊢
    have h1 := ih (f := f - min f x.left) (by omega)
    have h2 : ({ x with filled := x.filled + min f x.left } : Entry).left = x.left - min f x.left := by
      unfold Entry.left; split <;> simp <;> omega
    omega

theorem fillQ_ok {f : Nat} {q : List Entry} (h : ∀ x ∈ q, EntryOk x) : ∀ x ∈ fillQ f q, EntryOk x := by
  induction q generalizing f with
  | nil => simp [fillQ]
  | cons x q ih =>
    simp only [fillQ, List.mem_cons, forall_eq_or_imp]
    refine ⟨?_, ih (fun y hy => h y (by simp [hy]))⟩
    have hx := h x (by simp)
    have h1 := hx.filled_le; have h2 := hx.claimed_le
    refine ⟨hx.pos, hx.lt, ?_, ?_, ?_⟩
    · simp; omega
    · simp only; unfold Entry.left; split <;> omega
    · intro hc
      simp only at hc
      have := hx.canc hc
      simp only [Entry.left, hc, if_true]; omega

/-- `fillQ` changes only the filled amounts. -/
theorem fillQ_map {α : Type} (f : Nat) (q : List Entry) (g : Entry → α) (hg : ∀ x y, g { x with filled := y } = g x) :
    (fillQ f q).map g = q.map g := by
  induction q generalizing f with
  | nil => rfl
  | cons x q ih => simp [fillQ, ih, hg]

theorem fillQ_length (f : Nat) (q : List Entry) : (fillQ f q).length = q.length := by
  simpa using congrArg List.length (fillQ_map f q (fun _ => ()) (fun _ _ => rfl))

theorem fillQ_sum (f : Nat) (q : List Entry) (g : Entry → Nat) (hg : ∀ x y, g { x with filled := y } = g x) :
    sumBy g (fillQ f q) = sumBy g q := by unfold sumBy; rw [fillQ_map _ _ _ hg]

/-! ### Realization of cancels -/

/-- Total of the cancelled remainders whose turn has come once `S` was filled. -/
def rz : Nat → List Entry → Nat
  | _, [] => 0
  | S, x :: q => if x.cap ≤ S then x.gap + rz (S - x.cap) q else 0

/-- As `rz`, but only those that the fills have gone beyond. -/
def rs : Nat → List Entry → Nat
  | _, [] => 0
  | S, x :: q => if x.cap < S then x.gap + rs (S - x.cap) q else 0

/-- `r` is the total of the cancelled remainders of a prefix of the queue whose turn has come. -/
def Done : Nat → Nat → List Entry → Prop
  | r, _, [] => r = 0
  | r, S, x :: q => r = 0 ∨ (x.cap ≤ S ∧ x.gap ≤ r ∧ Done (r - x.gap) (S - x.cap) q)

theorem done_zero (S : Nat) (q : List Entry) : Done 0 S q := by cases q <;> simp [Done]

theorem done_rz (S : Nat) (q : List Entry) : Done (rz S q) S q := by
  induction q generalizing S with
  | nil => rfl
  | cons x q ih =>
    simp only [rz, Done]
    split
    · right
      refine ⟨‹_›, by omega, ?_⟩
      rw [Nat.add_sub_cancel_left]; exact ih _
    · left; rfl

theorem Done.le_rz {r S : Nat} {q : List Entry} (h : Done r S q) : r ≤ rz S q := by
  induction q generalizing r S with
  | nil => simp [Done] at h; simp [h]
  | cons x q ih =>
    rcases h with h | ⟨h1, h2, h3⟩
    · omega
    · have := ih h3
      simp only [rz, if_pos h1]; omega

theorem Done.mono {r S S' : Nat} {q : List Entry} (h : Done r S q) (hs : S ≤ S') : Done r S' q := by
  induction q generalizing r S S' with
  | nil => exact h
  | cons x q ih =>
    rcases h with h | ⟨h1, h2, h3⟩
    · exact Or.inl h
    · exact Or.inr ⟨by omega, h2, ih h3 (by omega)⟩

theorem rz_le_gap (S : Nat) (q : List Entry) : rz S q ≤ sumBy Entry.gap q := by
  induction q generalizing S with
  | nil => simp [rz]
  | cons x q ih =>
    simp only [rz, sumBy_cons]
    split
    · have := ih (S - x.cap); omega
    · omega

theorem rs_le_rz (S : Nat) (q : List Entry) : rs S q ≤ rz S q := by
  induction q generalizing S with
  | nil => simp [rz, rs]
  | cons x q ih =>
    simp only [rz, rs]
    split
    · rw [if_pos (by omega)]; have := ih (S - x.cap); omega
    · omega

theorem rz_append {S : Nat} {p q : List Entry} :
    rz S (p ++ q) = if sumBy Entry.cap p ≤ S then sumBy Entry.gap p + rz (S - sumBy Entry.cap p) q else rz S p := by
  induction p generalizing S with
  | nil => simp
  | cons x p ih =>
    simp only [List.cons_append, rz, sumBy_cons]
    by_cases h : x.cap ≤ S
    · rw [if_pos h, if_pos h, ih]
      by_cases h2 : sumBy Entry.cap p ≤ S - x.cap
      · rw [if_pos h2, if_pos (by omega), Nat.sub_sub]; omega
      · rw [if_neg h2, if_neg (by omega)]
    · rw [if_neg h, if_neg h, if_neg (by omega)]

theorem rs_append_lt {S : Nat} {p q : List Entry} (h : sumBy Entry.cap p < S) :
    rs S (p ++ q) = sumBy Entry.gap p + rs (S - sumBy Entry.cap p) q := by
  induction p generalizing S with
  | nil => simp
  | cons x p ih =>
    simp only [List.cons_append, rs, sumBy_cons] at h ⊢
    rw [if_pos (by omega), ih (by omega), Nat.sub_sub]; omega

/-- Core lemma: once the side is synced, the distance between ETAS (`S + r`) and an order's place in the queue is, up to
its size, what FIFO fills it with. -/
theorem posFill {r S : Nat} {p q : List Entry} {x : Entry} (hok : ∀ y ∈ p, EntryOk y) (hd : Done r S (p ++ x :: q))
    (hs : rs S (p ++ x :: q) ≤ r) (hc : x.cancelled = false) (hpos : 0 < x.placed) :
    min (S + r - sumBy Entry.placed p) x.placed = min (S - sumBy Entry.cap p) x.placed := by
  have hsum := sum_cap_gap hok
  have hcap : x.cap = x.placed := by simp [Entry.cap, hc]
  have hr := hd.le_rz
  rw [rz_append] at hr
  by_cases hA : sumBy Entry.cap p < S
  · rw [rs_append_lt hA] at hs
    rw [if_pos (by omega)] at hr
    by_cases hQ : x.placed ≤ S - sumBy Entry.cap p
    · omega
    · simp only [rz, hcap, if_neg hQ] at hr
      omega
  · have : r ≤ sumBy Entry.gap p := by
      split at hr
      · simp only [rz, hcap] at hr
        rw [if_neg (by omega)] at hr
        omega
      · exact hr.trans (rz_le_gap _ _)
    omega

/-- Cancelling an order without unclaimed fill. -/
theorem cancel_done {r S : Nat} {p q : List Entry} {x x' : Entry} (hx : x.cancelled = false)
    (hlt : x.claimed < x.placed) (hS : S - sumBy Entry.cap p = x.claimed) (hcap : x'.cap = x.claimed)
    (hd : Done r S (p ++ x :: q)) : Done r S (p ++ x' :: q) ∧ rs S (p ++ x' :: q) = rs S (p ++ x :: q) := by
  have hcx : x.cap = x.placed := by simp [Entry.cap, hx]
  induction p generalizing r S with
  | nil =>
    simp at hS
    simp only [List.nil_append, Done, rs, hcx, hcap] at hd ⊢
    have : r = 0 := by
      rcases hd with h | ⟨h1, _⟩
      · exact h
      · omega
    exact ⟨Or.inl this, by rw [if_neg (by omega), if_neg (by omega)]⟩
  | cons y p ih =>
    simp only [List.cons_append, Done, rs, sumBy_cons] at hd hS ⊢
    rcases hd with h | ⟨h1, h2, h3⟩
    · refine ⟨Or.inl h, ?_⟩
      have := (ih (r := 0) (S := S - y.cap) (by omega) (done_zero _ _)).2
      rw [this]
    · obtain ⟨i1, i2⟩ := ih (r := r - y.gap) (S := S - y.cap) (by omega) h3
      exact ⟨Or.inr ⟨h1, h2, i1⟩, by rw [i2]⟩

theorem done_place {r S : Nat} {q : List Entry} {x : Entry} (hd : Done r S q) : Done r S (q ++ [x]) := by
  induction q generalizing r S with
  | nil => simp [Done] at hd ⊢; simp [hd]
  | cons y q ih =>
    simp only [List.cons_append, Done] at hd ⊢
    rcases hd with h | ⟨h1, h2, h3⟩
    · exact Or.inl h
    · exact Or.inr ⟨h1, h2, ih h3⟩

theorem rs_place {S : Nat} {q : List Entry} {x : Entry} (h : x.gap = 0) : rs S (q ++ [x]) = rs S q := by
  induction q generalizing S with
  | nil => simp [rs, h]
  | cons y q ih => simp only [List.cons_append, rs, ih]

/-- `rz`, `rs`, `Done` depend only on capacities and gaps. -/
theorem rz_congr {S : Nat} {p q : List Entry} (h : p.map (fun x => (x.cap, x.gap)) = q.map (fun x => (x.cap, x.gap))) :
    rz S p = rz S q ∧ rs S p = rs S q ∧ ∀ r, Done r S p ↔ Done r S q := by
  induction p generalizing q S with
  | nil =>
    cases q with
    | nil => simp
    | cons => simp at h
  | cons x p ih =>
    cases q with
    | nil => simp at h
    | cons y q =>
      simp only [List.map_cons, List.cons.injEq, Prod.mk.injEq] at h
      obtain ⟨⟨h1, h2⟩, h3⟩ := h
      obtain ⟨a, b, c⟩ := ih (S := S - x.cap) h3
      rw [h1] at a b c
      simp only [rz, rs, Done, h1, h2, a, b, c, implies_true, and_self]

/-! ### Leaves -/

/-- Positions and sizes of the cancelled remainders, for a queue starting at position `P`. -/
def leavesOf : Nat → List Entry → List (Nat × Nat)
  | _, [] => []
  | P, x :: q =>
    if x.cancelled then (P + x.claimed, x.placed - x.claimed) :: leavesOf (P + x.placed) q
    else leavesOf (P + x.placed) q

theorem leavesOf_append (P : Nat) (p q : List Entry) :
    leavesOf P (p ++ q) = leavesOf P p ++ leavesOf (P + sumBy Entry.placed p) q := by
  induction p generalizing P with
  | nil => simp [leavesOf]
  | cons x p ih =>
    simp only [List.cons_append, leavesOf, sumBy_cons, ih, ← Nat.add_assoc]
    split <;> simp

theorem leavesOf_congr {P : Nat} {p q : List Entry}
    (h : p.map (fun x => (x.cancelled, if x.cancelled then x.claimed else 0, x.placed)) =
      q.map (fun x => (x.cancelled, if x.cancelled then x.claimed else 0, x.placed))) :
    leavesOf P p = leavesOf P q := by
  induction p generalizing P q with
  | nil =>
    cases q with
    | nil => rfl
    | cons => simp at h
  | cons x p ih =>
    cases q with
    | nil => simp at h
    | cons y q =>
      simp only [List.map_cons, List.cons.injEq, Prod.mk.injEq] at h
      obtain ⟨⟨h1, h2, h3⟩, h4⟩ := h
      simp only [leavesOf, h1, h3, ih h4]
      cases hy : y.cancelled with
      | true => simp [h1, hy] at h2; simp [h2]
      | false => rfl

theorem leavesOf_bounds {P : Nat} {q : List Entry} (h : ∀ x ∈ q, EntryOk x) :
    ∀ y ∈ leavesOf P q, P ≤ y.1 ∧ 0 < y.2 ∧ y.1 + y.2 ≤ P + sumBy Entry.placed q := by
  induction q generalizing P with
  | nil => simp [leavesOf]
  | cons x q ih =>
    have hx := h x (by simp)
    have ih' := ih (P := P + x.placed) (fun y hy => h y (by simp [hy]))
    intro y hy
    simp only [leavesOf, sumBy_cons] at hy ⊢
    split at hy
    · rename_i hc
      have := hx.canc hc
      simp only [List.mem_cons] at hy
      rcases hy with rfl | hy
      · simp; omega
      · have := ih' y hy; omega
    · have := ih' y hy; omega

theorem leavesOf_sum {P : Nat} {q : List Entry} : sumv (leavesOf P q) = sumBy Entry.gap q := by
  induction q generalizing P with
  | nil => rfl
  | cons x q ih =>
    simp only [leavesOf, sumBy_cons]
    split
    · rename_i hc
      simp [ih, Entry.gap, Entry.cap, hc]
    · rename_i hc
      simp [ih, Entry.gap, Entry.cap, hc]

theorem leavesOf_sorted {P : Nat} {q : List Entry} (h : ∀ x ∈ q, EntryOk x) : T.SortedL (leavesOf P q) := by
  induction q generalizing P with
  | nil => simp [leavesOf, T.SortedL]
  | cons x q ih =>
    have hq : ∀ y ∈ q, EntryOk y := fun y hy => h y (by simp [hy])
    have ih' := ih (P := P + x.placed) hq
    simp only [leavesOf]
    split
    · rename_i hc
      have := (h x (by simp)).canc hc
      refine ⟨?_, ?_⟩
      · simp only [List.mem_cons, forall_eq_or_imp]; exact ⟨by omega, ih'.1⟩
      · rw [List.pairwise_cons]
        refine ⟨fun y hy => ?_, ih'.2⟩
        have := leavesOf_bounds hq y hy
        simp only; omega
    · exact ih'

/-- The walk from position `P + S + r` realizes exactly `rz`. -/
theorem walk_leavesOf {P S r : Nat} {q : List Entry} (h : ∀ x ∈ q, EntryOk x) (hd : Done r S q) :
    walkSpec (P + S + r) r (leavesOf P q) = rz S q ∧ DoneOk (P + S + r) r (leavesOf P q) := by
  induction q generalizing P S r with
  | nil => exact ⟨rfl, trivial⟩
  | cons x q ih =>
    have hx := h x (by simp)
    have hq : ∀ y ∈ q, EntryOk y := fun y hy => h y (by simp [hy])
    cases hc : x.cancelled with
    | false =>
      have hcap : x.cap = x.placed := by simp [Entry.cap, hc]
      have hgap : x.gap = 0 := by simp [Entry.gap, hcap]
      simp only [leavesOf, hc, rz, hcap, hgap, Bool.false_eq_true, if_false]
      by_cases hS : x.placed ≤ S
      · rw [if_pos hS]
        have hd' : Done r (S - x.placed) q := by
          rcases hd with h | ⟨_, _, h3⟩
          · rw [h]; exact done_zero _ _
          · rwa [hgap, hcap] at h3
        have := ih (P := P + x.placed) hq hd'
        rw [show P + x.placed + (S - x.placed) + r = P + S + r by omega] at this
        rw [this.1]
        exact ⟨by omega, this.2⟩
      · rw [if_neg hS]
        have hr : r = 0 := by
          rcases hd with h | ⟨h1, _⟩
          · exact h
          · omega
        subst hr
        have hso := leavesOf_sorted (P := P + x.placed) hq
        have hdo : DoneOk (P + S + 0) 0 (leavesOf (P + x.placed) q) := doneOk_zero hso.1
        refine ⟨walkSpec_of_lt hso (fun y hy => ?_) hdo, hdo⟩
        have := leavesOf_bounds hq y hy
        omega
    | true =>
      have hcl := hx.canc hc
      have hcap : x.cap = x.claimed := by simp [Entry.cap, hc]
      have hgap : x.gap = x.placed - x.claimed := by simp [Entry.gap, hcap]
      simp only [leavesOf, hc, rz, hcap, hgap, if_true, walkSpec, DoneOk]
      by_cases hr : x.placed - x.claimed ≤ r
      · rw [if_pos hr, if_pos hr]
        rcases hd with h | ⟨h1, h2, h3⟩
        · omega
        · rw [hcap] at h1 h3; rw [hgap] at h3
          have := ih (P := P + x.placed) hq h3
          rw [show P + x.placed + (S - x.claimed) + (r - (x.placed - x.claimed)) = P + S + r by omega] at this
          rw [if_pos h1, this.1]
          exact ⟨rfl, by omega, this.2⟩
      · rw [if_neg hr, if_neg hr]
        have hr0 : r = 0 := by
          rcases hd with h | ⟨_, h2, _⟩
          · exact h
          · omega
        subst hr0
        refine ⟨?_, rfl⟩
        by_cases hS : x.claimed ≤ S
        · rw [if_pos hS, if_pos (by omega)]
          have := ih (P := P + x.placed) (S := S - x.claimed) (r := 0) hq (done_zero _ _)
          rw [show P + x.placed + (S - x.claimed) + 0 = P + S + 0 + (x.placed - x.claimed) by omega] at this
          rw [this.1]
        · rw [if_neg hS, if_neg (by omega)]

/-! ### Scaling to Decimal256 atomics -/

def scale (L : List (Nat × Nat)) : List (Nat × Nat) := L.map fun y => (D * y.1, D * y.2)

theorem sumv_scale (L : List (Nat × Nat)) : sumv (scale L) = D * sumv L := by
  induction L with
  | nil => rfl
  | cons y L ih => simp only [scale, List.map_cons, sumv_cons] at *; rw [ih, Nat.mul_add]

theorem walkSpec_scale (x d : Nat) (L : List (Nat × Nat)) :
    walkSpec (D * x) (D * d) (scale L) = D * walkSpec x d L := by
  induction L generalizing x d with
  | nil => rfl
  | cons y L ih =>
    obtain ⟨e, v⟩ := y
    have hD := D_pos
    simp only [scale, List.map_cons, walkSpec, Nat.mul_le_mul_left_iff hD] at *
    by_cases h1 : v ≤ d
    · rw [if_pos h1, if_pos h1, ← Nat.mul_sub, ih, Nat.mul_add]
    · rw [if_neg h1, if_neg h1]
      by_cases h2 : e ≤ x
      · rw [if_pos h2, if_pos h2, ← Nat.mul_add]
        have := ih (x + v) 0
        rw [Nat.mul_zero] at this
        rw [this, Nat.mul_add]
      · rw [if_neg h2, if_neg h2, Nat.mul_zero]

theorem doneOk_scale {x d : Nat} {L : List (Nat × Nat)} (h : DoneOk x d L) : DoneOk (D * x) (D * d) (scale L) := by
  induction L generalizing x d with
  | nil => trivial
  | cons y L ih =>
    obtain ⟨e, v⟩ := y
    have hD := D_pos
    simp only [scale, List.map_cons, DoneOk, Nat.mul_le_mul_left_iff hD] at *
    by_cases h1 : v ≤ d
    · rw [if_pos h1] at h ⊢
      refine ⟨?_, ?_⟩
      · rw [← Nat.mul_add]; exact Nat.mul_le_mul_left _ h.1
      · rw [← Nat.mul_sub]; exact ih h.2
    · rw [if_neg h1] at h ⊢
      rw [h]; rfl

end OB
