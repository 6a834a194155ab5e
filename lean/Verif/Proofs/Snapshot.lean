import Verif.Props.Answers
import Verif.SpecSnapshot
/- Queues that look alike from outside: the same live orders, the same totals. They stay alike, whatever happens. -/
namespace OB
open Spec

/-- What the invariant of the book says about one queue. -/
structure QOk (q : List Entry) : Prop where
  ok : ∀ x ∈ q, EntryOk x
  fifo : Fifo (sumBy Entry.filled q) q
  inc : q.Pairwise fun x y => x.id < y.id

/-- Two queues that look alike: the same orders are shown, the same totals. -/
structure QAlike (q q' : List Entry) : Prop where
  shown : ∀ t d, shownQ t d 0 q = shownQ t d 0 q'
  left : sumBy Entry.left q = sumBy Entry.left q'
  placed : sumBy Entry.placed q = sumBy Entry.placed q'
  filled : sumBy Entry.filled q = sumBy Entry.filled q'

theorem Rel.qok {s : Store} {b : Book} (h : Rel s b) (t : Int) (d : Dir) : QOk (b t d) := by
  obtain ⟨r, rt, hr, -, -⟩ := h.sides t d
  exact ⟨hr.ok, hr.fifo, h.ids.inc t d⟩

theorem shownQ_append (t : Int) (d : Dir) (P : Nat) (p q : List Entry) :
    shownQ t d P (p ++ q) = shownQ t d P p ++ shownQ t d (P + sumBy Entry.placed p) q := by
  induction p generalizing P with
  | nil => simp [shownQ]
  | cons x p ih =>
    rw [List.cons_append, shownQ.eq_2, shownQ.eq_2, ih, sumBy_cons, ← Nat.add_assoc]
    split
    · rw [List.cons_append]
    · rfl

/-- Where a shown order begins. -/
def startOf (o : LimitOrder) : Nat := o.etas / 10 ^ 18 - (o.placedQuantity - o.quantity)

/-- The order that is shown, if fills have got to the position `F`. -/
def unshow (F : Nat) (o : LimitOrder) : Entry :=
  ⟨o.orderId, o.owner, o.claimBounty, o.placedAt, o.placedQuantity, min o.placedQuantity (F - startOf o), o.placedQuantity - o.quantity, false⟩

theorem startOf_shown {t : Int} {d : Dir} {P : Nat} {x : Entry} (h : x.claimed ≤ x.placed) : startOf (shown t d P x) = P := by
  unfold startOf shown
  simp only
  rw [Nat.mul_div_cancel_left _ (by norm_num)]
  omega

theorem unshow_shown {t : Int} {d : Dir} {P F : Nat} {x : Entry} (h : EntryOk x) (hl : x.Live) (hF : x.filled = min x.placed (F - P)) :
    unshow F (shown t d P x) = x := by
  have h1 := h.claimed_le; have h2 := h.filled_le
  unfold unshow
  rw [startOf_shown (by omega)]
  obtain ⟨hc, -⟩ := hl
  cases x
  simp only [shown, Entry.mk.injEq] at *
  refine ⟨trivial, trivial, trivial, trivial, trivial, hF.symm, by omega, hc.symm⟩

theorem live_unshow_zero {t : Int} {d : Dir} {q : List Entry} (hok : ∀ x ∈ q, EntryOk x) (hz : ∀ x ∈ q, x.filled = 0) {P F : Nat}
    (hF : F ≤ P) : (q.filter fun x => decide x.Live) = (shownQ t d P q).map (unshow F) := by
  induction q generalizing P with
  | nil => rfl
  | cons x q ih =>
    have hx := hok x (by simp)
    have ih := ih (fun y hy => hok y (by simp [hy])) (fun y hy => hz y (by simp [hy])) (P := P + x.placed) (by omega)
    unfold shownQ
    by_cases hl : x.Live
    · rw [List.filter_cons_of_pos (by simpa using hl), if_pos hl, List.map_cons, unshow_shown hx hl, ih]
      rw [hz x (by simp), Nat.sub_eq_zero_of_le hF]; omega
    · rw [List.filter_cons_of_neg (by simpa using hl), if_neg hl, ih]

theorem live_unshow {t : Int} {d : Dir} {q : List Entry} (hok : ∀ x ∈ q, EntryOk x) {S P : Nat} (hf : Fifo S q) :
    (q.filter fun x => decide x.Live) = (shownQ t d P q).map (unshow (P + S + rz S q)) := by
  induction q generalizing P S with
  | nil => rfl
  | cons x q ih =>
    have hx := hok x (by simp)
    have hok' : ∀ y ∈ q, EntryOk y := fun y hy => hok y (by simp [hy])
    obtain ⟨h1, h2⟩ := hf
    have hc := hx.cap_le
    have hg := hx.cap_add_gap
    unfold shownQ rz
    by_cases hS : x.cap ≤ S
    · rw [if_pos hS]
      have e : P + S + (x.gap + rz (S - x.cap) q) = (P + x.placed) + (S - x.cap) + rz (S - x.cap) q := by omega
      have ih := ih hok' h2 (P := P + x.placed)
      rw [← e] at ih
      by_cases hl : x.Live
      · rw [List.filter_cons_of_pos (by simpa using hl), if_pos hl, List.map_cons, unshow_shown hx hl, ih]
        have : x.cap = x.placed := by unfold Entry.cap; rw [hl.1]; rfl
        omega
      · rw [List.filter_cons_of_neg (by simpa using hl), if_neg hl, ih]
    · rw [if_neg hS]
      have h0 : S - x.cap = 0 := by omega
      rw [h0] at h2
      have ih := live_unshow_zero (t := t) (d := d) hok' (fifo_zero h2) (P := P + x.placed) (F := P + S + 0) (by omega)
      by_cases hl : x.Live
      · rw [List.filter_cons_of_pos (by simpa using hl), if_pos hl, List.map_cons, unshow_shown hx hl, ih]
        have : x.cap = x.placed := by unfold Entry.cap; rw [hl.1]; rfl
        omega
      · rw [List.filter_cons_of_neg (by simpa using hl), if_neg hl, ih]

/-- Fills have got to the end, or they stop inside an order that is shown. -/
theorem frontier {t : Int} {d : Dir} {q : List Entry} (hok : ∀ x ∈ q, EntryOk x) {S P : Nat} (hf : Fifo S q) (hS : S ≤ sumBy Entry.cap q) :
    P + S + rz S q = P + sumBy Entry.placed q ∨
      ∃ o ∈ shownQ t d P q, startOf o ≤ P + S + rz S q ∧ P + S + rz S q < startOf o + o.placedQuantity := by
  induction q generalizing P S with
  | nil => left; simp at hS; simp [rz, hS]
  | cons x q ih =>
    have hx := hok x (by simp)
    have hok' : ∀ y ∈ q, EntryOk y := fun y hy => hok y (by simp [hy])
    obtain ⟨h1, h2⟩ := hf
    have hc := hx.cap_le
    have hg := hx.cap_add_gap
    rw [sumBy_cons] at hS ⊢
    unfold shownQ rz
    by_cases hS' : x.cap ≤ S
    · rw [if_pos hS']
      have e : P + S + (x.gap + rz (S - x.cap) q) = (P + x.placed) + (S - x.cap) + rz (S - x.cap) q := by omega
      rw [e]
      rcases ih hok' h2 (P := P + x.placed) (by omega) with h | ⟨o, ho, h3⟩
      · left; omega
      · right
        refine ⟨o, ?_, h3⟩
        split
        · exact List.mem_cons_of_mem _ ho
        · exact ho
    · right
      rw [if_neg hS']
      have hfl : x.filled = S := by omega
      have hcan : x.cancelled = false := by
        cases hcx : x.cancelled with
        | false => rfl
        | true =>
          have := (hx.canc hcx).1
          have : x.cap = x.claimed := by unfold Entry.cap; rw [hcx]; rfl
          omega
      have hcap : x.cap = x.placed := by unfold Entry.cap; rw [hcan]; rfl
      have hl : x.Live := ⟨hcan, by have := hx.claimed_le; omega⟩
      rw [if_pos hl]
      refine ⟨_, List.mem_cons_self, ?_⟩
      rw [startOf_shown (by have := hl.2; omega)]
      constructor
      · omega
      · show P + S + 0 < P + x.placed
        omega

theorem sumBy_left_live {q : List Entry} (h : ∀ x ∈ q, EntryOk x) :
    sumBy Entry.left q = sumBy Entry.left (q.filter fun x => decide x.Live) := by
  induction q with
  | nil => rfl
  | cons x q ih =>
    have ih := ih (fun y hy => h y (by simp [hy]))
    have hx := h x (by simp)
    by_cases hl : x.Live
    · rw [List.filter_cons_of_pos (by simpa using hl), sumBy_cons, sumBy_cons, ih]
    · rw [List.filter_cons_of_neg (by simpa using hl), sumBy_cons, ih]
      have : x.left = 0 := by
        unfold Entry.left
        have := hx.claimed_le; have := hx.filled_le
        unfold Entry.Live at hl
        cases hc : x.cancelled with
        | true => rfl
        | false => simp [hc] at hl; simp; omega
      omega

theorem QOk.cap_le {q : List Entry} (h : QOk q) : sumBy Entry.filled q ≤ sumBy Entry.cap q := by
  have := sum_filled_left h.ok; omega

/-- How far fills have got in the queue. -/
def front (q : List Entry) : Nat := sumBy Entry.filled q + rz (sumBy Entry.filled q) q

theorem QOk.front_le {q : List Entry} (h : QOk q) : front q ≤ sumBy Entry.placed q := by
  have h1 := sum_cap_gap h.ok
  have h2 := rz_le_gap (sumBy Entry.filled q) q
  have h3 := h.cap_le
  unfold front; omega

theorem QOk.live {q : List Entry} (h : QOk q) (t : Int) (d : Dir) :
    (q.filter fun x => decide x.Live) = (shownQ t d 0 q).map (unshow (front q)) := by
  have := live_unshow (t := t) (d := d) h.ok h.fifo (P := 0)
  rw [Nat.zero_add] at this
  exact this

theorem QOk.frontier {q : List Entry} (h : QOk q) (t : Int) (d : Dir) :
    front q = sumBy Entry.placed q ∨
      ∃ o ∈ shownQ t d 0 q, startOf o ≤ front q ∧ front q < startOf o + o.placedQuantity := by
  have := OB.frontier (t := t) (d := d) h.ok h.fifo h.cap_le (P := 0)
  rw [Nat.zero_add, Nat.zero_add] at this
  exact this

/-- What is open of the shown orders, as a function of how far fills have got. -/
def openAt (F : Nat) (l : List LimitOrder) : Nat := sumBy Entry.left (l.map (unshow F))

theorem unshow_left (F : Nat) (o : LimitOrder) : (unshow F o).left = o.placedQuantity - min o.placedQuantity (F - startOf o) := rfl

theorem openAt_anti {F F' : Nat} (h : F ≤ F') (l : List LimitOrder) : openAt F' l ≤ openAt F l := by
  unfold openAt
  induction l with
  | nil => exact le_refl _
  | cons o l ih =>
    rw [List.map_cons, List.map_cons, sumBy_cons, sumBy_cons, unshow_left, unshow_left]
    omega

theorem openAt_lt {F F' : Nat} (h : F < F') {l : List LimitOrder} {o : LimitOrder} (ho : o ∈ l) (h1 : startOf o ≤ F)
    (h2 : F < startOf o + o.placedQuantity) : openAt F' l < openAt F l := by
  induction l with
  | nil => cases ho
  | cons a l ih =>
    have hm := openAt_anti (Nat.le_of_lt h) l
    unfold openAt at hm ih ⊢
    rw [List.map_cons, List.map_cons, sumBy_cons, sumBy_cons, unshow_left, unshow_left]
    rcases List.mem_cons.1 ho with rfl | ho
    · omega
    · have := ih ho; omega

theorem front_le_of {q q' : List Entry} (h : QOk q) (h' : QOk q') (ha : QAlike q q') : front q' ≤ front q := by
  by_contra hlt
  have hlt : front q < front q' := by omega
  have e : sumBy Entry.left q = openAt (front q) (shownQ 0 .bid 0 q) := by
    rw [sumBy_left_live h.ok, h.live 0 .bid]; rfl
  have e' : sumBy Entry.left q' = openAt (front q') (shownQ 0 .bid 0 q) := by
    rw [sumBy_left_live h'.ok, h'.live 0 .bid, ← ha.shown]; rfl
  have hle := h'.front_le
  have hp := ha.placed
  rcases h.frontier 0 .bid with h1 | ⟨o, ho, h1, h2⟩
  · omega
  · have := openAt_lt hlt ho h1 h2
    have := ha.left
    omega

theorem QAlike.symm {q q' : List Entry} (h : QAlike q q') : QAlike q' q :=
  ⟨fun t d => (h.shown t d).symm, h.left.symm, h.placed.symm, h.filled.symm⟩

/-- In queues that look alike, fills have got equally far. -/
theorem QAlike.front {q q' : List Entry} (ha : QAlike q q') (h : QOk q) (h' : QOk q') : front q = front q' :=
  Nat.le_antisymm (front_le_of h' h ha.symm) (front_le_of h h' ha)

/-- ... the live orders are the same, including how much of them is filled ... -/
theorem QAlike.live {q q' : List Entry} (ha : QAlike q q') (h : QOk q) (h' : QOk q') :
    (q.filter fun x => decide x.Live) = q'.filter fun x => decide x.Live := by
  rw [h.live 0 .bid, h'.live 0 .bid, ha.front h h', ha.shown]

/-- ... and the cancelled amounts whose turn has come. -/
theorem QAlike.due {q q' : List Entry} (ha : QAlike q q') (h : QOk q) (h' : QOk q') : dueTotal q = dueTotal q' := by
  rw [dueTotal_eq h.ok h.fifo, dueTotal_eq h'.ok h'.fifo]
  have h1 := ha.front h h'
  have h2 := ha.filled
  unfold OB.front at h1
  omega

theorem QAlike.nil {q q' : List Entry} (ha : QAlike q q') (h : QOk q) (h' : QOk q') : q = [] ↔ q' = [] := by
  have key : ∀ {q q' : List Entry}, QAlike q q' → QOk q' → q = [] → q' = [] := by
    intro q q' ha h' hq
    subst hq
    cases q' with
    | nil => rfl
    | cons x q' =>
      have h1 := (h'.ok x (by simp)).pos
      have h2 := ha.placed
      rw [sumBy_cons, sumBy_nil] at h2
      omega
  exact ⟨key ha h', key ha.symm h⟩

theorem QAlike.openTotal {q q' : List Entry} (ha : QAlike q q') (h : QOk q) (h' : QOk q') : openTotal q = openTotal q' := by
  rw [openTotal_eq h.ok, openTotal_eq h'.ok, ha.left]

theorem QAlike.find {q q' : List Entry} (ha : QAlike q q') (h : QOk q) (h' : QOk q') (id : Nat) :
    (q.find? fun x => decide (x.id = id ∧ x.Live)) = q'.find? fun x => decide (x.id = id ∧ x.Live) := by
  have e : ∀ l : List Entry, (l.find? fun x => decide (x.id = id ∧ x.Live)) = (l.filter fun x => decide x.Live).find? fun x => decide (x.id = id) := by
    intro l
    rw [List.find?_filter]
    congr 1
    funext x
    rw [Bool.eq_iff_iff]
    simp only [decide_eq_true_eq]
    exact And.comm
  rw [e, e, ha.live h h']

/-! ### They stay alike -/

theorem QAlike.append {q q' : List Entry} (ha : QAlike q q') (x : Entry) : QAlike (q ++ [x]) (q' ++ [x]) := by
  refine ⟨fun t d => ?_, ?_, ?_, ?_⟩
  · rw [shownQ_append, shownQ_append, ha.shown, ha.placed]
  · rw [sumBy_append, sumBy_append, ha.left]
  · rw [sumBy_append, sumBy_append, ha.placed]
  · rw [sumBy_append, sumBy_append, ha.filled]

theorem shownQ_fillQ (t : Int) (d : Dir) (P f : Nat) (q : List Entry) : shownQ t d P (fillQ f q) = shownQ t d P q := by
  induction q generalizing P f with
  | nil => rfl
  | cons x q ih =>
    unfold fillQ shownQ
    rw [ih]
    rfl

theorem fillQ_all {f : Nat} {q : List Entry} (h : sumBy Entry.left q ≤ f) : fillQ f q = fillQ (sumBy Entry.left q) q := by
  induction q generalizing f with
  | nil => rfl
  | cons x q ih =>
    rw [sumBy_cons] at h ⊢
    unfold fillQ
    rw [Nat.min_eq_right (by omega), Nat.min_eq_right (by omega), ih (by omega), Nat.add_sub_cancel_left]

theorem QAlike.fill {q q' : List Entry} (ha : QAlike q q') (f : Nat) : QAlike (fillQ f q) (fillQ f q') := by
  have key : ∀ f, f ≤ sumBy Entry.left q → QAlike (fillQ f q) (fillQ f q') := by
    intro f hf
    refine ⟨fun t d => ?_, ?_, ?_, ?_⟩
    · rw [shownQ_fillQ, shownQ_fillQ, ha.shown]
    · rw [fillQ_sumLeft hf, fillQ_sumLeft (ha.left ▸ hf), ha.left]
    · have e : ∀ l : List Entry, sumBy Entry.placed (fillQ f l) = sumBy Entry.placed l := fun l => by
        unfold sumBy; rw [fillQ_map f l Entry.placed fun _ _ => rfl]
      rw [e, e, ha.placed]
    · rw [fillQ_sumFilled hf, fillQ_sumFilled (ha.left ▸ hf), ha.filled]
  rcases Nat.le_total f (sumBy Entry.left q) with h | h
  · exact key f h
  · have h2 : sumBy Entry.left q' ≤ f := ha.left ▸ h
    rw [fillQ_all h, fillQ_all h2, ← ha.left]
    exact key _ (le_refl _)

theorem shownQ_ids {t : Int} {d : Dir} {P : Nat} {q : List Entry} {o : LimitOrder} (h : o ∈ shownQ t d P q) : ∃ x ∈ q, o.orderId = x.id := by
  obtain ⟨p, x, q', rfl, -, rfl⟩ := mem_shownQ.1 h
  exact ⟨x, by simp, rfl⟩

theorem split_unique {a c a' c' : List LimitOrder} {o o' : LimitOrder} (h : a ++ o :: c = a' ++ o' :: c') (ho : o.orderId = o'.orderId)
    (ha : ∀ z ∈ a, z.orderId ≠ o.orderId) (ha' : ∀ z ∈ a', z.orderId ≠ o.orderId) : a = a' ∧ o = o' ∧ c = c' := by
  induction a generalizing a' with
  | nil =>
    cases a' with
    | nil => exact ⟨rfl, (List.cons.inj h).1, (List.cons.inj h).2⟩
    | cons z a' => exact absurd (congrArg _ (List.cons.inj h).1.symm) (ha' z (by simp))
  | cons y a ih =>
    cases a' with
    | nil => exact absurd ((congrArg _ (List.cons.inj h).1).trans ho.symm) (ha y (by simp))
    | cons z a' =>
      obtain ⟨h1, h2⟩ := List.cons.inj h
      obtain ⟨e1, e2, e3⟩ := ih h2 (fun z hz => ha z (by simp [hz])) (fun z hz => ha' z (by simp [hz]))
      exact ⟨by rw [h1, e1], e2, e3⟩

/-- Changing the same live order in both queues: they stay alike. -/
theorem QAlike.change {p q p' q' : List Entry} {x y : Entry} (ha : QAlike (p ++ x :: q) (p' ++ x :: q')) (h : QOk (p ++ x :: q))
    (h' : QOk (p' ++ x :: q')) (hl : x.Live) (hp : y.placed = x.placed) : QAlike (p ++ y :: q) (p' ++ y :: q') := by
  have hinc := h.inc
  have hinc' := h'.inc
  rw [List.pairwise_append] at hinc hinc'
  have hP : ∀ t d, shownQ t d 0 p = shownQ t d 0 p' ∧ sumBy Entry.placed p = sumBy Entry.placed p' ∧
      shownQ t d (sumBy Entry.placed p + x.placed) q = shownQ t d (sumBy Entry.placed p' + x.placed) q' := by
    intro t d
    have h1 := ha.shown t d
    rw [shownQ_append, shownQ_append, Nat.zero_add, Nat.zero_add, shownQ.eq_2, shownQ.eq_2, if_pos hl, if_pos hl] at h1
    obtain ⟨e1, e2, e3⟩ := split_unique h1 rfl
      (fun z hz => by
        obtain ⟨w, hw, he⟩ := shownQ_ids hz
        have := hinc.2.2 w hw x (by simp)
        show z.orderId ≠ x.id
        omega)
      (fun z hz => by
        obtain ⟨w, hw, he⟩ := shownQ_ids hz
        have := hinc'.2.2 w hw x (by simp)
        show z.orderId ≠ x.id
        omega)
    refine ⟨e1, ?_, e3⟩
    have := congrArg startOf e2
    rwa [startOf_shown (by have := hl.2; omega), startOf_shown (by have := hl.2; omega)] at this
  have g1 := ha.left
  have g2 := ha.placed
  have g3 := ha.filled
  simp only [sumBy_append, sumBy_cons] at g1 g2 g3
  refine ⟨fun t d => ?_, ?_, ?_, ?_⟩
  · obtain ⟨e1, e2, e3⟩ := hP t d
    rw [shownQ_append, shownQ_append, Nat.zero_add, Nat.zero_add, shownQ.eq_2, shownQ.eq_2, hp, e1, e3, e2]
  all_goals
    simp only [sumBy_append, sumBy_cons]
    omega

theorem fifo_change {S : Nat} {p q : List Entry} {x y : Entry} (hf : Fifo S (p ++ x :: q)) (h1 : y.filled = x.filled) (h2 : y.cap = x.cap) :
    Fifo S (p ++ y :: q) := by
  rw [fifo_append] at hf ⊢
  refine ⟨hf.1, ?_⟩
  obtain ⟨h3, h4⟩ := hf.2
  exact ⟨by rw [h1, h2]; exact h3, by rw [h2]; exact h4⟩

/-- A claim keeps the queue in order. -/
theorem QOk.claim {p q : List Entry} {x : Entry} (h : QOk (p ++ x :: q)) (hl : x.Live) : QOk (p ++ { x with claimed := x.filled } :: q) := by
  have hx := h.ok x (by simp)
  refine ⟨fun z hz => ?_, ?_, ?_⟩
  · rcases List.mem_append.1 hz with hz | hz
    · exact h.ok z (by simp [hz])
    · rcases List.mem_cons.1 hz with rfl | hz
      · exact ⟨hx.pos, hx.lt, le_refl _, hx.filled_le, fun hc => by rw [hl.1] at hc; cases hc⟩
      · exact h.ok z (by simp [hz])
  · have := h.fifo
    rw [sumBy_append, sumBy_cons] at this ⊢
    exact fifo_change this rfl (by unfold Entry.cap; simp [hl.1])
  · have := h.inc
    rw [List.pairwise_append, List.pairwise_cons] at this ⊢
    obtain ⟨i1, ⟨i2, i3⟩, i4⟩ := this
    refine ⟨i1, ⟨i2, i3⟩, fun a ha b hb => ?_⟩
    rcases List.mem_cons.1 hb with rfl | hb
    · exact i4 a ha x (by simp)
    · exact i4 a ha b (by simp [hb])

/-! ### The exchange on queues that look alike -/

/-- All queues are in order. -/
def BookOk (b : Book) : Prop := ∀ t d, QOk (b t d)
/-- All queues look alike. -/
def BookAlike (b b' : Book) : Prop := ∀ t d, QAlike (b t d) (b' t d)

/-- The exchange with other queues. -/
def Spec.Ref.swapQ (r : Ref) (b : Book) : Ref := { r with queues := b }

theorem alike_order {r : Ref} {b : Book} (hk : BookOk r.queues) (hk' : BookOk b) (ha : BookAlike r.queues b) (t : Int) (id : Nat) :
    (r.swapQ b).order t id = r.order t id := by
  unfold Ref.order Ref.swapQ
  simp only
  rw [(ha t .bid).find (hk t .bid) (hk' t .bid), (ha t .ask).find (hk t .ask) (hk' t .ask)]

theorem alike_open {r : Ref} {b : Book} (hk : BookOk r.queues) (hk' : BookOk b) (ha : BookAlike r.queues b) (t : Int) (d : Dir) :
    openTotal (b t d) = openTotal (r.queues t d) := ((ha t d).openTotal (hk t d) (hk' t d)).symm

theorem alike_nil {r : Ref} {b : Book} (hk : BookOk r.queues) (hk' : BookOk b) (ha : BookAlike r.queues b) (t : Int) :
    (∃ d, b t d ≠ []) = ∃ d, r.queues t d ≠ [] := by
  refine propext (exists_congr fun d => not_congr ?_)
  exact ((ha t d).nil (hk t d) (hk' t d)).symm

theorem alike_levels {r : Ref} {b : Book} (hk : BookOk r.queues) (hk' : BookOk b) (ha : BookAlike r.queues b) (s : SwapReq) (side : Dir) :
    (r.swapQ b).levels s side = r.levels s side := by
  have e : ∀ side t, openTotal (b t side) = openTotal (r.queues t side) := fun side t => alike_open hk hk' ha t side
  unfold Ref.levels Ref.swapQ
  simp only [e]
  generalize Finset.Icc (-108000000 : Int) 182402823 = I
  cases side with
  | bid => exact congrArg (fun F : Finset Int => (F.sort (· ≥ ·)).map _) (by ext t; simp only [Finset.mem_filter, e])
  | ask => exact congrArg (fun F : Finset Int => (F.sort (· ≤ ·)).map _) (by ext t; simp only [Finset.mem_filter, e])

theorem alike_checks {r : Ref} {b : Book} (hk : BookOk r.queues) (hk' : BookOk b) (ha : BookAlike r.queues b) (ch : Chain) (op : Op) :
    (r.swapQ b).checks ch op = r.checks ch op := by
  have hswap : ∀ s, (r.swapQ b).swapChecks ch s = r.swapChecks ch s := by
    intro s
    unfold Ref.swapChecks
    have e : (r.swapQ b).base = r.base := rfl
    simp only [alike_levels hk hk' ha, e]
    rfl
  cases op with
  | execute sender funds time msg =>
    simp only [Ref.checks]
    congr 1
    cases msg with
    | placeLimit => rfl
    | cancelLimit tick id =>
      simp only [Ref.userChecks, alike_order hk hk' ha]
      rfl
    | claimLimit tick id =>
      simp only [Ref.userChecks, alike_order hk hk' ha]
      have e : (∃ side, (r.swapQ b).queues tick side ≠ []) = ∃ side, r.queues tick side ≠ [] := alike_nil hk hk' ha tick
      rw [e]
      rfl
    | batchClaim => rfl
    | auth => rfl
  | «sudo» time msg =>
    cases msg with
    | swapExactAmountIn => exact hswap _
    | swapToTick => exact hswap _
    | _ => rfl
  | migrate => rfl
  | transfer => rfl
  | mint => rfl

theorem order_mem {r : Ref} {t : Int} {id : Nat} {d : Dir} {x : Entry} (h : r.order t id = some (d, x)) :
    x ∈ r.queues t d ∧ x.id = id ∧ x.Live := by
  unfold Ref.order at h
  split at h
  · rename_i y hy
    obtain ⟨rfl, rfl⟩ := Prod.mk.inj (Option.some.inj h)
    have := List.find?_some hy
    exact ⟨List.mem_of_find?_eq_some hy, by simpa using this⟩
  · obtain ⟨y, hy, he⟩ := Option.map_eq_some_iff.1 h
    obtain ⟨rfl, rfl⟩ := Prod.mk.inj he
    have := List.find?_some hy
    exact ⟨List.mem_of_find?_eq_some hy, by simpa using this⟩

/-- Changing a live order in both exchanges: the queues stay alike. -/
theorem alike_update {r : Ref} {b : Book} (hk : BookOk r.queues) (hk' : BookOk b) (ha : BookAlike r.queues b) {t : Int} {id : Nat} {d : Dir}
    {x : Entry} (hx : r.order t id = some (d, x)) {g : Entry → Entry} (hg : (g x).placed = x.placed) :
    (r.swapQ b).update t d id g = (r.update t d id g).swapQ (b.set t d (updQ id g (b t d))) ∧
    BookAlike (r.update t d id g).queues (b.set t d (updQ id g (b t d))) ∧
    ∃ p q p' q', r.queues t d = p ++ x :: q ∧ b t d = p' ++ x :: q' ∧ updQ id g (r.queues t d) = p ++ g x :: q ∧
      updQ id g (b t d) = p' ++ g x :: q' := by
  obtain ⟨h1, rfl, hl⟩ := order_mem hx
  obtain ⟨h2, -, -⟩ := order_mem ((alike_order hk hk' ha t x.id).trans hx)
  obtain ⟨p, q, e⟩ := List.append_of_mem h1
  obtain ⟨p', q', e'⟩ := List.append_of_mem (show x ∈ b t d from h2)
  have k1 := hk t d
  have k2 := hk' t d
  have k3 := ha t d
  rw [e] at k1 k3
  rw [e'] at k2 k3
  have u1 : updQ x.id g (r.queues t d) = p ++ g x :: q := by rw [e, updQ_split k1.inc]
  have u2 : updQ x.id g (b t d) = p' ++ g x :: q' := by rw [e', updQ_split k2.inc]
  refine ⟨rfl, fun t' d' => ?_, p, q, p', q', e, e', u1, u2⟩
  show QAlike (r.queues.set t d (updQ x.id g (r.queues t d)) t' d') (b.set t d (updQ x.id g (b t d)) t' d')
  unfold Book.set
  by_cases hh : t' = t ∧ d' = d
  · rw [if_pos hh, if_pos hh, u1, u2]
    exact k3.change k1 k2 hl hg
  · rw [if_neg hh, if_neg hh]
    exact ha t' d'

theorem alike_claim {r : Ref} {b : Book} (hk : BookOk r.queues) (hk' : BookOk b) (ha : BookAlike r.queues b) {t : Int} {id : Nat} {d : Dir}
    {x : Entry} (hx : r.order t id = some (d, x)) (sender : Addr) :
    ∃ b1, (r.swapQ b).claim sender t d x = (((r.claim sender t d x).1).swapQ b1, (r.claim sender t d x).2) ∧
      BookAlike (r.claim sender t d x).1.queues b1 ∧ BookOk (r.claim sender t d x).1.queues ∧ BookOk b1 := by
  obtain ⟨h1, h2, p, q, p', q', e, e', u1, u2⟩ := alike_update hk hk' ha hx (g := fun x => { x with claimed := x.filled }) rfl
  obtain ⟨-, hid, hl⟩ := order_mem hx
  subst hid
  refine ⟨_, ?_, h2, ?_, ?_⟩
  · unfold Ref.claim
    simp only [h1]
    rfl
  · intro t' d'
    show QOk (r.queues.set t d (updQ x.id _ (r.queues t d)) t' d')
    unfold Book.set
    split
    · rw [u1]; have := hk t d; rw [e] at this; exact this.claim hl
    · exact hk t' d'
  · intro t' d'
    unfold Book.set
    split
    · rw [u2]; have := hk' t d; rw [e'] at this; exact this.claim hl
    · exact hk' t' d'

theorem alike_sync {r : Ref} {b : Book} (hk : BookOk r.queues) (hk' : BookOk b) (ha : BookAlike r.queues b) (m : Marks) (t : Int) :
    (r.swapQ b).sync m t = r.sync m t := by
  funext t' d'
  unfold Ref.sync
  have e1 : (r.swapQ b).running m t' d' = r.running m t' d' := by
    unfold Ref.running
    show sumBy Entry.filled (b t' d') + _ = sumBy Entry.filled (r.queues t' d') + _
    rw [(ha t' d').filled]
  have e2 : dueTotal ((r.swapQ b).queues t' d') = dueTotal (r.queues t' d') := ((ha t' d').due (hk t' d') (hk' t' d')).symm
  rw [e1, e2]

theorem alike_claims {sender : Addr} {l : List (Int × Nat)} {r : Ref} {b : Book} (hk : BookOk r.queues) (hk' : BookOk b)
    (ha : BookAlike r.queues b) (m : Marks) :
    (∃ b1, Ref.claims sender (r.swapQ b) l = (((Ref.claims sender r l).1).swapQ b1, (Ref.claims sender r l).2) ∧
      BookAlike (Ref.claims sender r l).1.queues b1) ∧
    Ref.claimMarks sender (r.swapQ b) m l = Ref.claimMarks sender r m l := by
  induction l generalizing r b m with
  | nil => exact ⟨⟨b, rfl, ha⟩, rfl⟩
  | cons k l ih =>
    obtain ⟨t, id⟩ := k
    unfold Ref.claims Ref.claimMarks
    rw [alike_order hk hk' ha, alike_sync hk hk' ha]
    cases hx : r.order t id with
    | none => exact ih hk hk' ha m
    | some y =>
      obtain ⟨d, x⟩ := y
      simp only
      by_cases hc : x.claimed < x.filled
      · rw [if_pos hc, if_pos hc, if_pos hc, if_pos hc]
        obtain ⟨b1, e1, a1, k1, k1'⟩ := alike_claim hk hk' ha hx sender
        obtain ⟨⟨b2, e2, a2⟩, m2⟩ := ih k1 k1' a1 (r.sync m t)
        rw [e1]
        refine ⟨⟨b2, ?_, a2⟩, m2⟩
        simp only
        rw [e2]
      · rw [if_neg hc, if_neg hc, if_neg hc, if_neg hc]
        exact ih hk hk' ha _

theorem alike_effect {r : Ref} {b : Book} (hk : BookOk r.queues) (hk' : BookOk b) (ha : BookAlike r.queues b) (m : Marks) (op : Op) :
    (∃ b1, (r.swapQ b).effect op = ((r.effect op).1.swapQ b1, (r.effect op).2) ∧ BookAlike (r.effect op).1.queues b1) ∧
    (r.swapQ b).marksAfter m op = r.marksAfter m op := by
  have hswap : ∀ s, ∃ b1, (r.swapQ b).swapEffect s = ((r.swapEffect s).1.swapQ b1, (r.swapEffect s).2) ∧ BookAlike (r.swapEffect s).1.queues b1 := by
    intro s
    unfold Ref.swapEffect
    have e : (r.swapQ b).base = r.base := rfl
    rw [e, alike_levels hk hk' ha]
    cases matchLevels (s.side r.base) (r.levels s (s.side r.base)) s.tokenIn.amount with
    | none => exact ⟨b, rfl, ha⟩
    | some y =>
      obtain ⟨F, left, dust⟩ := y
      refine ⟨_, rfl, fun t d => ?_⟩
      show QAlike (if d = s.side r.base then fillQ (filledAt F t) (r.queues t d) else r.queues t d)
        (if d = s.side r.base then fillQ (filledAt F t) (b t d) else b t d)
      split
      · exact (ha t d).fill _
      · exact ha t d
  cases op with
  | execute sender funds time msg =>
    cases msg with
    | placeLimit tick side q bounty =>
      refine ⟨⟨_, rfl, fun t d => ?_⟩, rfl⟩
      show QAlike (r.queues.set tick side (r.queues tick side ++ [_]) t d) (b.set tick side (b tick side ++ [_]) t d)
      unfold Book.set
      split
      · exact (ha tick side).append _
      · exact ha t d
    | cancelLimit tick id =>
      refine ⟨?_, alike_sync hk hk' ha m tick⟩
      simp only [Ref.effect, Ref.userEffect]
      rw [alike_order hk hk' ha]
      cases hx : r.order tick id with
      | none => exact ⟨b, rfl, ha⟩
      | some y =>
        obtain ⟨d, x⟩ := y
        obtain ⟨h1, h2, -⟩ := alike_update hk hk' ha hx (g := fun x => { x with cancelled := true }) rfl
        obtain ⟨-, hid, -⟩ := order_mem hx
        subst hid
        exact ⟨_, rfl, h2⟩
    | claimLimit tick id =>
      refine ⟨?_, alike_sync hk hk' ha m tick⟩
      simp only [Ref.effect, Ref.userEffect]
      rw [alike_order hk hk' ha]
      cases hx : r.order tick id with
      | none => exact ⟨b, rfl, ha⟩
      | some y =>
        obtain ⟨d, x⟩ := y
        obtain ⟨b1, e1, a1, -, -⟩ := alike_claim hk hk' ha hx sender
        refine ⟨b1, ?_, a1⟩
        simp only
        rw [e1]
    | batchClaim l =>
      obtain ⟨⟨b1, e1, a1⟩, e2⟩ := alike_claims (sender := sender) (l := l) hk hk' ha m
      refine ⟨⟨b1, ?_, a1⟩, e2⟩
      simp only [Ref.effect, Ref.userEffect]
      rw [e1]
    | auth => exact ⟨⟨b, rfl, ha⟩, rfl⟩
  | «sudo» time msg =>
    cases msg with
    | swapExactAmountIn => exact ⟨hswap _, rfl⟩
    | swapToTick => exact ⟨hswap _, rfl⟩
    | _ => exact ⟨⟨b, rfl, ha⟩, rfl⟩
  | migrate => exact ⟨⟨b, rfl, ha⟩, rfl⟩
  | transfer => exact ⟨⟨b, rfl, ha⟩, rfl⟩
  | mint => exact ⟨⟨b, rfl, ha⟩, rfl⟩

theorem alike_step {r : Ref} {b : Book} (hk : BookOk r.queues) (hk' : BookOk b) (ha : BookAlike r.queues b) (m : Marks) (ch : Chain) (op : Op) :
    (∀ e, r.step ch op = .error e → (r.swapQ b).step ch op = .error e) ∧
    (∀ r1 resp, r.step ch op = .ok (r1, resp) →
      ∃ b1, (r.swapQ b).step ch op = .ok (r1.swapQ b1, resp) ∧ BookAlike r1.queues b1 ∧
        (r.swapQ b).marksAfter m op = r.marksAfter m op) := by
  unfold Ref.step
  rw [alike_checks hk hk' ha]
  cases verdict (r.checks ch op) with
  | some e =>
    refine ⟨fun e' h => h, fun r1 resp h => by cases h⟩
  | none =>
    refine ⟨fun e h => by simp at h, fun r1 resp h => ?_⟩
    obtain ⟨⟨b1, e1, a1⟩, e2⟩ := alike_effect hk hk' ha m op
    obtain ⟨rfl, rfl⟩ := Prod.mk.inj (Except.ok.inj h)
    refine ⟨b1, ?_, a1, e2⟩
    rw [e1]
    rfl

/-! ### Queries on queues that look alike -/

theorem alike_used {r : Ref} {b : Book} (hk : BookOk r.queues) (hk' : BookOk b) (ha : BookAlike r.queues b) : Used b = Used r.queues :=
  funext fun t => alike_nil hk hk' ha t

theorem alike_usedTicks {r : Ref} {b : Book} (hk : BookOk r.queues) (hk' : BookOk b) (ha : BookAlike r.queues b) :
    (r.swapQ b).usedTicks = r.usedTicks := by
  have e := alike_used hk hk' ha
  unfold Ref.usedTicks
  generalize Finset.Icc (-108000000 : Int) 182402823 = I
  refine congrArg (fun F : Finset Int => F.sort (· ≤ ·)) ?_
  ext t
  simp only [Finset.mem_filter]
  show t ∈ I ∧ Used b t ↔ t ∈ I ∧ Used r.queues t
  rw [e]

theorem alike_listing {r : Ref} {b : Book} (hk : BookOk r.queues) (hk' : BookOk b) (ha : BookAlike r.queues b) :
    (r.swapQ b).listing = r.listing := by
  unfold Ref.listing
  rw [alike_usedTicks hk hk' ha]
  have e : ∀ t d, shownQ t d 0 ((r.swapQ b).queues t d) = shownQ t d 0 (r.queues t d) := fun t d => ((ha t d).shown t d).symm
  simp only [e]

theorem alike_tick {r : Ref} {b : Book} (hk : BookOk r.queues) (hk' : BookOk b) (ha : BookAlike r.queues b) (m : Marks) :
    (r.swapQ b).tick m = r.tick m := by
  have e : ∀ t d, (r.swapQ b).values m t d = r.values m t d := by
    intro t d
    unfold Ref.values
    have e1 : openTotal ((r.swapQ b).queues t d) = openTotal (r.queues t d) := alike_open hk hk' ha t d
    have e2 : placedTotal ((r.swapQ b).queues t d) = placedTotal (r.queues t d) := by
      rw [sumBy_placed, sumBy_placed]; exact (ha t d).placed.symm
    have e3 : (r.swapQ b).running m t d = r.running m t d := by
      unfold Ref.running
      show sumBy Entry.filled (b t d) + _ = sumBy Entry.filled (r.queues t d) + _
      rw [(ha t d).filled]
    rw [e1, e2, e3]
  funext t
  unfold Ref.tick
  rw [e, e]

theorem alike_quote {r : Ref} {b : Book} (hk : BookOk r.queues) (hk' : BookOk b) (ha : BookAlike r.queues b) (s : SwapReq) :
    (r.swapQ b).quoteFor s = r.quoteFor s := by
  unfold Ref.quoteFor
  have e : (r.swapQ b).base = r.base := rfl
  simp only [e, alike_levels hk hk' ha]
  rfl

theorem alike_answer {r : Ref} {b : Book} (hk : BookOk r.queues) (hk' : BookOk b) (ha : BookAlike r.queues b) (m : Marks) (q : QueryMsg) :
    (r.swapQ b).answer m q = r.answer m q := by
  cases q with
  | calcOutAmountGivenIn c out fee => simp only [Ref.answer, alike_quote hk hk' ha]
  | calcOutAmtGivenIn c out fee => simp only [Ref.answer, alike_quote hk hk' ha]
  | getTotalPoolLiquidity =>
    have e : ∀ t d, openTotal ((r.swapQ b).queues t d) = openTotal (r.queues t d) := fun t d => alike_open hk hk' ha t d
    simp only [Ref.answer, e]
    rfl
  | allTicks lo hi limit => simp only [Ref.answer, alike_usedTicks hk hk' ha, alike_tick hk hk' ha]
  | ordersByOwner owner lo hi limit => simp only [Ref.answer, alike_listing hk hk' ha]
  | ordersByTick t lo hi limit => simp only [Ref.answer, alike_listing hk hk' ha]
  | ticksById ids =>
    have e : Used (r.swapQ b).queues = Used r.queues := alike_used hk hk' ha
    simp only [Ref.answer, alike_tick hk hk' ha]
    by_cases hu : ∀ t ∈ ids, Used r.queues t
    · rw [if_pos hu, if_pos (e ▸ hu)]
    · rw [if_neg hu, if_neg (e ▸ hu)]
  | getUnrealizedCancels ids =>
    have e : Used (r.swapQ b).queues = Used r.queues := alike_used hk hk' ha
    have e2 : ∀ t d, dueTotal ((r.swapQ b).queues t d) = dueTotal (r.queues t d) := fun t d => ((ha t d).due (hk t d) (hk' t d)).symm
    simp only [Ref.answer, e2]
    by_cases hu : ∀ t ∈ ids, Used r.queues t
    · rw [if_pos hu, if_pos (e ▸ hu)]
    · rw [if_neg hu, if_neg (e ▸ hu)]
  | auth a => cases a <;> rfl
  | _ => rfl

/-- No query depends on the next order id, the recipient of the fee or the balances. -/
theorem answer_hidden (r : Ref) (m : Marks) (q : QueryMsg) (id : Nat) (a : Option Addr) (k : Bank) :
    ({ r with nextId := id, conf := { r.conf with recipient := a }, bank := k } : Ref).answer m q = r.answer m q := by
  cases q with
  | auth a => cases a <;> rfl
  | _ => rfl

/-! ### From what the queries show to queues that look alike -/

theorem shownQ_label (t t' : Int) (d d' : Dir) (P : Nat) (q : List Entry) :
    shownQ t' d' P q = (shownQ t d P q).map fun o => { o with tickId := t', dir := d' } := by
  induction q generalizing P with
  | nil => rfl
  | cons x q ih =>
    rw [shownQ.eq_2, shownQ.eq_2, ih]
    split
    · rw [List.map_cons]; rfl
    · rfl

theorem shownQ_sorted {t : Int} {d : Dir} {q : List Entry} (hq : q.Pairwise fun x y => x.id < y.id) (P : Nat) :
    (shownQ t d P q).Pairwise fun o o' => o.orderId < o'.orderId := by
  induction q generalizing P with
  | nil => exact List.Pairwise.nil
  | cons x q ih =>
    rw [List.pairwise_cons] at hq
    rw [shownQ.eq_2]
    split
    · refine List.pairwise_cons.2 ⟨fun o ho => ?_, ih hq.2 _⟩
      obtain ⟨y, hy, he⟩ := shownQ_ids ho
      rw [he]
      exact hq.1 y hy
    · exact ih hq.2 _

theorem mem_shownQ_listed {b : Book} {t : Int} {d : Dir} {o : LimitOrder} :
    o ∈ shownQ t d 0 (b t d) ↔ Listed b o ∧ o.tickId = t ∧ o.dir = d := by
  rw [mem_shownQ]
  constructor
  · rintro ⟨p, x, q, h1, h2, rfl⟩
    exact ⟨⟨t, d, p, x, q, h1, h2, by rw [Nat.zero_add]⟩, rfl, rfl⟩
  · rintro ⟨⟨t', d', p, x, q, h1, h2, rfl⟩, h3, h4⟩
    obtain rfl : t' = t := h3
    obtain rfl : d' = d := h4
    exact ⟨p, x, q, h1, h2, by rw [Nat.zero_add]⟩

theorem shownQ_of_listed {b b' : Book} (hk : BookOk b) (hk' : BookOk b') (h : ∀ o, Listed b o ↔ Listed b' o) (t : Int) (d : Dir) :
    shownQ t d 0 (b t d) = shownQ t d 0 (b' t d) := by
  have hirr : ∀ a b : LimitOrder, a.orderId < b.orderId → b.orderId < a.orderId → False := fun a b h1 h2 => by omega
  have : Std.Irrefl (fun a b : LimitOrder => a.orderId < b.orderId) := ⟨fun a h1 => hirr a a h1 h1⟩
  have : Std.Antisymm (fun a b : LimitOrder => a.orderId < b.orderId) := ⟨fun a b h1 h2 => (hirr a b h1 h2).elim⟩
  exact List.Pairwise.eq_of_mem_iff (shownQ_sorted (hk t d).inc 0) (shownQ_sorted (hk' t d).inc 0) fun o => by
    rw [mem_shownQ_listed, mem_shownQ_listed, h]

theorem alike_of {s s' : Store} {b b' : Book} (hr : Rel s b) (hr' : Rel s' b') (ht : s.ticks = s'.ticks)
    (ho : ∀ o, Listed b o ↔ Listed b' o) : BookAlike b b' := by
  intro t d
  have hv : tv s t d = tv s' t d := by unfold tv; rw [ht]
  obtain ⟨r, rt, h, -, -⟩ := hr.sides t d
  obtain ⟨r', rt', h', -, -⟩ := hr'.sides t d
  rw [hv] at h
  have hD : 0 < D := by unfold D; omega
  have e1 := Nat.eq_of_mul_eq_mul_left hD (h.ctv.symm.trans h'.ctv)
  have e2 := Nat.eq_of_mul_eq_mul_left hD (h.etas.symm.trans h'.etas)
  have e3 := Nat.eq_of_mul_eq_mul_left hD (h.crc.symm.trans h'.crc)
  have e4 := Nat.eq_of_mul_eq_mul_left hD (h.tal.symm.trans h'.tal)
  refine ⟨fun t' d' => ?_, e4, e1, by omega⟩
  rw [shownQ_label t t' d d', shownQ_label t t' d d' 0 (b' t d), shownQ_of_listed hr.qok hr'.qok ho t d]

end OB
