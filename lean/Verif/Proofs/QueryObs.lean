import Verif.SpecQuery
import Verif.Proofs.Observe
import Verif.Proofs.SMap
/- Lists returned by queries. -/
namespace OB
open Spec

variable {α K : Type} [Key K]

/-- Reading page after page. -/
theorem crawl_all (L : List α) (key : α → K) (succ : K → K) (hsucc : ∀ a b : K, Key.lt a b = true ↔ Key.lt b (succ a) = false)
    (hL : L.Pairwise fun a b => Key.lt (key a) (key b) = true) (hi : Option K) {k : Nat} (hk : 0 < k) (n : Nat) (lo : Option K)
    (hn : (L.filter fun a => inBounds lo hi (key a)).length ≤ n) :
    crawl (fun lo => (L.filter fun a => inBounds lo hi (key a)).take k) (fun a => succ (key a)) n lo =
      L.filter fun a => inBounds lo hi (key a) := by
  induction n generalizing lo with
  | zero =>
    have : (L.filter fun a => inBounds lo hi (key a)) = [] := List.length_eq_zero_iff.1 (by omega)
    rw [this]; rfl
  | succ n ih =>
    unfold crawl
    generalize hF : (L.filter fun a => inBounds lo hi (key a)) = F at hn
    have hFs : F.Pairwise fun a b => Key.lt (key a) (key b) = true := by rw [← hF]; exact hL.filter _
    cases hl : (F.take k).getLast? with
    | none =>
      rw [List.getLast?_eq_none_iff, List.take_eq_nil_iff] at hl
      rcases hl with h | h
      · omega
      · simp [h]
    | some x =>
      simp only
      obtain ⟨p, hp⟩ := List.getLast?_eq_some_iff.1 hl
      have hsplit : F = p ++ x :: F.drop k := by
        conv_lhs => rw [← List.take_append_drop k F, hp]
        simp
      have hrest : (L.filter fun a => inBounds (some (succ (key x))) hi (key a)) = F.drop k := by
        have hxF : x ∈ F := by rw [hsplit]; simp
        have hlo : inBounds lo hi (key x) = true := by
          rw [← hF] at hxF
          exact (List.mem_filter.1 hxF).2
        have e1 : (L.filter fun a => inBounds (some (succ (key x))) hi (key a)) = F.filter fun a => Key.lt (key x) (key a) := by
          rw [← hF, List.filter_filter]
          refine List.filter_congr ?_
          intro a _
          rw [Bool.eq_iff_iff]
          unfold inBounds at hlo ⊢
          simp only [Bool.and_eq_true] at hlo ⊢
          rw [hsucc (key x) (key a)]
          constructor
          · rintro ⟨h1, h2⟩
            simp only [Bool.not_eq_true'] at h1
            refine ⟨h1, ?_, h2⟩
            cases lo with
            | none => rfl
            | some l =>
              simp only [Bool.not_eq_true'] at hlo ⊢
              by_contra hc
              simp only [Bool.not_eq_false] at hc
              have := Key.trans _ _ _ ((hsucc (key x) (key a)).2 h1) hc
              rw [hlo.1] at this; simp at this
          · rintro ⟨h1, -, h2⟩
            refine ⟨?_, h2⟩
            simp [h1]
        rw [e1]
        rw [hsplit] at hFs
        rw [List.pairwise_append, List.pairwise_cons] at hFs
        obtain ⟨h1, ⟨h2, h3⟩, h4⟩ := hFs
        conv_lhs => rw [hsplit]
        rw [List.filter_append, List.filter_cons]
        have hp0 : p.filter (fun a => Key.lt (key x) (key a)) = [] := by
          rw [List.filter_eq_nil_iff]
          intro a ha hc
          have := Key.trans _ _ _ (h4 a ha x (by simp)) hc
          rw [Key.irrefl] at this; simp at this
        rw [hp0, Key.irrefl]
        simp only [List.nil_append, Bool.false_eq_true, if_false]
        rw [List.filter_eq_self]
        intro a ha
        exact h2 a ha
      have ih' := ih (some (succ (key x))) (by
        rw [hrest]
        have : F.length = p.length + (F.drop k).length + 1 := by
          conv_lhs => rw [hsplit]
          simp; omega
        omega)
      rw [ih', hrest, List.take_append_drop]

theorem sumBy_placed (q : List Entry) : placedTotal q = sumBy Entry.placed q := by
  induction q with
  | nil => rfl
  | cons x q ih => rw [sumBy_cons, ← ih]; simp [placedTotal]

theorem shown_eq (tick : Int) (dir : Dir) (p : List Entry) (x : Entry) :
    shown tick dir (placedTotal p) x = orderOf tick dir (sumBy Entry.placed p) x := by
  rw [sumBy_placed]; rfl

/-- The stored orders are the listed ones, each under its own key. -/
theorem Rel.stored_iff {s : Store} {b : Book} (h : Rel s b) {k : Int × Nat} {o : LimitOrder} :
    (k, o) ∈ s.orders ↔ Listed b o ∧ k = (o.tickId, o.orderId) := by
  obtain ⟨t, i⟩ := k
  rw [h.ordersSorted.mem_iff, h.orders]
  constructor
  · rintro ⟨dir, p, x, q, h1, h2, rfl, rfl⟩
    exact ⟨⟨t, dir, p, x, q, h1, h2, (shown_eq ..).symm⟩, rfl⟩
  · rintro ⟨⟨t', dir, p, x, q, h1, h2, rfl⟩, hk⟩
    simp only [Prod.mk.injEq] at hk
    obtain ⟨rfl, rfl⟩ := hk
    exact ⟨dir, p, x, q, h1, h2, rfl, shown_eq ..⟩

theorem Rel.listOf {s : Store} {b : Book} (h : Rel s b) (P : LimitOrder → Bool) :
    ListOf b (fun o => P o = true) ((s.orders.filter fun p => P p.2).map Prod.snd) := by
  constructor
  · rw [List.pairwise_map]
    have hm : ∀ p ∈ s.orders.filter (fun p => P p.2), p ∈ s.orders := fun p hp => (List.mem_filter.1 hp).1
    refine ((h.ordersSorted.filter fun p => P p.2).imp_of_mem ?_)
    rintro ⟨k, o⟩ ⟨k', o'⟩ h1 h2 hlt
    obtain ⟨-, rfl⟩ := h.stored_iff.1 (hm _ h1)
    obtain ⟨-, rfl⟩ := h.stored_iff.1 (hm _ h2)
    simpa [Key.lt, Asc] using hlt
  · intro o
    rw [List.mem_map]
    constructor
    · rintro ⟨⟨k, o'⟩, h1, rfl⟩
      rw [List.mem_filter] at h1
      exact ⟨(h.stored_iff.1 h1.1).1, h1.2⟩
    · rintro ⟨h1, h2⟩
      exact ⟨((o.tickId, o.orderId), o), List.mem_filter.2 ⟨h.stored_iff.2 ⟨h1, rfl⟩, h2⟩, rfl⟩

theorem inBounds_within (lo hi : Option (Int × Nat)) (o : LimitOrder) : inBounds lo hi (o.tickId, o.orderId) = within lo hi o := by
  unfold inBounds within
  congr 1
  · cases lo with
    | none => rfl
    | some l =>
      rw [Bool.eq_iff_iff]
      simp only [Key.lt, Option.all_some, atLeast, decide_eq_true_eq, Bool.not_eq_true', Bool.or_eq_false_iff, Bool.and_eq_false_iff,
        decide_eq_false_iff_not]
      omega
  · cases hi with
    | none => rfl
    | some l =>
      rw [Bool.eq_iff_iff]
      simp only [Key.lt, Option.all_some, atMost, decide_eq_true_eq, Bool.not_eq_true', Bool.or_eq_false_iff, Bool.and_eq_false_iff,
        decide_eq_false_iff_not]
      omega

theorem inBoundsId_within (lo hi : Option Nat) (o : LimitOrder) : inBoundsId lo hi o.orderId = withinIds lo hi o := by
  unfold inBoundsId withinIds
  cases lo <;> cases hi <;> rfl

/-- Filtering stored pairs by a property of key and order that agrees with one of the order. -/
theorem Rel.filter_map {s : Store} {b : Book} (h : Rel s b) (f : (Int × Nat) × LimitOrder → Bool) (g : LimitOrder → Bool)
    (hfg : ∀ k o, k = (o.tickId, o.orderId) → f (k, o) = g o) (l : List ((Int × Nat) × LimitOrder)) (hl : ∀ p ∈ l, p ∈ s.orders) :
    (l.filter f).map Prod.snd = (l.map Prod.snd).filter g := by
  rw [List.filter_map]
  congr 1
  refine List.filter_congr ?_
  rintro ⟨k, o⟩ hp
  obtain ⟨-, rfl⟩ := h.stored_iff.1 (hl _ hp)
  exact hfg _ _ rfl

theorem Rel.ordersByOwner {s : Store} {b : Book} (h : Rel s b) (owner : Addr) (lo hi : Option (Int × Nat)) (limit : Option Nat) :
    OB.ordersByOwner s owner lo hi limit =
      (((s.orders.filter fun p => decide (p.2.owner = owner)).map Prod.snd).length,
       ((((s.orders.filter fun p => decide (p.2.owner = owner)).map Prod.snd).filter (within lo hi)).take (limit.getD 100 % 2 ^ 32))) := by
  unfold OB.ordersByOwner getOrdersByOwner
  rw [List.length_map, List.map_take]
  congr 1
  have e : (FilterOwnerOrders.all owner).selects = fun o => decide (o.owner = owner) := rfl
  rw [e, h.filter_map _ (within lo hi) (fun k o hk => by rw [hk]; exact inBounds_within lo hi o) _
    (fun p hp => (List.mem_filter.1 hp).1)]
  rfl

theorem Rel.ordersByTick {s : Store} {b : Book} (h : Rel s b) (tick : Int) (lo hi : Option Nat) (limit : Option Nat) :
    OB.ordersByTick s tick lo hi limit =
      ((((s.orders.filter fun p => decide (p.2.tickId = tick)).map Prod.snd).filter (withinIds lo hi)).length,
       (((s.orders.filter fun p => decide (p.2.tickId = tick)).map Prod.snd).filter (withinIds lo hi)).take
         ((limit.map fun x => x % 2 ^ 32).getD
           (((s.orders.filter fun p => decide (p.2.tickId = tick)).map Prod.snd).filter (withinIds lo hi)).length)) := by
  have e : (s.orders.filter fun p => decide (p.1.1 = tick) && inBoundsId lo hi p.1.2).map Prod.snd =
      ((s.orders.filter fun p => decide (p.2.tickId = tick)).map Prod.snd).filter (withinIds lo hi) := by
    rw [← h.filter_map (fun p => inBoundsId lo hi p.1.2) (withinIds lo hi) (fun k o hk => by rw [hk]; exact inBoundsId_within lo hi o) _
      (fun p hp => (List.mem_filter.1 hp).1), List.filter_filter]
    congr 1
    refine List.filter_congr ?_
    rintro ⟨k, o⟩ hp
    obtain ⟨-, rfl⟩ := h.stored_iff.1 hp
    exact Bool.and_comm _ _
  unfold OB.ordersByTick
  rw [← e, List.length_map, ← List.map_take]
  rfl

end OB
