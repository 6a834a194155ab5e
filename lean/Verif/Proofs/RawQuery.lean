import Verif.Proofs.Raw
/- Iterations over the raw storage give what the typed store says. -/
namespace OB
open Spec

theorem mem_range {r : Raw} {p : Bytes} (hc : Clean r p) {lo hi : Option Bytes} {x : Bytes} {v : Val} :
    (x, v) ∈ r.range p lo hi ↔ (p ++ x, v) ∈ r ∧ inBounds lo hi x = true := by
  rw [range_eq hc]
  simp only [List.mem_filter, List.mem_map, List.isPrefixOf_iff_prefix, Prod.mk.injEq, Prod.exists]
  constructor
  · rintro ⟨⟨k, w, ⟨hm, ⟨y, rfl⟩⟩, h2, rfl⟩, h3⟩
    rw [List.drop_left] at h2
    subst h2
    exact ⟨hm, h3⟩
  · rintro ⟨hm, h3⟩
    exact ⟨⟨p ++ x, v, ⟨hm, List.prefix_append _ _⟩, List.drop_left, rfl⟩, h3⟩

theorem sorted_range {r : Raw} (hr : SMap.Sorted r) {p : Bytes} (hc : Clean r p) (lo hi : Option Bytes) :
    SMap.Sorted (r.range p lo hi) := by
  rw [range_eq hc]
  apply List.Pairwise.filter
  rw [List.pairwise_map]
  have hf : (r.filter fun e => p.isPrefixOf e.1).Pairwise (fun a b => Key.lt a.1 b.1 = true) := List.Pairwise.filter _ hr
  refine List.Pairwise.imp_of_mem ?_ hf
  intro a b ha hb hab
  simp only [List.mem_filter, List.isPrefixOf_iff_prefix] at ha hb
  obtain ⟨_, x, hx⟩ := ha
  obtain ⟨_, y, hy⟩ := hb
  simp only [← hx, ← hy, List.drop_left] at hab ⊢
  have hab' : bytesLt (p ++ x) (p ++ y) = true := hab
  rwa [bytesLt_append] at hab'

theorem clean_of_last (r : Raw) {p : Bytes} (hne : p ≠ []) (h : p.getLast hne ≠ 255) : Clean r p := by
  rw [← List.dropLast_append_getLast hne]
  exact clean_concat r _ h

/-- Prefixes ending in a length-prefixed string. -/
theorem clean_str (r : Raw) (q : Bytes) (a : String) : Clean r (q ++ lenPrefix (strBytes a)) := by
  cases h : strBytes a with
  | nil =>
    have : q ++ lenPrefix [] = (q ++ [0]) ++ [0] := by simp [lenPrefix, beBytes]
    rw [this]
    exact clean_concat r _ (by decide)
  | cons b x =>
    rw [← h]
    have hne : strBytes a ≠ [] := by rw [h]; simp
    have hne' : q ++ lenPrefix (strBytes a) ≠ [] := by simp [lenPrefix, hne]
    apply clean_of_last r hne'
    have : (q ++ lenPrefix (strBytes a)).getLast hne' = (strBytes a).getLast hne := by
      simp [lenPrefix, List.getLast_append_of_ne_nil, hne]
    rw [this]
    exact strBytes_ne_255 a _ (List.getLast_mem hne)

theorem incr_head {b : UInt8} (hb : b ≠ 255) (x : Bytes) : (Raw.incr (b :: x)).2 = false := by
  unfold Raw.incr
  split
  · rw [if_neg hb]
  · rfl

theorem incr_append {z : Bytes} (h : (Raw.incr z).2 = false) (q : Bytes) : Raw.incr (q ++ z) = (q ++ (Raw.incr z).1, false) := by
  induction q with
  | nil => simp only [List.nil_append]; rw [← h]
  | cons a q ih => rw [List.cons_append, Raw.incr, ih]; rfl

theorem ns_orders : (strBytes "orders").length < 256 := by decide

theorem clean_orders {r : Raw} {F : Cell → Option Val} (h : HoldsCells r F) (t : Int) :
    Clean r (withKey [strBytes "orders", i64Bytes t] []) := by
  have hp : withKey [strBytes "orders", i64Bytes t] [] = (lenPrefix (strBytes "orders") ++ [0]) ++ (8 :: i64Bytes t) := by
    simp only [withKey_cons, withKey_nil, List.append_nil, lenPrefix, i64Bytes_length, List.append_assoc]
    rfl
  have hz : (Raw.incr (8 :: i64Bytes t)).2 = false := incr_head (by decide) _
  have hlen : (Raw.incr (8 :: i64Bytes t)).1.length = 9 := by rw [incr_length]; simp
  rw [hp]
  refine ⟨by rw [incr_append hz], fun e he h1 h2 => ?_⟩
  rcases incr_between (by rw [incr_append hz]) h1 h2 with hx | hx
  · exact hx
  · exfalso
    rw [incr_append hz, List.append_assoc] at hx
    obtain ⟨c, _, hk⟩ := h.cells e.1 e.2 he
    obtain ⟨w, hw⟩ := hx
    rw [hk] at hw
    cases hm : c.isMap with
    | false =>
      rw [Cell.key_item hm] at hw
      have hh := c.ns_head
      cases hs : strBytes c.ns with
      | nil => cases c <;> revert hs <;> simp only [Cell.ns] <;> decide
      | cons b x =>
        rw [hs] at hw hh
        have := congrArg List.head? hw
        rw [lenPrefix_head _ ns_orders] at this
        simp only [List.cons_append, List.head?_cons] at this hh
        exact hh this
    | true =>
      rw [Cell.key_map hm, List.append_assoc] at hw
      obtain ⟨e1, e2⟩ := lenPrefix_append_inj (by have := c.ns_len; omega) (by have := ns_orders; omega) hw
      have hns := strBytes_inj e1
      have hl := congrArg List.length e2
      simp only [List.length_append, List.length_cons, List.length_nil, hlen] at hl
      cases c <;> (try (exfalso; simp only [Cell.ns] at hns; revert hns; decide))
      simp only [Cell.rest, pkBytes_length] at hl
      omega

/-- An entry of the raw storage is a cell holding its value. -/
theorem Spec.HoldsCells.mem {r : Raw} {F : Cell → Option Val} (h : HoldsCells r F) {k : Bytes} {v : Val} (hm : (k, v) ∈ r) :
    ∃ c, CellOk c ∧ k = c.key ∧ F c = some v := by
  obtain ⟨c, hc, rfl⟩ := h.cells k v hm
  refine ⟨c, hc, rfl, ?_⟩
  rw [← h.load c hc]
  exact h.sorted.get? hm

theorem Spec.HoldsCells.mem_of {r : Raw} {F : Cell → Option Val} (h : HoldsCells r F) {c : Cell} (hc : CellOk c) {v : Val}
    (hv : F c = some v) : (c.key, v) ∈ r := by
  rw [← h.load c hc] at hv
  exact SMap.get?_mem hv

section
variable {info : Option Val} {r : Raw} {s : Store}

theorem tick_ok (hs : StoreOk s) {t : Int} {x : TickState} (h : SMap.get? s.ticks t = some x) : TickOk t :=
  hs (.tick t) (by simp [Store.cell, h])

theorem order_ok (hs : StoreOk s) {k : Int × Nat} {o : LimitOrder} (h : SMap.get? s.orders k = some o) : TickOk k.1 ∧ IdOk k.2 :=
  hs (.order k) (by simp [Store.cell, h])

/-- Iteration over the tick states. -/
theorem raw_ticks (h : Holds info r s) (hs : StoreOk s) (ht : SMap.Sorted s.ticks) (lo hi : Option Int)
    (hlo : ∀ l, lo = some l → TickOk l) (hhi : ∀ l, hi = some l → TickOk l) :
    (r.range (withKey [strBytes "tick_state"] []) (lo.map i64Bytes) (hi.map i64Bytes)).map Raw.tickEntry =
      (s.ticks.filter fun p => inBounds lo hi p.1).map some := by
  have hp : withKey [strBytes "tick_state"] [] = lenPrefix (strBytes "tick_state") := by simp [withKey]
  have hc : Clean r (withKey [strBytes "tick_state"] []) := by rw [hp]; exact clean_str r [] _
  have hbounds : ∀ t, TickOk t → inBounds (lo.map i64Bytes) (hi.map i64Bytes) (i64Bytes t) = inBounds lo hi t := by
    intro t htk
    refine inBounds_map i64Bytes lo hi t (fun l hl => ?_) (fun l hl => ?_)
    · rw [i64Bytes_lt htk (hlo l hl)]; rfl
    · rw [i64Bytes_lt (hhi l hl) htk]; rfl
  apply decode_list Raw.tickEntry i64Bytes (sorted_range h.sorted hc _ _) (ht.filter _)
  · rintro ⟨x, v⟩ he
    obtain ⟨hm, hb⟩ := (mem_range hc).1 he
    obtain ⟨c, hck, hk, hv⟩ := h.mem hm
    rw [hp] at hk
    obtain ⟨hmap, hns, hrest⟩ := Cell.key_inv (by decide) hk.symm
    clear hmap
    cases c <;> (try (exfalso; simp only [Cell.ns] at hns; revert hns; decide))
    rename_i t
    simp only [Cell.rest] at hrest
    subst hrest
    simp only [Store.cell, Option.map_eq_some_iff] at hv
    obtain ⟨y, hy, rfl⟩ := hv
    refine ⟨t, y, ?_, rfl, ?_⟩
    · rw [List.mem_filter]
      refine ⟨SMap.get?_mem hy, ?_⟩
      rw [← hbounds t hck]; exact hb
    · simp only [Raw.tickEntry, i64Of_i64Bytes hck]
  · intro t y hty
    rw [List.mem_filter] at hty
    have hy := ht.get? hty.1
    have htk := tick_ok hs hy
    refine ⟨.tick y, (mem_range hc).2 ⟨?_, ?_⟩⟩
    · have := h.mem_of (c := .tick t) htk (v := .tick y) (by simp [Store.cell, hy])
      rw [← withKey_append]; exact this
    · rw [hbounds t htk]; exact hty.2
  · intro a y b z ha hb
    rw [List.mem_filter] at ha hb
    rw [i64Bytes_lt (tick_ok hs (ht.get? ha.1)) (tick_ok hs (ht.get? hb.1))]
    rfl

theorem raw_allTicks (h : Holds info r s) (hs : StoreOk s) (ht : SMap.Sorted s.ticks) (lo hi : Option Int) (limit : Option Nat)
    (hlo : ∀ l, lo = some l → TickOk l) (hhi : ∀ l, hi = some l → TickOk l) :
    r.allTicks lo hi limit = some (allTicks s lo hi limit) := by
  have hr := raw_ticks h hs ht lo hi hlo hhi
  unfold Raw.allTicks allTicks
  cases limit with
  | none => exact mapM_some _ _ _ hr
  | some n => exact mapM_some _ _ _ (by rw [List.map_take, List.map_take, hr])

theorem raw_tickRange (h : Holds info r s) (hs : StoreOk s) (ht : SMap.Sorted s.ticks) (lo hi : Int) (desc : Bool)
    (hlo : TickOk lo) (hhi : TickOk hi) :
    (r.tickRange lo hi desc).map (List.map Prod.fst) = some (tickKeys s lo hi desc) ∧
    ∀ l, r.tickRange lo hi desc = some l → ∀ t x, (t, x) ∈ l → SMap.get? s.ticks t = some x := by
  have hr := raw_ticks h hs ht (some lo) (some hi) (fun l hl => by cases hl; exact hlo) (fun l hl => by cases hl; exact hhi)
  set m := s.ticks.filter fun p => inBounds (some lo) (some hi) p.1 with hm
  have hkeys : m.map Prod.fst = (SMap.keys s.ticks).filter fun t => decide (lo ≤ t ∧ t ≤ hi) := by
    rw [hm, SMap.keys, List.filter_map]
    congr 1
    apply List.filter_congr
    intro p _
    simp only [inBounds, Key.lt, Function.comp]
    rw [Bool.eq_iff_iff]
    simp only [Bool.and_eq_true, Bool.not_eq_true', decide_eq_false_iff_not, decide_eq_true_eq]
    omega
  have hmem : ∀ t x, (t, x) ∈ m → SMap.get? s.ticks t = some x := by
    intro t x hx
    rw [hm, List.mem_filter] at hx
    exact ht.get? hx.1
  unfold Raw.tickRange tickKeys
  cases desc with
  | false =>
    have e := mapM_some _ _ _ hr
    simp only [Bool.false_eq_true, if_false]
    simp only [Option.map] at e
    rw [e]
    refine ⟨by rw [← hkeys]; rfl, fun l hl t x hx => ?_⟩
    cases hl
    exact hmem t x hx
  | true =>
    have e := mapM_some Raw.tickEntry (r.range (withKey [strBytes "tick_state"] [])
      (some (i64Bytes lo)) (some (i64Bytes hi))).reverse m.reverse (by rw [List.map_reverse, List.map_reverse]; exact congrArg _ hr)
    simp only [if_true]
    rw [e]
    refine ⟨by rw [← hkeys]; simp, fun l hl t x hx => ?_⟩
    cases hl
    exact hmem t x (List.mem_reverse.1 hx)

/-- Iteration over the orders of a tick. -/
theorem raw_tickOrders (h : Holds info r s) (hs : StoreOk s) (ho : SMap.Sorted s.orders) (tick : Int) (htick : TickOk tick)
    (lo hi : Option Nat) (hlo : ∀ l, lo = some l → IdOk l) (hhi : ∀ l, hi = some l → IdOk l) :
    (r.range (withKey [strBytes "orders", i64Bytes tick] []) (lo.map u64Bytes) (hi.map u64Bytes)).map Raw.orderEntry =
      (s.orders.filter fun p => decide (p.1.1 = tick) && inBoundsId lo hi p.1.2).map fun p => some (p.1.2, p.2) := by
  have hc := clean_orders h tick
  have hbounds : ∀ i, IdOk i → inBounds (lo.map u64Bytes) (hi.map u64Bytes) (u64Bytes i) = inBoundsId lo hi i := by
    intro i hi'
    unfold inBounds inBoundsId
    have e1 : ∀ l, lo = some l → (!Key.lt (u64Bytes i) (u64Bytes l)) = decide (l ≤ i) := by
      intro l hl
      rw [show Key.lt (u64Bytes i) (u64Bytes l) = decide (i < l) from u64Bytes_lt hi' (hlo l hl), Bool.eq_iff_iff]
      simp
    have e2 : ∀ l, hi = some l → (!Key.lt (u64Bytes l) (u64Bytes i)) = decide (i ≤ l) := by
      intro l hl
      rw [show Key.lt (u64Bytes l) (u64Bytes i) = decide (l < i) from u64Bytes_lt (hhi l hl) hi', Bool.eq_iff_iff]
      simp
    cases lo with
    | none => cases hi with
      | none => rfl
      | some b => simp only [Option.map]; rw [e2 b rfl]
    | some a => cases hi with
      | none => simp only [Option.map]; rw [e1 a rfl]
      | some b => simp only [Option.map]; rw [e1 a rfl, e2 b rfl]
  have hd := decode_list (K := Int × Nat) (V := LimitOrder)
    (L := r.range (withKey [strBytes "orders", i64Bytes tick] []) (lo.map u64Bytes) (hi.map u64Bytes))
    (m := s.orders.filter fun p => decide (p.1.1 = tick) && inBoundsId lo hi p.1.2)
    (fun e => (Raw.orderEntry e).map fun p => ((tick, p.1), p.2)) (fun k => u64Bytes k.2)
    (sorted_range h.sorted hc _ _) (ho.filter _) ?_ ?_ ?_
  · have := congrArg (List.map (Option.map fun p : (Int × Nat) × LimitOrder => (p.1.2, p.2))) hd
    rw [List.map_map, List.map_map] at this
    rw [show (List.map Raw.orderEntry (r.range (withKey [strBytes "orders", i64Bytes tick] []) (lo.map u64Bytes) (hi.map u64Bytes))) =
      List.map ((Option.map fun p : (Int × Nat) × LimitOrder => (p.1.2, p.2)) ∘ fun e =>
        (Raw.orderEntry e).map fun p => ((tick, p.1), p.2))
        (r.range (withKey [strBytes "orders", i64Bytes tick] []) (lo.map u64Bytes) (hi.map u64Bytes)) from ?_, this]
    · rfl
    · apply List.map_congr_left
      intro e _
      simp only [Function.comp, Option.map_map]
      cases Raw.orderEntry e <;> rfl
  · rintro ⟨x, v⟩ he
    obtain ⟨hm, hb⟩ := (mem_range hc).1 he
    obtain ⟨c, hck, hk, hv⟩ := h.mem hm
    rw [withKey_cons, List.append_assoc] at hk
    obtain ⟨hmap, hns, hrest⟩ := Cell.key_inv (by decide) hk.symm
    clear hmap
    cases c <;> (try (exfalso; simp only [Cell.ns] at hns; revert hns; decide))
    rename_i k
    simp only [Cell.rest, pkBytes, withKey_cons, withKey_nil, List.append_nil] at hrest
    obtain ⟨e1, e2⟩ := lenPrefix_append_inj (i64_short _) (i64_short _) hrest
    have ht := i64Bytes_inj hck.1 htick e1
    subst e2
    simp only [Store.cell, Option.map_eq_some_iff] at hv
    obtain ⟨y, hy, rfl⟩ := hv
    obtain ⟨t, i⟩ := k
    simp only at ht; subst ht
    refine ⟨(t, i), y, ?_, rfl, ?_⟩
    · rw [List.mem_filter]
      refine ⟨SMap.get?_mem hy, ?_⟩
      rw [hbounds i hck.2] at hb
      simp [hb]
    · simp only [Raw.orderEntry, u64Of_u64Bytes hck.2]
      rfl
  · rintro ⟨t, i⟩ y hty
    rw [List.mem_filter] at hty
    have hy := ho.get? hty.1
    obtain ⟨htk, hik⟩ := order_ok hs hy
    simp only [Bool.and_eq_true, decide_eq_true_eq] at hty
    obtain ⟨_, rfl, hb⟩ := hty
    refine ⟨.order y, (mem_range hc).2 ⟨?_, ?_⟩⟩
    · have := h.mem_of (c := .order (t, i)) ⟨htk, hik⟩ (v := .order y) (by simp [Store.cell, hy])
      rw [← withKey_append]; exact this
    · rw [hbounds i hik]; exact hb
  · rintro ⟨t, i⟩ y ⟨t', i'⟩ z ha hb
    rw [List.mem_filter] at ha hb
    have h1 := order_ok hs (ho.get? ha.1)
    have h2 := order_ok hs (ho.get? hb.1)
    have h3 := ha.2
    have h4 := hb.2
    simp only [Bool.and_eq_true, decide_eq_true_eq] at h3 h4
    have e3 := h3.1
    have e4 := h4.1
    subst e3
    rw [u64Bytes_lt h1.2 h2.2]
    simp [Key.lt, e4]

theorem raw_ordersByTick (h : Holds info r s) (hs : StoreOk s) (ho : SMap.Sorted s.orders) (tick : Int) (htick : TickOk tick)
    (lo hi : Option Nat) (limit : Option Nat) (hlo : ∀ l, lo = some l → IdOk l) (hhi : ∀ l, hi = some l → IdOk l) :
    r.ordersByTick tick lo hi limit = some (ordersByTick s tick lo hi limit) := by
  have hr := raw_tickOrders h hs ho tick htick lo hi hlo hhi
  have hl := congrArg List.length hr
  rw [List.length_map, List.length_map] at hl
  unfold Raw.ordersByTick ordersByTick
  simp only [hl]
  rw [mapM_some Raw.orderEntry _ (((s.orders.filter fun p => decide (p.1.1 = tick) && inBoundsId lo hi p.1.2).take
    ((limit.map asUsize).getD (s.orders.filter fun p => decide (p.1.1 = tick) && inBoundsId lo hi p.1.2).length)).map
      fun p => (p.1.2, p.2)) (by rw [List.map_take, hr, List.map_map, List.map_take]; rfl)]
  simp [Function.comp_def]

/-- Iteration over an index. -/
theorem raw_index (h : Holds info r s) (hs : StoreOk s) (ho : SMap.Sorted s.orders) (f : FilterOwnerOrders)
    (hf : match f with | .all a => AddrOk a | .byTick t a => TickOk t ∧ AddrOk a) (lo hi : Option (Int × Nat))
    (hlo : ∀ l, lo = some l → TickOk l.1 ∧ IdOk l.2) (hhi : ∀ l, hi = some l → TickOk l.1 ∧ IdOk l.2) :
    (r.range (Raw.indexPrefix f) (lo.map pkBytes) (hi.map pkBytes)).map r.indexEntry =
      ((s.orders.filter fun p => f.selects p.2).filter fun p => inBounds lo hi p.1).map some := by
  have hc : Clean r (Raw.indexPrefix f) := by
    cases f with
    | all a =>
      have : Raw.indexPrefix (.all a) = lenPrefix (strBytes "orders_owner") ++ lenPrefix (strBytes a) := by
        simp [Raw.indexPrefix, withKey]
      rw [this]; exact clean_str r _ _
    | byTick t a =>
      have : Raw.indexPrefix (.byTick t a) =
          (lenPrefix (strBytes "orders_tick_and_owner") ++ lenPrefix (i64Bytes t)) ++ lenPrefix (strBytes a) := by
        simp [Raw.indexPrefix, withKey]
      rw [this]; exact clean_str r _ _
  have hbounds : ∀ k : Int × Nat, TickOk k.1 ∧ IdOk k.2 → inBounds (lo.map pkBytes) (hi.map pkBytes) (pkBytes k) = inBounds lo hi k := by
    intro k hk
    refine inBounds_map pkBytes lo hi k (fun l hl => ?_) (fun l hl => ?_)
    · exact pkBytes_lt hk.1 hk.2 (hlo l hl).1 (hlo l hl).2
    · exact pkBytes_lt (hhi l hl).1 (hhi l hl).2 hk.1 hk.2
  -- the entries of the index
  have hent : ∀ x v, (Raw.indexPrefix f ++ x, v) ∈ r → ∃ k o, SMap.get? s.orders k = some o ∧ f.selects o = true ∧
      TickOk k.1 ∧ IdOk k.2 ∧ x = pkBytes k ∧ v = .pkLen (pkBytes k).length := by
    intro x v hm
    obtain ⟨c, hck, hk, hv⟩ := h.mem hm
    cases f with
    | all a =>
      simp only [Raw.indexPrefix, withKey_cons, withKey_nil, List.append_assoc, List.append_nil] at hk
      obtain ⟨hmap, hns, hrest⟩ := Cell.key_inv (by decide) hk.symm
      clear hmap
      cases c <;> (try (exfalso; simp only [Cell.ns] at hns; revert hns; decide))
      rename_i a' k
      simp only [Cell.rest, withKey_cons, withKey_nil] at hrest
      obtain ⟨e1, e2⟩ := lenPrefix_append_inj (addr_short hck.1) (addr_short hf) hrest
      have ha := strBytes_inj e1
      subst ha
      simp only [Store.cell] at hv
      split at hv
      · next o ho' =>
        split_ifs at hv with how
        exact ⟨k, o, ho', by simp [FilterOwnerOrders.selects, how], hck.2.1, hck.2.2, e2.symm, (Option.some.inj hv).symm⟩
      · cases hv
    | byTick t a =>
      simp only [Raw.indexPrefix, withKey_cons, withKey_nil, List.append_assoc, List.append_nil] at hk
      obtain ⟨hmap, hns, hrest⟩ := Cell.key_inv (by decide) hk.symm
      clear hmap
      cases c <;> (try (exfalso; simp only [Cell.ns] at hns; revert hns; decide))
      rename_i t' a' k
      simp only [Cell.rest, withKey_cons, withKey_nil] at hrest
      obtain ⟨e0, hrest⟩ := lenPrefix_append_inj (i64_short _) (i64_short _) hrest
      obtain ⟨e1, e2⟩ := lenPrefix_append_inj (addr_short hck.2.1) (addr_short hf.2) hrest
      have ht := i64Bytes_inj hck.1 hf.1 e0
      have ha := strBytes_inj e1
      subst ha
      subst ht
      simp only [Store.cell] at hv
      split at hv
      · next o ho' =>
        split_ifs at hv with how
        exact ⟨k, o, ho', by simp [FilterOwnerOrders.selects, how], hck.2.2.1, hck.2.2.2, e2.symm, (Option.some.inj hv).symm⟩
      · cases hv
  apply decode_list r.indexEntry pkBytes (sorted_range h.sorted hc _ _) ((ho.filter _).filter _)
  · rintro ⟨x, v⟩ he
    obtain ⟨hm, hb⟩ := (mem_range hc).1 he
    obtain ⟨k, o, hko, hsel, h1, h2, rfl, rfl⟩ := hent x v hm
    refine ⟨k, o, ?_, rfl, ?_⟩
    · rw [List.mem_filter, List.mem_filter]
      exact ⟨⟨SMap.get?_mem hko, hsel⟩, by rw [← hbounds k ⟨h1, h2⟩]; exact hb⟩
    · have hl := h.load (.order k) ⟨h1, h2⟩
      have hkey : (Cell.order k).key = withKey [strBytes "orders"] (pkBytes k) := by simp [Cell.key, withKey, pkBytes]
      unfold Raw.load at hl
      rw [hkey] at hl
      simp only [Raw.indexEntry, Nat.sub_self, List.drop_zero, pkOf_pkBytes h1 h2, hl, Store.cell, hko, Option.map_some]
  · rintro k o hko
    rw [List.mem_filter, List.mem_filter] at hko
    obtain ⟨⟨hm, hsel⟩, hb⟩ := hko
    have hget := ho.get? hm
    obtain ⟨h1, h2⟩ := order_ok hs hget
    refine ⟨.pkLen (pkBytes k).length, (mem_range hc).2 ⟨?_, by rw [hbounds k ⟨h1, h2⟩]; exact hb⟩⟩
    cases f with
    | all a =>
      have := h.mem_of (c := .ownerIdx a k) ⟨hf, h1, h2⟩ (v := .pkLen (pkBytes k).length) (by
        simp only [Store.cell, hget]
        simp only [FilterOwnerOrders.selects, decide_eq_true_eq] at hsel
        rw [if_pos hsel])
      unfold Raw.indexPrefix
      rw [← withKey_append]; exact this
    | byTick t a =>
      have := h.mem_of (c := .tickOwnerIdx t a k) ⟨hf.1, hf.2, h1, h2⟩ (v := .pkLen (pkBytes k).length) (by
        simp only [Store.cell, hget]
        simp only [FilterOwnerOrders.selects, decide_eq_true_eq] at hsel
        rw [if_pos hsel])
      unfold Raw.indexPrefix
      rw [← withKey_append]; exact this
  · intro k o k' o' hk hk'
    rw [List.mem_filter, List.mem_filter] at hk hk'
    have h1 := order_ok hs (ho.get? hk.1.1)
    have h2 := order_ok hs (ho.get? hk'.1.1)
    exact pkBytes_lt h1.1 h1.2 h2.1 h2.2

theorem raw_getOrdersByOwner (h : Holds info r s) (hs : StoreOk s) (ho : SMap.Sorted s.orders) (f : FilterOwnerOrders)
    (hf : match f with | .all a => AddrOk a | .byTick t a => TickOk t ∧ AddrOk a) (lo hi : Option (Int × Nat)) (size : Option Nat)
    (hlo : ∀ l, lo = some l → TickOk l.1 ∧ IdOk l.2) (hhi : ∀ l, hi = some l → TickOk l.1 ∧ IdOk l.2) :
    r.getOrdersByOwner f lo hi size = getOrdersByOwner s f lo hi size := by
  have hr := raw_index h hs ho f hf lo hi hlo hhi
  unfold Raw.getOrdersByOwner getOrdersByOwner
  rw [filterMap_some r.indexEntry _ (((s.orders.filter fun p => f.selects p.2).filter fun p => inBounds lo hi p.1).take
    (asUsize (size.getD DEFAULT_PAGE_SIZE))) (by rw [List.map_take, hr, List.map_take])]

theorem raw_ordersByOwner (h : Holds info r s) (hs : StoreOk s) (ho : SMap.Sorted s.orders) (owner : Addr) (hf : AddrOk owner)
    (lo hi : Option (Int × Nat)) (size : Option Nat)
    (hlo : ∀ l, lo = some l → TickOk l.1 ∧ IdOk l.2) (hhi : ∀ l, hi = some l → TickOk l.1 ∧ IdOk l.2) :
    r.ordersByOwner owner lo hi size = ordersByOwner s owner lo hi size := by
  unfold Raw.ordersByOwner ordersByOwner
  rw [raw_getOrdersByOwner h hs ho (.all owner) hf lo hi size hlo hhi]
  congr 1
  have hr := congrArg List.length (raw_index h hs ho (.all owner) hf none none (fun l hl => by cases hl) (fun l hl => by cases hl))
  rw [List.length_map, List.length_map] at hr
  simp only [Option.map_none] at hr
  rw [hr]
  congr 1
  rw [List.filter_filter]
  apply List.filter_congr
  intro p _
  simp [inBounds, FilterOwnerOrders.selects]

end
end OB
