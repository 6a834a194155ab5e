import Verif.SpecSize
import Verif.Props.Room
import Verif.Props.Storage
import Verif.Props.Tree
/- C93: the storage stays small. -/
namespace OB
open Spec

/-! ### Nothing is stored outside the trees and the used ticks -/

/-- Every stored node belongs to the tree of its side, and only known ticks have a root or a node counter. -/
structure Tidy (s : Store) : Prop where
  node : ∀ t q n, s.trees.nodes t q = some n → ∃ rt, RootRep s.trees t n.dir rt ∧ q ∈ rt.ids
  tick : ∀ t, SMap.get? s.ticks t = none → s.trees.counter t = none ∧ ∀ d, s.trees.roots t d = none

theorem rootInit_nodes (st : TreeSt) (tick : Int) (dir : Dir) : (rootInit st tick dir).nodes = st.nodes := by
  unfold rootInit; split <;> rfl

theorem Synced.nodes {s s' : Store} {b : Book} {tick : Int} (h : Synced s s' b tick) : s'.trees.nodes = s.trees.nodes := by
  rw [h.trees]
  unfold treeSync
  simp only
  split <;> split <;> simp only [rootInit_nodes]

theorem Synced.tidy {s s' : Store} {b : Book} {tick : Int} (h : Synced s s' b tick) (ht : Tidy s) : Tidy s' := by
  refine ⟨fun t q n hn => ?_, fun t hu => ?_⟩
  · rw [h.nodes] at hn
    obtain ⟨rt, h1, h2⟩ := ht.node t q n hn
    exact ⟨rt, h.keep t _ rt h1, h2⟩
  · have hne : t ≠ tick := fun e => h.known (e ▸ hu)
    rw [h.frame.counter t hne]
    rw [h.ticks_ne t hne] at hu
    exact ⟨(ht.tick t hu).1, fun d => by rw [h.frame.roots t d hne]; exact (ht.tick t hu).2 d⟩

theorem Tidy.of_same {s s' : Store} (ht : Tidy s) (h1 : s'.trees = s.trees)
    (h2 : ∀ t, SMap.get? s'.ticks t = none → SMap.get? s.ticks t = none) : Tidy s' :=
  ⟨fun t q n hn => by rw [h1] at hn ⊢; exact ht.node t q n hn, fun t hu => by rw [h1]; exact ht.tick t (h2 t hu)⟩

theorem insert_none {m : SMap Int TickState} {k t : Int} {v : TickState} (h : SMap.get? (SMap.insert m k v) t = none) :
    SMap.get? m t = none := by
  rw [SMap.get?_insert] at h
  split at h
  · simp at h
  · exact h

theorem insertAll_none {m : SMap Int TickState} {l : List (Int × TickState)} {t : Int} (h : SMap.get? (insertAll m l) t = none) :
    SMap.get? m t = none := by
  induction l generalizing m with
  | nil => exact h
  | cons x l ih => exact insert_none (ih h)

theorem ClaimStep.tidy {sender : Addr} {tick : Int} {id : Nat} {s s' : Store} {b b' : Book} {r : Nat × List SendMsg × LimitOrder}
    (h : ClaimStep sender tick id s b r s' b') (ht : Tidy s) : Tidy s' := by
  obtain ⟨h1, h2, h3, h4, h5, h6, h7⟩ := h
  rename_i s1 dir p q x ob rc
  obtain ⟨-, -, g3, g4, -⟩ := claimedStore_same s1 tick (orderOf tick dir (sumBy Entry.placed p) { x with claimed := x.filled })
  exact (h6.tidy ht).of_same g3 (fun t hu => by rw [g4] at hu; exact hu)

theorem ClaimRun.tidy {sender : Addr} {ob : Orderbook} {l : List (Int × Nat)} {s s' : Store} {b b' : Book} {ms : List SendMsg}
    {es : List Event} (h : ClaimRun sender ob l s b ms es s' b') (ht : Tidy s) : Tidy s' := by
  induction h with
  | nil => exact ht
  | ok _ h _ ih => exact ih (h.tidy ht)
  | skip _ h _ ih =>
    rcases h.store with rfl | h
    · exact ih ht
    · exact ih (h.tidy ht)

theorem CancelFrame.tidy {s1 : Store} {tr : TreeSt} {tick : Int} {dir : Dir} (h : CancelFrame s1.trees tr tick dir) (ht : Tidy s1)
    {t : Int} {q : Nat} {n : TreeNode} (hn : tr.nodes t q = some n) : ∃ rt, RootRep tr t n.dir rt ∧ q ∈ rt.ids := by
  obtain ⟨hf, -, rt, rt', r1, r2, h1, h2⟩ := h
  by_cases hne : t ≠ tick
  · rw [hf.nodes t hne] at hn
    obtain ⟨rt0, g1, g2⟩ := ht.node t q n hn
    exact ⟨rt0, g1.frame hf (Or.inl hne), g2⟩
  · obtain rfl : tick = t := by omega
    by_cases hq : q ∈ rt'.ids
    · obtain ⟨m, g1, g2⟩ := ValidOn.dir r2.validOn q hq
      rw [hn] at g1
      obtain rfl := Option.some.inj g1
      exact ⟨rt', g2 ▸ r2, hq⟩
    · rw [h2 q hq] at hn
      obtain ⟨rt0, g1, g2⟩ := ht.node tick q n hn
      by_cases hd : n.dir = dir
      · rw [hd] at g1
        have := (ValidOn.unique g1.validOn r1.validOn).2.2
        exact absurd (h1 q (this ▸ g2)) hq
      · exact ⟨rt0, g1.frame hf (Or.inr hd), g2⟩

theorem StoreStep.tidy {ch : Chain} {op : Op} {s s' : Store} {b b' : Book} {resp : Response} (h : StoreStep ch op s b resp s' b')
    (ht : Tidy s) : Tidy s' := by
  cases h with
  | place => exact ht.of_same rfl fun t hu => insert_none hu
  | @cancel time tick dir s s1 b ob p q x tr ts1 h1 h2 h3 h4 h5 h6 h7 h8 h9 =>
    have ht1 := h6.tidy ht
    refine ⟨fun t q n hn => h8.tidy ht1 hn, fun t hu => ?_⟩
    have hne : t ≠ tick := fun e => by
      subst e
      exact absurd hu (by show SMap.get? (SMap.insert s1.ticks t _) t ≠ none; rw [SMap.get?_insert_self]; simp)
    have hu1 := ht1.tick t (insert_none hu)
    show tr.counter t = none ∧ ∀ d, tr.roots t d = none
    rw [h8.1.counter t hne]
    exact ⟨hu1.1, fun d => by rw [h8.1.roots t d (Or.inl hne)]; exact hu1.2 d⟩
  | claim h1 h2 h3 h4 => exact h4.tidy ht
  | batch h1 h2 h3 h4 => exact h4.tidy ht
  | swap => exact ht.of_same rfl fun t hu => insertAll_none hu
  | config h1 h2 => exact ht.of_same h2.trees fun t hu => by rw [h2.ticks] at hu; exact hu

theorem initial_trees {ch : Chain} {w : World} (h : Initial ch w) : w.store.trees = Store.empty.trees := by
  obtain ⟨time, supply, quote, base, resp, h⟩ := h
  simp only [instantiate, createOrderbook, saveOrderbook, setMakerFee, setMakerFeeRecipient,
    EM.bind_eq_ok, EM.ensure_eq_ok, EM.modify_eq_ok, EM.pure_eq_ok] at h
  obtain ⟨_, _, ⟨-, rfl⟩, _, _, rfl, _, _, ⟨-, rfl⟩, _, _, rfl, _, _, ⟨_, _, ⟨hne, rfl⟩, _, _, ⟨-, rfl⟩, _, _, ⟨-, rfl⟩, _, _, rfl,
    _, _, ⟨_, _, ⟨hfee, rfl⟩, _, _, rfl, -, rfl⟩, _, _, ⟨-, rfl⟩, rfl⟩, -, hs⟩ := h
  rw [hs]

theorem Traced.tidy {ch : Chain} {n : Nat} {w : World} {b : Book} (h : Traced ch n w b) : Tidy w.store := by
  induction h with
  | init h =>
    have e := initial_trees h
    refine ⟨fun t q n hn => ?_, fun t _ => ?_⟩
    · rw [e] at hn; simp [Store.empty] at hn
    · rw [e]; exact ⟨rfl, fun _ => rfl⟩
  | ok ht hs ih => exact (ht.step hs).tidy ih
  | failed _ _ ih => exact ih

/-! ### Counting -/

theorem T.keys_length (t : T) : t.keys.length + 1 = 2 * t.leaves.length := by
  induction t with
  | leaf => rfl
  | node k l r ihl ihr => simp only [T.keys, T.leaves, List.length_cons, List.length_append]; omega

theorem T.leaves_two {t : T} (h : t.isNode = true) : 2 ≤ t.leaves.length := by
  cases t with
  | leaf => simp at h
  | node k l r =>
    have := l.keys_length; have := r.keys_length
    simp only [T.leaves, List.length_append]; omega

theorem RootRep.ids_length {st : TreeSt} {tick : Int} {dir : Dir} {rt : RT} (h : RootRep st tick dir rt) :
    rt.ids.length = treeNodes rt.leaves.length := by
  cases rt with
  | empty => rfl
  | one => rfl
  | full t =>
    have h1 := t.keys_length
    have h2 := T.leaves_two h.2.2.1
    simp only [RT.ids, RT.leaves]
    obtain ⟨c, hc⟩ : ∃ c, t.leaves.length = c + 2 := ⟨t.leaves.length - 2, by omega⟩
    rw [hc] at h1 ⊢
    simp only [treeNodes]; omega

/-- C93 (nodes): after every history, the nodes stored for a side of a tick are exactly those of its tree: what insertions and rotations
went through is not left behind, and a side with `c` cancelled orders has none (c = 0), two (c = 1) or `2 c - 1` of them - no more and no
less, for good: nothing that happens later shrinks the tree. -/
theorem C93_nodes {ch : Chain} {n : Nat} {w : World} {b : Book} (h : Traced ch n w b) (tick : Int) (dir : Dir) :
    ∃ height ks, ValidOn w.store.trees tick dir height (cancelledLeaves 0 (b tick dir)) ks ∧
      (∀ q, q ∈ ks ↔ ∃ nd, w.store.trees.nodes tick q = some nd ∧ nd.dir = dir) ∧
      ks.length = treeNodes (cancelledAt b tick dir) := by
  obtain ⟨r, rt, h1, h2, h3⟩ := h.rel.sides tick dir
  have h3' := h3
  rw [← cancelledLeaves_eq h1.ok] at h3'
  refine ⟨rt.height, rt.ids, ?_, fun q => ⟨ValidOn.dir h2.validOn q, ?_⟩, ?_⟩
  · have := h2.validOn; rwa [h3'] at this
  · rintro ⟨nd, hn, rfl⟩
    obtain ⟨rt0, g1, g2⟩ := h.tidy.node tick q nd hn
    rw [← (ValidOn.unique g1.validOn h2.validOn).2.2]
    exact g2
  · rw [h2.ids_length, h3', cancelledLeaves_length]; rfl

theorem subset_length {α : Type} [DecidableEq α] {S L : List α} (hn : S.Nodup) (hs : ∀ c ∈ S, c ∈ L) : S.length ≤ L.length :=
  (List.Nodup.subperm hn hs).length_le

theorem length_flatMap_le {α β : Type} (l : List α) (f : α → List β) : (l.flatMap f).length = (l.map fun x => (f x).length).sum := by
  induction l with
  | nil => rfl
  | cons x l ih => simp [ih]

/-- The cells that may hold something. -/
def cellsOf (s : Store) (ids : Int → Dir → List Nat) : List Cell :=
  [.orderId, .orderbook, .isActive, .makerFee, .makerFeeRecipient, .admin, .adminOffer, .moderator, .moderatorOffer, .dirLiq .bid, .dirLiq .ask] ++
  (SMap.keys s.ticks).flatMap (fun t => [Cell.tick t, .root t .bid, .root t .ask, .counter t] ++ ((ids t .bid).map (Cell.node t) ++ (ids t .ask).map (Cell.node t))) ++
  s.orders.flatMap (fun x => [Cell.order x.1, .ownerIdx x.2.owner x.1, .tickOwnerIdx x.2.tickId x.2.owner x.1])

theorem cellsOf_length (s : Store) (ids : Int → Dir → List Nat) (c : Int → Dir → Nat) (h : ∀ t d, (ids t d).length = treeNodes (c t d)) :
    (cellsOf s ids).length = 11 + 4 * s.ticks.length + 3 * s.orders.length +
      ((SMap.keys s.ticks).map fun t => treeNodes (c t .bid) + treeNodes (c t .ask)).sum := by
  unfold cellsOf
  simp only [List.length_append, length_flatMap_le, List.length_cons, List.length_nil, List.length_map, h]
  have e1 : ∀ l : List Int, (l.map fun t => 0 + 1 + 1 + 1 + 1 + (treeNodes (c t .bid) + treeNodes (c t .ask))).sum =
      4 * l.length + (l.map fun t => treeNodes (c t .bid) + treeNodes (c t .ask)).sum := by
    intro l
    induction l with
    | nil => rfl
    | cons x l ih => simp only [List.map_cons, List.sum_cons, List.length_cons, ih]; omega
  have e2 : ∀ l : List ((Int × Nat) × LimitOrder), (l.map fun _ => 0 + 1 + 1 + 1).sum = 3 * l.length := by
    intro l
    induction l with
    | nil => rfl
    | cons x l ih => simp only [List.map_cons, List.sum_cons, List.length_cons, ih]; omega
  rw [e1, e2]
  have : (SMap.keys s.ticks).length = s.ticks.length := by simp [SMap.keys]
  rw [this]; omega

/-- C93 (records): after every history the contract's storage holds at most eleven single records, four per price level ever used (its
state, two roots, one counter), three per order on the book (the order and its two index entries), and the nodes of the trees of cancelled
orders. Nothing else: an order that was filled and claimed, or cancelled, leaves neither its record nor an index entry. -/
theorem C93_records {ch : Chain} {n : Nat} {w : World} {b : Book} (h : Traced ch n w b) {S : List Cell} (hS : Records w.store S) :
    S.length ≤ 11 + 4 * w.store.ticks.length + 3 * w.store.orders.length +
      ((SMap.keys w.store.ticks).map fun t => treeNodes (cancelledAt b t .bid) + treeNodes (cancelledAt b t .ask)).sum := by
  choose height ids h1 h2 h3 using fun t d => C93_nodes h t d
  rw [← cellsOf_length w.store ids (cancelledAt b) h3]
  refine subset_length hS.1 fun c hc => ?_
  have hne := hS.2 c hc
  have hk : ∀ t, SMap.get? w.store.ticks t ≠ none → t ∈ SMap.keys w.store.ticks := fun t ht => SMap.mem_keys_iff.2 ht
  unfold cellsOf
  simp only [List.mem_append, List.mem_flatMap, List.mem_cons, List.not_mem_nil, or_false, List.mem_map]
  cases c with
  | tick t =>
    refine Or.inl (Or.inr ⟨t, hk t fun e => hne ?_, by simp⟩)
    simp [Store.cell, e]
  | dirLiq d => cases d <;> simp
  | order k =>
    cases e : SMap.get? w.store.orders k with
    | none => exact absurd (by simp [Store.cell, e]) hne
    | some o => exact Or.inr ⟨(k, o), SMap.get?_mem e, by simp⟩
  | ownerIdx a k =>
    cases e : SMap.get? w.store.orders k with
    | none => exact absurd (by simp [Store.cell, e]) hne
    | some o =>
      by_cases ha : o.owner = a
      · exact Or.inr ⟨(k, o), SMap.get?_mem e, by simp [ha]⟩
      · exact absurd (by simp [Store.cell, e, ha]) hne
  | tickOwnerIdx t a k =>
    cases e : SMap.get? w.store.orders k with
    | none => exact absurd (by simp [Store.cell, e]) hne
    | some o =>
      by_cases ha : o.tickId = t ∧ o.owner = a
      · exact Or.inr ⟨(k, o), SMap.get?_mem e, by simp [ha]⟩
      · exact absurd (by simp only [Store.cell, e]; rw [if_neg ha]) hne
  | node t q =>
    cases e : w.store.trees.nodes t q with
    | none => exact absurd (by simp [Store.cell, e]) hne
    | some nd =>
      have hq := (h2 t nd.dir q).2 ⟨nd, e, rfl⟩
      refine Or.inl (Or.inr ⟨t, ?_, ?_⟩)
      · rw [SMap.mem_keys_iff, h.rel.known]
        by_contra hb
        rw [not_or, not_not, not_not] at hb
        have : b t nd.dir = [] := by cases nd.dir <;> [exact hb.1; exact hb.2]
        have h3 := h3 t nd.dir
        unfold cancelledAt at h3
        rw [this] at h3
        rw [List.eq_nil_of_length_eq_zero h3] at hq
        simp at hq
      · cases hd : nd.dir <;> rw [hd] at hq <;> simp [hq]
  | root t d =>
    refine Or.inl (Or.inr ⟨t, hk t fun e => hne ?_, by cases d <;> simp⟩)
    simp [Store.cell, (h.tidy.tick t e).2 d]
  | counter t =>
    refine Or.inl (Or.inr ⟨t, hk t fun e => hne ?_, by simp⟩)
    simp [Store.cell, (h.tidy.tick t e).1]
  | contractInfo => simp [Store.cell] at hne
  | _ => simp

/-- The entries of the given ticks. -/
def entriesOf (b : Book) (ts : List Int) : List Entry := ts.flatMap fun t => b t .bid ++ b t .ask

theorem entries_nodup {s : Store} {b : Book} (h : IdsOk s b) {ts : List Int} (hn : ts.Nodup) : ((entriesOf b ts).map Entry.id).Nodup := by
  have hq : ∀ t d, ((b t d).map Entry.id).Nodup := fun t d => by
    unfold List.Nodup
    rw [List.pairwise_map]
    exact (h.inc t d).imp fun hlt => by omega
  unfold entriesOf
  rw [List.map_flatMap, List.nodup_flatMap]
  refine ⟨fun t _ => ?_, ?_⟩
  · rw [List.map_append, List.nodup_append]
    refine ⟨hq t _, hq t _, fun i hi j hj e => ?_⟩
    obtain ⟨x, hx, rfl⟩ := List.mem_map.1 hi
    obtain ⟨y, hy, rfl⟩ := List.mem_map.1 hj
    have := (h.disj _ _ _ _ x y hx hy e).2
    simp at this
  · refine List.Pairwise.imp ?_ hn
    intro t t' hne
    show List.Disjoint _ _
    intro i hi hj
    obtain ⟨x, hx, rfl⟩ := List.mem_map.1 hi
    obtain ⟨y, hy, e⟩ := List.mem_map.1 hj
    rw [List.mem_append] at hx hy
    rcases hx with hx | hx <;> rcases hy with hy | hy <;> exact hne (h.disj _ _ _ _ x y hx hy e.symm).1

theorem entries_le {s : Store} {b : Book} (h : IdsOk s b) {ts : List Int} (hn : ts.Nodup) : (entriesOf b ts).length ≤ s.orderId.getD 0 := by
  have h1 := entries_nodup h hn
  have h2 : ((entriesOf b ts).map Entry.id).length ≤ (List.range (s.orderId.getD 0)).length := by
    refine subset_length h1 fun i hi => ?_
    obtain ⟨x, hx, rfl⟩ := List.mem_map.1 hi
    unfold entriesOf at hx
    simp only [List.mem_flatMap, List.mem_append] at hx
    obtain ⟨t, -, hx | hx⟩ := hx <;> exact List.mem_range.2 (h.lt _ _ x hx)
  simpa using h2

theorem treeNodes_le (c : Nat) : treeNodes c ≤ 2 * c := by
  match c with
  | 0 => simp [treeNodes]
  | 1 => simp [treeNodes]
  | c + 2 => simp only [treeNodes]; omega

theorem nodes_le (b : Book) (ts : List Int) : (ts.map fun t => treeNodes (cancelledAt b t .bid) + treeNodes (cancelledAt b t .ask)).sum ≤
    2 * ((entriesOf b ts).filter Entry.cancelled).length := by
  induction ts with
  | nil => simp
  | cons t ts ih =>
    have e : entriesOf b (t :: ts) = b t .bid ++ b t .ask ++ entriesOf b ts := rfl
    have := treeNodes_le (cancelledAt b t .bid)
    have := treeNodes_le (cancelledAt b t .ask)
    rw [e]
    simp only [List.map_cons, List.sum_cons, List.filter_append, List.length_append]
    unfold cancelledAt at *
    omega

theorem used_le (b : Book) (ts : List Int) (h : ∀ t ∈ ts, b t .bid ≠ [] ∨ b t .ask ≠ []) : ts.length ≤ (entriesOf b ts).length := by
  induction ts with
  | nil => simp
  | cons t ts ih =>
    have e : entriesOf b (t :: ts) = b t .bid ++ b t .ask ++ entriesOf b ts := rfl
    have ih := ih fun t ht => h t (by simp [ht])
    rw [e]
    simp only [List.length_append, List.length_cons]
    have := h t (by simp)
    rw [List.ne_nil_iff_length_pos, List.ne_nil_iff_length_pos] at this
    omega

theorem live_cancelled_le (l : List Entry) : (l.filter fun x => !x.cancelled).length + (l.filter Entry.cancelled).length = l.length := by
  induction l with
  | nil => rfl
  | cons x l ih =>
    cases hc : x.cancelled <;> simp [hc] <;> omega

theorem Traced.size {ch : Chain} {n : Nat} {w : World} {b : Book} (h : Traced ch n w b) :
    4 * w.store.ticks.length + 3 * w.store.orders.length +
      ((SMap.keys w.store.ticks).map fun t => treeNodes (cancelledAt b t .bid) + treeNodes (cancelledAt b t .ask)).sum
      ≤ 7 * w.store.orderId.getD 0 := by
  have hr := h.rel
  have hn : (SMap.keys w.store.ticks).Nodup := SMap.Sorted.keys_nodup hr.ticksSorted
  have e1 := entries_le hr.ids hn
  have e2 := nodes_le b (SMap.keys w.store.ticks)
  have e3 := used_le b (SMap.keys w.store.ticks) fun t ht => (hr.known t).1 (SMap.mem_keys_iff.1 ht)
  have e4 := live_cancelled_le (entriesOf b (SMap.keys w.store.ticks))
  have e5 : (SMap.keys w.store.ticks).length = w.store.ticks.length := by simp [SMap.keys]
  have e6 : (w.store.orders.map fun x => x.1.2).length ≤
      (((entriesOf b (SMap.keys w.store.ticks)).filter fun x => !x.cancelled).map Entry.id).length := by
    refine subset_length ?_ fun i hi => ?_
    · unfold List.Nodup
      rw [List.pairwise_map]
      refine List.Pairwise.imp_of_mem ?_ hr.ordersSorted
      rintro ⟨k, o⟩ ⟨k', o'⟩ hm hm' hlt e
      obtain ⟨d, p, x, q, g1, g2, g3, -⟩ := (hr.orders k.1 k.2 o).1 (SMap.Sorted.get? hr.ordersSorted hm)
      obtain ⟨d', p', x', q', g1', g2', g3', -⟩ := (hr.orders k'.1 k'.2 o').1 (SMap.Sorted.get? hr.ordersSorted hm')
      have := hr.ids.disj k.1 d k'.1 d' x x' (by rw [g1]; simp) (by rw [g1']; simp) (by rw [g3, g3']; exact e)
      have ek : k = k' := Prod.ext this.1 e
      simp only at hlt
      rw [ek, Key.irrefl] at hlt
      simp at hlt
    · obtain ⟨⟨k, o⟩, hm, rfl⟩ := List.mem_map.1 hi
      obtain ⟨d, p, x, q, g1, g2, g3, -⟩ := (hr.orders k.1 k.2 o).1 (SMap.Sorted.get? hr.ordersSorted hm)
      refine List.mem_map.2 ⟨x, List.mem_filter.2 ⟨?_, by simp [g2.1]⟩, g3⟩
      have hx : x ∈ b k.1 d := by rw [g1]; simp
      unfold entriesOf
      rw [List.mem_flatMap]
      refine ⟨k.1, ?_, ?_⟩
      · rw [SMap.mem_keys_iff, hr.known]
        cases d
        · exact Or.inl fun e => by rw [e] at hx; simp at hx
        · exact Or.inr fun e => by rw [e] at hx; simp at hx
      · rw [List.mem_append]
        cases d
        · exact Or.inl hx
        · exact Or.inr hx
  simp only [List.length_map] at e6
  omega

/-- C93 (bound): whatever the history did - swaps, claims, cancels, rejected messages, administration, however many - the storage holds at
most eleven records and seven for every order placement that was accepted. -/
theorem C93_bound {ch : Chain} {w0 : World} (hi : Initial ch w0) (ops : List Op) {S : List Cell} (hS : Records (run ch w0 ops).store S) :
    S.length ≤ 11 + 7 * placements ch w0 ops := by
  have hr : Reachable ch w0 := ⟨0, (Traced.init hi).reachable⟩
  obtain ⟨n, hn⟩ := hr.run ops
  obtain ⟨b, h⟩ := hn.traced
  have h1 := C93_records h hS
  have h2 := h.size
  have h3 := (C72_counters hr ops).1
  rw [(initial_fresh hi).1] at h3
  simp only [Option.getD_none, zero_add] at h3
  omega

/-- C93 (bytes): the same for the key-value storage the chain keeps for the contract (one entry more: cw2's record). -/
theorem C93_bytes {ch : Chain} {w0 : World} (hi : Initial ch w0) {ops : List Op} {info : Option Val} {r : Raw}
    (hr : Holds info r (run ch w0 ops).store) : r.length ≤ 12 + 7 * placements ch w0 ops := by
  haveI : Inhabited Cell := ⟨.orderId⟩
  have hc : ∀ x ∈ r, ∃ c, CellOk c ∧ x.1 = c.key := fun x hx => hr.cells x.1 x.2 hx
  choose! f h1 h2 using hc
  have hk : ∀ x ∈ r, ∀ y ∈ r, f x = f y → x.1 = y.1 := fun x hx y hy e => by rw [h2 x hx, h2 y hy, e]
  have hnd : (r.map f).Nodup := by
    unfold List.Nodup
    rw [List.pairwise_map]
    refine List.Pairwise.imp_of_mem ?_ hr.sorted
    intro x y hx hy hlt e
    rw [hk x hx y hy e, Key.irrefl] at hlt
    simp at hlt
  have hocc : ∀ c ∈ r.map f, (run ch w0 ops).store.cell info c ≠ none := by
    intro c hc
    obtain ⟨x, hx, rfl⟩ := List.mem_map.1 hc
    rw [← hr.load (f x) (h1 x hx)]
    unfold Raw.load
    rw [← h2 x hx, SMap.Sorted.get? hr.sorted (x := x.1) (y := x.2) hx]
    simp
  have hS : Records (run ch w0 ops).store ((r.map f).filter (· ≠ .contractInfo)) := by
    refine ⟨hnd.filter _, fun c hc => ?_⟩
    rw [List.mem_filter] at hc
    have := hocc c hc.1
    cases c <;> first | exact this | (simp at hc)
  have hb := C93_bound hi ops hS
  have : (r.map f).length ≤ ((r.map f).filter (· ≠ .contractInfo)).length + 1 := by
    have hle : (r.map f).length ≤ (.contractInfo :: (r.map f).filter (· ≠ .contractInfo)).length := by
      refine subset_length hnd fun c hc => ?_
      by_cases e : c = .contractInfo
      · simp [e]
      · exact List.mem_cons_of_mem _ (List.mem_filter.2 ⟨hc, by simp [e]⟩)
    simpa using hle
  rw [List.length_map] at this
  omega

/-- The records of the demo history that holds nine cancelled orders on one side. -/
def Demo.cells (w : World) (ids : List Nat) : List Cell :=
  (cellsOf w.store fun t d => if t = 0 ∧ d = .bid then ids else []).filter fun c => (w.store.cell none c).isSome

/-- Non-vacuity: after the demo history (five orders placed on three price levels, two of them cancelled, three on the book) 25 records hold
something, three of them tree nodes; the bounds are 35 and 46. -/
example : Records (run Demo.ch Demo.w0 Demo.history).store (Demo.cells (run Demo.ch Demo.w0 Demo.history) [1, 2, 3]) ∧
    (Demo.cells (run Demo.ch Demo.w0 Demo.history) [1, 2, 3]).length = 25 ∧ placements Demo.ch Demo.w0 Demo.history = 5 := by
  have h : ∀ S, (Records (run Demo.ch Demo.w0 Demo.history).store S) ↔
      S.Nodup ∧ ∀ c ∈ S, ((run Demo.ch Demo.w0 Demo.history).store.cell none c).isSome = true := by
    intro S; unfold Records; simp only [Option.isSome_iff_ne_none]
  rw [h]
  decide +kernel

/-- Non-vacuity: nine cancelled orders on one side are remembered by exactly seventeen nodes. -/
example : ∃ height ks, ValidOn (Demo.trace Demo.manyCancels).1.store.trees 0 .bid height (cancelledLeaves 0 ((Demo.trace Demo.manyCancels).2 0 .bid)) ks ∧
    ks.length = 17 := by
  obtain ⟨height, ks, h1, -, h3⟩ := C93_nodes (Demo.traced Demo.manyCancels) 0 .bid
  exact ⟨height, ks, h1, h3.trans (by decide +kernel)⟩

/-- Non-vacuity: the byte storage of the longer demo history. -/
example : ∃ r, Holds (some (.nat 7)) r (run Demo.ch Demo.w0 Demo.longer).store ∧ r.length ≤ 47 := by
  obtain ⟨r, hr, -⟩ := C70_storage Demo.initial Demo.opsOk (some (.nat 7))
  exact ⟨r, hr, (C93_bytes Demo.initial hr).trans (by decide +kernel)⟩

end OB
