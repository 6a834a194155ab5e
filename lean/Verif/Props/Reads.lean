import Verif.SpecReads
import Verif.Props.Cost
import Verif.Props.CostAdmin
/- C111: which storage cells a query depends on. -/
namespace OB
open Spec

theorem SMap.Sorted.filter_congr {K V : Type} [DecidableEq K] [Key K] {m m' : SMap K V} (h : SMap.Sorted m) (h' : SMap.Sorted m') (f : K × V → Bool)
    (he : ∀ k v, f (k, v) = true → (SMap.get? m k = some v ↔ SMap.get? m' k = some v)) : m.filter f = m'.filter f := by
  have hirr : ∀ a b : K × V, Key.lt a.1 b.1 = true → Key.lt b.1 a.1 = true → False := fun a b h1 h2 => by
    have := Key.trans _ _ _ h1 h2
    rw [Key.irrefl] at this
    simp at this
  have : Std.Irrefl (fun a b : K × V => Key.lt a.1 b.1 = true) := ⟨fun a h1 => hirr a a h1 h1⟩
  have : Std.Antisymm (fun a b : K × V => Key.lt a.1 b.1 = true) := ⟨fun a b h1 h2 => (hirr a b h1 h2).elim⟩
  refine List.Pairwise.eq_of_mem_iff (r := fun a b : K × V => Key.lt a.1 b.1 = true) (h.filter f) (h'.filter f) ?_
  rintro ⟨k, v⟩
  rw [List.mem_filter, List.mem_filter, h.mem_iff, h'.mem_iff]
  constructor
  · exact fun ⟨h1, h2⟩ => ⟨(he k v h2).1 h1, h2⟩
  · exact fun ⟨h1, h2⟩ => ⟨(he k v h2).2 h1, h2⟩

theorem inBounds_spec' {K : Type} [Key K] {lo hi : Option K} {k : K} (h : inBounds lo hi k = true) : Within lo hi k := by
  unfold inBounds at h
  refine ⟨fun l hl => ?_, fun u hu => ?_⟩
  · cases hl; simp at h; exact h.1
  · cases hu; simp at h; exact h.2

theorem inBoundsId_spec' {lo hi : Option Nat} {k : Nat} (h : inBoundsId lo hi k = true) : (∀ l ∈ lo, l ≤ k) ∧ ∀ u ∈ hi, k ≤ u := by
  unfold inBoundsId at h
  refine ⟨fun l hl => ?_, fun u hu => ?_⟩
  · cases hl; simp at h; exact h.1
  · cases hu; simp at h; exact h.2

theorem pkBytes_some (o : LimitOrder) (a : Addr) (k : Int × Nat) : (if o.owner = a then some (Val.pkLen (pkBytes k).length) else none) ≠ none ↔ o.owner = a := by
  split <;> simp_all

/-- The orders of an account, seen through its index. -/
theorem owned_iff {s : Store} {a : Addr} {k : Int × Nat} : s.cell none (.ownerIdx a k) ≠ none ↔ ∃ o, SMap.get? s.orders k = some o ∧ o.owner = a := by
  simp only [Store.cell]
  cases e : SMap.get? s.orders k with
  | none => simp
  | some o => simp only [pkBytes_some]; simp

theorem query_filter {s s2 : Store} (hp : Proper s) (hp2 : Proper s2) {a : Addr}
    (h : ∀ c, Subject s (.ordersByOwner a none none none) c → s2.cell none c = s.cell none c) :
    (s2.orders.filter fun p => decide (p.2.owner = a)) = s.orders.filter fun p => decide (p.2.owner = a) := by
  refine hp2.2.filter_congr hp.2 _ fun k o ho => ?_
  simp only [decide_eq_true_eq] at ho
  have h1 := h (.ownerIdx a k) ⟨k, .inl rfl⟩
  have hk : ∀ {o'}, SMap.get? s.orders k = some o' → o'.owner = a → SMap.get? s2.orders k = SMap.get? s.orders k := fun e e1 =>
    order_of_view (h (.order k) ⟨k, .inr ⟨rfl, owned_iff.2 ⟨_, e, e1⟩⟩⟩)
  constructor
  · intro e
    have h2 : s.cell none (.ownerIdx a k) ≠ none := by rw [← h1]; exact owned_iff.2 ⟨o, e, ho⟩
    obtain ⟨o', e', e1⟩ := owned_iff.1 h2
    rw [← hk e' e1]; exact e
  · intro e
    rw [hk e ho]; exact e

theorem ticksById_congr {s s2 : Store} {ids : List Int} (h : ∀ t ∈ ids, SMap.get? s2.ticks t = SMap.get? s.ticks t) : ticksById s2 ids = ticksById s ids := by
  induction ids with
  | nil => rfl
  | cons t ids ih =>
    unfold ticksById
    rw [h t (by simp), ih fun t' ht => h t' (by simp [ht])]

/-- C111 (every query but the unrealized cancels): a query looks only at the cells it is about; all the rest of the storage may be different. -/
theorem C111_subject {s : Store} (hp : Proper s) {q : QueryMsg} (hq : ∀ ids, q ≠ .getUnrealizedCancels ids) : LooksAt s q (Subject s q) := by
  intro s2 hp2 h
  cases q with
  | spotPrice quote base =>
    have e := book_of_view (h .orderbook rfl)
    have : OB.spotPrice s2 quote base = OB.spotPrice s quote base := by unfold OB.spotPrice; rw [e]
    unfold queryResult query
    simp only [EM.get_bind, this]
    cases OB.spotPrice s quote base <;> rfl
  | orderbookState =>
    have e := book_of_view (h .orderbook rfl)
    have : OB.orderbookState s2 = OB.orderbookState s := by unfold OB.orderbookState; rw [e]
    unfold queryResult query
    simp only [EM.get_bind, this]
    cases OB.orderbookState s <;> rfl
  | denoms =>
    have e := book_of_view (h .orderbook rfl)
    have : OB.denoms s2 = OB.denoms s := by unfold OB.denoms; rw [e]
    unfold queryResult query
    simp only [EM.get_bind, this]
    cases OB.denoms s <;> rfl
  | calcOutAmountGivenIn c out fee =>
    have e := book_of_view (h .orderbook (.inl rfl))
    have et : s2.ticks = s.ticks := hp2.1.ext hp.1 fun t => tick_of_view (h (.tick t) (.inr ⟨t, rfl⟩))
    have : OB.calcOutAmountGivenIn s2 c out fee = OB.calcOutAmountGivenIn s c out fee := by
      unfold OB.calcOutAmountGivenIn runMarketOrderInternal tickKeys
      rw [e, et]
      simp only [marketLoop_alike et]
    unfold queryResult query
    simp only [EM.get_bind, this]
    cases OB.calcOutAmountGivenIn s c out fee <;> rfl
  | calcOutAmtGivenIn c out fee =>
    have e := book_of_view (h .orderbook (.inl rfl))
    have et : s2.ticks = s.ticks := hp2.1.ext hp.1 fun t => tick_of_view (h (.tick t) (.inr ⟨t, rfl⟩))
    have : OB.calcOutAmountGivenIn s2 c out fee = OB.calcOutAmountGivenIn s c out fee := by
      unfold OB.calcOutAmountGivenIn runMarketOrderInternal tickKeys
      rw [e, et]
      simp only [marketLoop_alike et]
    unfold queryResult query
    simp only [EM.get_bind, this]
    cases OB.calcOutAmountGivenIn s c out fee <;> rfl
  | getTotalPoolLiquidity =>
    have e := book_of_view (h .orderbook (.inl rfl))
    have el : s2.dirLiq = s.dirLiq := funext fun d => liq_of_view (h (.dirLiq d) (.inr ⟨d, rfl⟩))
    have : totalPoolLiquidity s2 = totalPoolLiquidity s := by unfold totalPoolLiquidity getDirectionalLiquidity; rw [e, el]
    unfold queryResult query
    simp only [EM.get_bind, this]
    cases totalPoolLiquidity s <;> rfl
  | calcInAmtGivenOut => rfl
  | getSwapFee => rfl
  | allTicks lo hi l =>
    have : OB.allTicks s2 lo hi l = OB.allTicks s lo hi l := by
      unfold OB.allTicks
      rw [hp2.1.filter_congr hp.1 _ fun t ts ht => by rw [tick_of_view (h (.tick t) ⟨t, inBounds_spec' ht, rfl⟩)]]
    unfold queryResult query
    simp only [EM.get_bind, this]
    rfl
  | isActive =>
    have : OB.isActive s2 = OB.isActive s := by unfold OB.isActive; rw [active_of_view (h .isActive rfl)]
    unfold queryResult query
    simp only [EM.get_bind, this]
    rfl
  | ordersByOwner owner lo hi l =>
    have e := query_filter hp hp2 (a := owner) h
    have : OB.ordersByOwner s2 owner lo hi l = OB.ordersByOwner s owner lo hi l := by
      unfold OB.ordersByOwner getOrdersByOwner FilterOwnerOrders.selects
      rw [e]
    unfold queryResult query
    simp only [EM.get_bind, this]
    rfl
  | ticksById ids =>
    have : OB.ticksById s2 ids = OB.ticksById s ids := ticksById_congr fun t ht => tick_of_view (h (.tick t) ⟨t, ht, rfl⟩)
    unfold queryResult query
    simp only [EM.get_bind, this]
    cases OB.ticksById s ids <;> rfl
  | ordersByTick t lo hi l =>
    have : OB.ordersByTick s2 t lo hi l = OB.ordersByTick s t lo hi l := by
      unfold OB.ordersByTick
      rw [hp2.2.filter_congr hp.2 _ fun k o ho => ?_]
      simp only [Bool.and_eq_true, decide_eq_true_eq] at ho
      obtain ⟨h1, h2⟩ := inBoundsId_spec' ho.2
      rw [order_of_view (h (.order k) ⟨k.2, h1, h2, by rw [← ho.1]⟩)]
    unfold queryResult query
    simp only [EM.get_bind, this]
    rfl
  | getMakerFee =>
    have : OB.getMakerFee s2 = OB.getMakerFee s := by unfold OB.getMakerFee; rw [fee_of_view (h .makerFee rfl)]
    unfold queryResult query
    simp only [EM.get_bind, this]
    rfl
  | getUnrealizedCancels ids => exact absurd rfl (hq ids)
  | auth m =>
    have : authQuery s2 m = authQuery s m := by
      cases m
      · exact admin_of_view (h .admin rfl)
      · exact adminOffer_of_view (h .adminOffer rfl)
      · exact moderator_of_view (h .moderator rfl)
      · exact moderatorOffer_of_view (h .moderatorOffer rfl)
    unfold queryResult query
    simp only [EM.get_bind, this]
    rfl

/-- One side of a tick. -/
theorem side_looks {h : Int → Dir → Nat} {s : Store} (hl : Low h s.trees) (ts : TickState) (tick : Int) (dir : Dir) :
    ∃ S : List Cell, S.length ≤ 2 * h tick dir + 3 ∧ ∀ s2 : Store, (∀ c ∈ S, s2.cell none c = s.cell none c) →
      unrealizedCancels s2 ts tick dir = unrealizedCancels s ts tick dir := by
  have h2 := rootCells_length s.trees tick dir
  cases e : getRootNode s.trees tick dir with
  | error er =>
    refine ⟨rootCells s.trees tick dir, by omega, fun s2 ha => ?_⟩
    have e2 := rootCells_view (tick := tick) (dir := dir) fun c hc => tree_of_view (ha c hc)
    unfold unrealizedCancels
    rw [e2, e]
  | ok root =>
    obtain ⟨f, g1, g2, g3⟩ := (hl tick).2 dir _ e (ts.getValues dir).etas (ts.getValues dir).crc
    obtain ⟨S, g4, g5⟩ := prefix_uses g1 g2 g3
    refine ⟨rootCells s.trees tick dir ++ S, by simp only [List.length_append]; omega, fun s2 ha => ?_⟩
    have e2 := rootCells_view (tick := tick) (dir := dir) fun c hc => tree_of_view (ha c (by simp [hc]))
    have e3 := g5 s2.trees fun c hc => tree_of_view (ha c (by simp [hc]))
    unfold unrealizedCancels
    rw [e2, e]
    simp only
    rw [e3]

theorem ids_look {h : Int → Dir → Nat} {s : Store} (hl : Low h s.trees) (ids : List Int) :
    ∃ S : List Cell, S.length ≤ (ids.map fun t => 7 + 2 * (h t .bid + h t .ask)).sum ∧ ∀ s2 : Store, (∀ c ∈ S, s2.cell none c = s.cell none c) →
      ticksUnrealizedCancels s2 ids = ticksUnrealizedCancels s ids := by
  induction ids with
  | nil => exact ⟨[], by simp, fun _ _ => rfl⟩
  | cons t ids ih =>
    obtain ⟨S, h1, h2⟩ := ih
    cases e : SMap.get? s.ticks t with
    | none =>
      refine ⟨[.tick t], by simp; omega, fun s2 ha => ?_⟩
      unfold ticksUnrealizedCancels
      rw [tick_of_view (ha (.tick t) (by simp)), e]
    | some ts =>
      obtain ⟨Sa, a1, a2⟩ := side_looks hl ts t .ask
      obtain ⟨Sb, b1, b2⟩ := side_looks hl ts t .bid
      refine ⟨.tick t :: (Sa ++ Sb ++ S), by simp only [List.length_cons, List.length_append, List.map_cons, List.sum_cons]; omega, fun s2 ha => ?_⟩
      unfold ticksUnrealizedCancels
      rw [tick_of_view (ha (.tick t) (by simp)), e]
      simp only
      rw [a2 s2 fun c hc => ha c (by simp [hc]), b2 s2 fun c hc => ha c (by simp [hc]), h2 s2 fun c hc => ha c (by simp [hc])]

/-- The same tree in another store. -/
theorem RootRep.sameTick {st st' : TreeSt} {t : Int} {d : Dir} {rt : RT} (h : RootRep st t d rt) (hn : st'.nodes t = st.nodes t) (hr : st'.roots t d = st.roots t d)
    (hc : st'.counter t = st.counter t) : RootRep st' t d rt := by
  have hc' : st'.cnt t = st.cnt t := by simp [TreeSt.cnt, hc]
  cases rt <;> simp only [RootRep, hn, hc', hr] at * <;> exact h

/-- C111 (ticks): in every reachable state the unrealized cancels depend on the levels asked for and their trees only. -/
theorem C111_ticks {ch : Chain} {n : Nat} {w : World} {b : Book} (h : Traced ch n w b) (ids : List Int) :
    LooksAt w.store (.getUnrealizedCancels ids) (Subject w.store (.getUnrealizedCancels ids)) := by
  intro s2 _ ha
  have hk : ∀ t ∈ ids, SMap.get? s2.ticks t = SMap.get? w.store.ticks t ∧ s2.trees.nodes t = w.store.trees.nodes t ∧
      (∀ d, s2.trees.roots t d = w.store.trees.roots t d) ∧ s2.trees.counter t = w.store.trees.counter t := fun t ht =>
    ⟨tick_of_view (ha (.tick t) ⟨t, ht, .inl rfl⟩),
      funext fun id => node_of_view (tree_of_view (ha (.node t id) ⟨t, ht, .inr (.inr (.inr ⟨id, rfl⟩))⟩)),
      fun d => root_of_view (tree_of_view (ha (.root t d) ⟨t, ht, .inr (.inr (.inl ⟨d, rfl⟩))⟩)),
      counter_of_view (tree_of_view (ha (.counter t) ⟨t, ht, .inr (.inl rfl)⟩))⟩
  have e : ticksUnrealizedCancels s2 ids = ticksUnrealizedCancels w.store ids := by
    clear ha
    induction ids with
    | nil => rfl
    | cons t ids ih =>
      obtain ⟨h1, h2, h3, h4⟩ := hk t (by simp)
      unfold ticksUnrealizedCancels
      rw [h1]
      cases e : SMap.get? w.store.ticks t with
      | none => rfl
      | some ts =>
        have hs : ∀ d, unrealizedCancels s2 ts t d = unrealizedCancels w.store ts t d := fun d => by
          obtain ⟨r, rt, g1, g2, g3⟩ := h.rel.sides t d
          have hh : SideOk s2 t d (b t d) := ⟨r, rt, by rw [tv_congr h1]; exact g1, g2.sameTick h2 (h3 d) h4, g3⟩
          rw [hh.unrealized (h1.trans e), (h.rel.sides t d).unrealized e, tv_congr h1]
        simp only [hs]
        rw [ih fun t' ht => hk t' (by simp [ht])]
  unfold queryResult query
  simp only [EM.get_bind]
  rw [e]
  cases ticksUnrealizedCancels w.store ids <;> rfl

/-- C111 (trees): in every reachable state the unrealized cancels of a list of ticks are read from at most `15 + 8 log2 c` cells per tick, where `c` is
the number of orders ever cancelled on it. -/
theorem C111_unrealized {ch : Chain} {n : Nat} {w : World} {b : Book} (h : Traced ch n w b) (ids : List Int) :
    ∃ S : List Cell, S.length ≤ (ids.map fun t => 15 + 8 * Nat.log2 (cancelledOn b t)).sum ∧ LooksAt w.store (.getUnrealizedCancels ids) (· ∈ S) := by
  obtain ⟨S, h1, h2⟩ := ids_look (h := hgt b) h.rel.low ids
  refine ⟨S, h1.trans ?_, fun s2 _ ha => ?_⟩
  · clear h1 h2
    induction ids with
    | nil => simp
    | cons t ids ih =>
      have h3 := hgt_le b t .bid
      have h4 := hgt_le b t .ask
      simp only [List.map_cons, List.sum_cons] at ih ⊢
      omega
  · have := h2 s2 ha
    unfold queryResult query
    simp only [EM.get_bind, this]
    cases ticksUnrealizedCancels w.store ids <;> rfl

/-- C111: in every reachable state every query looks only at the cells it is about. -/
theorem C111_reachable {ch : Chain} {n : Nat} {w : World} {b : Book} (h : Traced ch n w b) (q : QueryMsg) :
    LooksAt w.store q (Subject w.store q) := by
  by_cases hq : ∃ ids, q = .getUnrealizedCancels ids
  · obtain ⟨ids, rfl⟩ := hq
    exact C111_ticks h ids
  · exact C111_subject ⟨h.rel.ticksSorted, h.rel.ordersSorted⟩ fun ids e => hq ⟨ids, e⟩

/-! ### Examples -/

/-- After the demo history dave's orders are read from the entries of his own orders only, whatever other orders, levels and trees there are. -/
example : LooksAt (Demo.trace Demo.history).1.store (.ordersByOwner "dave" none none none)
    (Subject (Demo.trace Demo.history).1.store (.ordersByOwner "dave" none none none)) := C111_reachable (Demo.traced Demo.history) _

/-- The notion is not empty: a book with a pair cannot report it without looking. -/
example : ¬ LooksAt (Demo.trace Demo.history).1.store .denoms (fun _ => False) := by
  intro h
  have h1 := h Store.empty ⟨by simp [Store.empty, SMap.Sorted], by simp [Store.empty, SMap.Sorted]⟩ (fun _ h => h.elim)
  revert h1
  decide +kernel

/-- The unrealized cancels of tick 0, where two orders were cancelled, are read from at most 23 cells. -/
example : ∃ S : List Cell, S.length ≤ 23 ∧ LooksAt (Demo.trace Demo.history).1.store (.getUnrealizedCancels [0]) (· ∈ S) := by
  have e : cancelledOn (Demo.trace Demo.history).2 0 = 2 := by decide +kernel
  have h := C111_unrealized (Demo.traced Demo.history) [0]
  simp only [List.map_cons, List.map_nil, List.sum_cons, List.sum_nil, e] at h
  exact h

end OB
