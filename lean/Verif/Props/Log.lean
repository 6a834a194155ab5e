import Verif.SpecLog
import Verif.Props.Query
/- C51: the events are a complete record of the live orders. -/
namespace OB
open Spec

/-- The ledger agrees with the stored orders. -/
def Agrees (l : Ledger) (s : Store) : Prop := ∀ k, l k = (s.orders.get? k).map lineOf

theorem Synced.orders {s s' : Store} {b : Book} {tick : Int} (h : Synced s s' b tick) : s'.orders = s.orders := by
  rw [h.store]

theorem claimedStore_zero {s : Store} {tick : Int} {o : LimitOrder} (h : o.quantity = 0) :
    (claimedStore s tick o).orders = s.orders.erase (tick, o.orderId) := by
  unfold claimedStore; rw [if_pos h]

theorem claimedStore_pos {s : Store} {tick : Int} {o : LimitOrder} (h : ¬ o.quantity = 0) :
    (claimedStore s tick o).orders = s.orders.insert (tick, o.orderId) o := by
  unfold claimedStore; rw [if_neg h]

theorem ClaimStep.agrees {sender : Addr} {tick : Int} {id : Nat} {s s' : Store} {b b' : Book} {r : Nat × List SendMsg × LimitOrder}
    (h : ClaimStep sender tick id s b r s' b') {l : Ledger} (hl : Agrees l s) (d1 d2 : Denom) :
    Agrees (l.note (claimedEvent sender r.2.2 r.1 d1 d2)) s' := by
  obtain ⟨h1, h2, h3, h4, h5, h6, h7⟩ := h
  rename_i s1 dir p q x ob rc
  intro k
  unfold claimedEvent
  by_cases hq : x.placed - x.filled = 0
  · have e := claimedStore_zero (s := s1) (tick := tick) (o := orderOf tick dir (sumBy Entry.placed p) { x with claimed := x.filled }) hq
    rw [e, h6.orders]
    simp only [Ledger.note, orderOf]
    simp only [hq, decide_true, if_true]
    by_cases hk : k = (tick, x.id)
    · subst hk; rw [if_pos rfl, SMap.get?_erase_self]; rfl
    · rw [if_neg hk, SMap.get?_erase_ne _ hk]; exact hl k
  · have e := claimedStore_pos (s := s1) (tick := tick) (o := orderOf tick dir (sumBy Entry.placed p) { x with claimed := x.filled }) hq
    rw [e, h6.orders]
    simp only [Ledger.note, orderOf]
    simp only [hq, decide_false, Bool.false_eq_true, if_false]
    by_cases hk : k = (tick, x.id)
    · subst hk; rw [if_pos rfl, SMap.get?_insert_self]; rfl
    · rw [if_neg hk, SMap.get?_insert_ne _ _ hk]; exact hl k

theorem ClaimFail.agrees {s s' : Store} {b : Book} {tick : Int} {id : Nat} (h : ClaimFail s s' b tick id) {l : Ledger} (hl : Agrees l s) :
    Agrees l s' := by
  rcases h.store with rfl | h
  · exact hl
  · intro k; rw [h.orders]; exact hl k

theorem ClaimRun.agrees {sender : Addr} {ob : Orderbook} {c : List (Int × Nat)} {s s' : Store} {b b' : Book} {ms : List SendMsg}
    {es : List Event} (h : ClaimRun sender ob c s b ms es s' b') {l : Ledger} (hl : Agrees l s) : Agrees (es.foldl Ledger.note l) s' := by
  induction h generalizing l with
  | nil => exact hl
  | ok _ h _ ih => exact ih (h.agrees hl _ _)
  | skip _ h _ ih => exact ih (h.agrees hl)

theorem StoreStep.agrees {ch : Chain} {op : Op} {s s' : Store} {b b' : Book} {resp : Response} (h : StoreStep ch op s b resp s' b')
    {l : Ledger} (hl : Agrees l s) : Agrees (resp.events.foldl Ledger.note l) s' := by
  cases h with
  | @place sender funds time tick dir q cb s b ob h1 h2 h3 h4 =>
    intro k
    simp only [List.foldl_cons, List.foldl_nil, Ledger.note, placedStore]
    by_cases hk : k = (tick, s.orderId.getD 0)
    · subst hk; rw [if_pos rfl, SMap.get?_insert_self]; rfl
    · rw [if_neg hk, SMap.get?_insert_ne _ _ hk]; exact hl k
  | @cancel time tick dir s s1 b ob p q x tr ts1 h1 h2 h3 h4 h5 h6 h7 h8 h9 =>
    intro k
    simp only [List.foldl_cons, List.foldl_nil, Ledger.note, cancelledStore]
    rw [h6.orders]
    by_cases hk : k = (tick, x.id)
    · subst hk; rw [if_pos rfl, SMap.get?_erase_self]; rfl
    · rw [if_neg hk, SMap.get?_erase_ne _ hk]; exact hl k
  | @claim sender time tick id s b ob r s' b' _ _ _ h =>
    exact h.agrees hl (ob.expectedDenom r.2.2.dir) (ob.oppositeDenom r.2.2.dir)
  | batch _ _ _ h => exact h.agrees hl
  | swap _ h2 _ _ h => exact hl
  | config _ h1 h2 h3 h4 =>
    have : ∀ es : List Event, (∀ e ∈ es, ∃ m a, e = .method m a) → es.foldl Ledger.note l = l := by
      intro es
      induction es with
      | nil => intro _; rfl
      | cons e es ih =>
        intro he
        obtain ⟨m, a, rfl⟩ := he e (by simp)
        exact ih fun e' h' => he e' (by simp [h'])
    rw [this _ h4]
    intro k; rw [h1.orders]; exact hl k

theorem Traced.agrees {ch : Chain} {n : Nat} {w : World} {b : Book} (h : Traced ch n w b) {l : Ledger} (hl : Agrees l w.store)
    (ops : List Op) : Agrees ((log ch w ops).foldl Ledger.note l) (OB.run ch w ops).store := by
  induction ops generalizing n w b l with
  | nil => exact hl
  | cons op ops ih =>
    have hrun : OB.run ch w (op :: ops) = OB.run ch (OB.apply ch w op) ops := rfl
    rw [hrun]
    unfold log
    cases hs : OB.step ch w op with
    | error e =>
      have : OB.apply ch w op = w := by unfold OB.apply; rw [hs]
      rw [this]
      exact ih (Traced.failed h hs) hl
    | ok r =>
      obtain ⟨w', resp⟩ := r
      have : OB.apply ch w op = w' := by unfold OB.apply; rw [hs]
      rw [this]
      simp only [List.foldl_append]
      exact ih (Traced.ok h hs) ((h.step hs).agrees hl)

/-- C51: a client that only reads the events of accepted transactions, from instantiation on, knows at every moment exactly the live
orders: its table lists under (tick, id) the owner, direction, placed and unclaimed quantity that the orders-by-tick query answers. -/
theorem C51_replay {ch : Chain} {w0 : World} (hi : Initial ch w0) (ops : List Op) (tick : Int) (id : Nat) (x : Line) :
    replay (log ch w0 ops) (tick, id) = some x ↔
      ∃ o ∈ ordersIn (answer (run ch w0 ops).store (.ordersByTick tick none none none)), o.orderId = id ∧ o.tickId = tick ∧ lineOf o = x := by
  have h0 : Traced ch 0 w0 Book.empty := .init hi
  have he : Agrees (fun _ => none) w0.store := by
    intro k
    have := h0.rel.lookup k.1 k.2
    rcases this with ⟨h1, -⟩ | ⟨dir, p, x, q, h1, -⟩
    · have e : w0.store.orders.get? k = none := h1
      rw [e]; rfl
    · simp [Book.empty] at h1
  have hag := h0.agrees he ops (tick, id)
  obtain ⟨b, hb⟩ := h0.run ops
  have hr := hb.rel
  show (log ch w0 ops).foldl Ledger.note (fun _ => none) (tick, id) = some x ↔ _
  rw [hag]
  obtain ⟨all, h1, h2⟩ := C40_orders_by_tick hb tick
  rw [h2 none none none]
  have e : (all.filter (withinIds none none)) = all := by
    rw [List.filter_eq_self]; intro o _; rfl
  simp only [ordersIn, e, Option.map_none, Option.getD_none, List.take_length]
  constructor
  · intro hx
    rw [Option.map_eq_some_iff] at hx
    obtain ⟨o, ho, rfl⟩ := hx
    obtain ⟨dir, p, y, q, h3, h4, rfl, rfl⟩ := (hr.orders _ _ _).1 ho
    exact ⟨_, (h1.2 _).2 ⟨⟨tick, dir, p, y, q, h3, h4, rfl⟩, rfl⟩, rfl, rfl, rfl⟩
  · rintro ⟨o, ho, rfl, -, rfl⟩
    obtain ⟨⟨t, dir, p, y, q, h3, h4, rfl⟩, rfl⟩ := (h1.2 _).1 ho
    rw [Option.map_eq_some_iff]
    exact ⟨_, (hr.orders _ _ _).2 ⟨dir, p, y, q, h3, h4, rfl, rfl⟩, rfl⟩

/-- C51 on the demo history followed by a claim: the table of an event reader. -/
example : replay (log Demo.ch Demo.w0 (Demo.history ++ [Demo.claim "zed" 0 3])) (0, 3) = some ⟨"dave", .bid, 100000, 40000⟩ ∧
    replay (log Demo.ch Demo.w0 (Demo.history ++ [Demo.claim "zed" 0 3])) (0, 2) = none ∧
    replay (log Demo.ch Demo.w0 (Demo.history ++ [Demo.claim "zed" 0 3])) (10, 1) = some ⟨"bob", .ask, 50000, 50000⟩ := by
  decide +kernel

end OB
