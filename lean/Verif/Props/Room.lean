import Verif.SpecRoom
import Verif.Proofs.AuthObs
import Verif.Proofs.Demo
/- C72: the 64-bit counters last. -/
namespace OB
open Spec

theorem Synced.cnt_at {s s' : Store} {b : Book} {tick : Int} (h : Synced s s' b tick) (t : Int) :
    s'.trees.cnt t ≤ s.trees.cnt t + 2 * (if tick = t then 1 else 0) := by
  split
  · exact h.cnt_le t
  · have : t ≠ tick := fun e => by subst e; contradiction
    unfold TreeSt.cnt; rw [h.frame.counter t this]; omega

theorem ClaimStep.cnt_at {sender : Addr} {tick : Int} {id : Nat} {s s' : Store} {b b' : Book} {r : Nat × List SendMsg × LimitOrder}
    (h : ClaimStep sender tick id s b r s' b') (t : Int) : s'.trees.cnt t ≤ s.trees.cnt t + 2 * (if tick = t then 1 else 0) := by
  obtain ⟨h1, h2, h3, h4, h5, h6, h7⟩ := h
  rename_i s1 dir p q x ob rc
  obtain ⟨-, -, g3, -, -⟩ := claimedStore_same s1 tick (orderOf tick dir (sumBy Entry.placed p) { x with claimed := x.filled })
  rw [g3]
  exact h6.cnt_at t

theorem ClaimRun.cnt_at {sender : Addr} {ob : Orderbook} {l : List (Int × Nat)} {s s' : Store} {b b' : Book} {ms : List SendMsg}
    {es : List Event} (h : ClaimRun sender ob l s b ms es s' b') (t : Int) :
    s'.trees.cnt t ≤ s.trees.cnt t + 2 * (l.filter fun k => k.1 = t).length := by
  have key : ∀ (tick : Int) (id : Nat) (rest : List (Int × Nat)), (((tick, id) :: rest).filter fun k => k.1 = t).length =
      (if tick = t then 1 else 0) + (rest.filter fun k => k.1 = t).length := by
    intro tick id rest
    rw [List.filter_cons]
    by_cases h : tick = t <;> simp [h]; omega
  induction h with
  | nil => simp
  | ok _ h _ ih =>
    have := h.cnt_at t
    rw [key]; omega
  | skip _ h _ ih =>
    rw [key]
    rcases h.store with rfl | h
    · omega
    · have := h.cnt_at t
      omega

/-- What one accepted operation does to the counters. -/
theorem StoreStep.counters {ch : Chain} {op : Op} {s s' : Store} {b b' : Book} {resp : Response} (h : StoreStep ch op s b resp s' b') :
    s'.orderId.getD 0 = s.orderId.getD 0 + places op ∧
    ∀ t, s'.trees.cnt t ≤ s.trees.cnt t + 4 * names t op := by
  cases h with
  | place => exact ⟨rfl, fun t => Nat.le_add_right _ _⟩
  | @cancel time tick dir s s1 b ob p q x tr ts1 h1 h2 h3 h4 h5 h6 h7 h8 h9 =>
    refine ⟨h6.same.id ▸ rfl, fun t => ?_⟩
    have a1 := h6.cnt_at t
    show tr.cnt t ≤ _ + 4 * (if tick = t then 1 else 0)
    by_cases ht : tick = t
    · subst ht
      have := h8.2.1
      rw [if_pos rfl] at *
      omega
    · have : tr.cnt t = s1.trees.cnt t := by unfold TreeSt.cnt; rw [h8.1.counter t (fun e => ht e.symm)]
      rw [if_neg ht] at *
      omega
  | @claim sender time tick id _ _ ob r _ _ h1 h2 h3 h4 =>
    refine ⟨by rw [h4.same.id]; rfl, fun t => ?_⟩
    have := h4.cnt_at t
    show _ ≤ _ + 4 * (if tick = t then 1 else 0)
    omega
  | @batch sender time l _ _ ob ms es _ _ h1 h2 h3 h4 =>
    refine ⟨by rw [h4.same.id]; rfl, fun t => ?_⟩
    have := h4.cnt_at t
    show _ ≤ _ + 4 * (l.filter fun k => k.1 = t).length
    omega
  | swap => exact ⟨rfl, fun t => Nat.le_add_right _ _⟩
  | config h1 h2 =>
    refine ⟨?_, fun t => by rw [h2.trees]; omega⟩
    rw [h2.orderId]
    unfold places
    split
    · simp [Op.isConfig] at h1
    · rfl

/-- C72 (counters): whatever the history, the order-id counter is moved by accepted placements only, by one each; the node counter of a
tick never decreases and is moved only by accepted claims and cancels that name this tick, by at most four per order named. Swaps,
rejected messages, administration and traffic on other ticks use nothing up. -/
theorem C72_counters {ch : Chain} {w : World} (hw : Reachable ch w) (ops : List Op) :
    (run ch w ops).store.orderId.getD 0 = w.store.orderId.getD 0 + placements ch w ops ∧
    ∀ t, (w.store.trees.counter t).getD 0 ≤ ((run ch w ops).store.trees.counter t).getD 0 ∧
      ((run ch w ops).store.trees.counter t).getD 0 ≤ (w.store.trees.counter t).getD 0 + 4 * mentions ch t w ops := by
  induction ops generalizing w with
  | nil => exact ⟨rfl, fun t => ⟨le_refl _, Nat.le_add_right _ _⟩⟩
  | cons op ops ih =>
    have hr : run ch w (op :: ops) = run ch (apply ch w op) ops := rfl
    rw [hr]
    unfold placements mentions
    cases hs : step ch w op with
    | error e =>
      have ha : apply ch w op = w := by unfold apply; rw [hs]
      rw [ha]
      obtain ⟨i1, i2⟩ := ih hw
      refine ⟨by rw [i1]; simp only; omega, fun t => ⟨(i2 t).1, le_trans (i2 t).2 (by simp only; omega)⟩⟩
    | ok x =>
      obtain ⟨w', resp⟩ := x
      have ha : apply ch w op = w' := by unfold apply; rw [hs]
      rw [ha]
      obtain ⟨i1, i2⟩ := ih (hw.step hs)
      obtain ⟨n, hn⟩ := hw
      obtain ⟨b, h⟩ := hn.traced
      have hst := h.step hs
      obtain ⟨g1, g2⟩ := hst.counters
      have g3 := hst.counts.cnt
      refine ⟨?_, fun t => ?_⟩
      · rw [i1, g1]
        simp only; omega
      · have h1 := g2 t
        have h2 := g3 t
        have h3 := i2 t
        unfold TreeSt.cnt at h1 h2
        simp only
        omega

/-- C72 (room): a history has room for more as long as it has placed fewer than 10^17 orders and named each tick fewer than 2.5 * 10^18
times in claims and cancels - in particular every history of fewer than 10^16 operations - and if it has room at its end it had room all along. -/
theorem C72_room {ch : Chain} {w0 : World} (hi : Initial ch w0) (ops : List Op) :
    (placements ch w0 ops < 10 ^ 17 → (∀ t, 4 * mentions ch t w0 ops < 10 ^ 19) → (run ch w0 ops).HasRoom) ∧
    (ops.length < 10 ^ 16 → (run ch w0 ops).HasRoom) ∧
    (∀ ops', (run ch w0 (ops ++ ops')).HasRoom → (run ch w0 ops).HasRoom) := by
  obtain ⟨e1, e2, -⟩ := initial_fresh hi
  have hr : Reachable ch w0 := ⟨0, (Traced.init hi).reachable⟩
  obtain ⟨h1, h2⟩ := C72_counters hr ops
  refine ⟨fun k1 k2 => ⟨?_, fun t => ?_⟩, fun hl => ?_, fun ops' hh => ?_⟩
  · rw [h1, e1]; simpa using k1
  · have a1 := (h2 t).2
    have a2 := e2 t
    unfold TreeSt.cnt at a2
    have := k2 t
    omega
  · have : ∀ {n : Nat} {w : World} {b : Book}, Traced ch n w b → ∃ b', Traced ch (n + ops.length) (run ch w ops) b' := by
      clear h1 h2 hl
      induction ops with
      | nil => intro n w b h; exact ⟨b, h⟩
      | cons op ops ih =>
        intro n w b h
        have hr : run ch w (op :: ops) = run ch (apply ch w op) ops := rfl
        rw [hr, List.length_cons, show n + (ops.length + 1) = n + 1 + ops.length by omega]
        cases hs : step ch w op with
        | error e =>
          have ha : apply ch w op = w := by unfold apply; rw [hs]
          rw [ha]; exact ih (Traced.failed h hs)
        | ok x =>
          have ha : apply ch w op = x.1 := by unfold apply; rw [hs]
          rw [ha]; exact ih (Traced.ok h (resp := x.2) hs)
    obtain ⟨b', h⟩ := this (Traced.init hi)
    exact h.short (by omega)
  · rw [run_append] at hh
    obtain ⟨g1, g2⟩ := C72_counters (hr.run ops) ops'
    exact ⟨by have := hh.1; omega, fun t => by have := hh.2 t; have := (g2 t).1; omega⟩

/-- C72 on the demo history and ten swaps more: five orders placed, tick 0 named by three claims and cancels; the swaps use nothing. -/
example : Initial Demo.ch Demo.w0 ∧ placements Demo.ch Demo.w0 (Demo.history ++ List.replicate 10 (Demo.sell "zed" 10 1)) = 5 ∧
    mentions Demo.ch 0 Demo.w0 (Demo.history ++ List.replicate 10 (Demo.sell "zed" 10 1)) = 2 ∧
    (run Demo.ch Demo.w0 (Demo.history ++ List.replicate 10 (Demo.sell "zed" 10 1))).store.orderId = some 5 ∧
    (run Demo.ch Demo.w0 (Demo.history ++ List.replicate 10 (Demo.sell "zed" 10 1))).HasRoom := by
  refine ⟨Demo.initial, ?_, ?_, ?_, (C72_room Demo.initial _).2.1 (by decide +kernel)⟩ <;> decide +kernel

end OB
