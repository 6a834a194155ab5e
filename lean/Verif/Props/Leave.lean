import Verif.Props.Harm
import Verif.Props.Exit
/- C98: everyone can leave alone. -/
namespace OB
open Spec

theorem exits_others {ch : Chain} {n : Nat} {w : World} {b : Book} (h : Traced ch n w b) {quote base : Denom}
    (hd : denoms w.store = .ok (quote, base)) (time : Nat) (l : List (Int × Dir × Entry)) :
    ∀ k, (∀ t d x, (t, d, x) ∈ l → k ≠ (t, x.id)) → (run ch w (Spec.exits time l)).store.orders.get? k = w.store.orders.get? k := by
  induction l generalizing n w b with
  | nil => exact fun _ _ => rfl
  | cons e l ih =>
    obtain ⟨t, d, x⟩ := e
    intro k hk
    obtain ⟨b1, ht1, hc1, -, ho1, -⟩ := own_step h hd (a := x.owner) (time := time) (tick := t) (id := x.id) (Or.inl rfl)
    have hd1 : denoms (apply ch w (.execute x.owner [] time (.claimLimit t x.id))).store = .ok (quote, base) := hc1.denoms hd
    obtain ⟨b2, ht2, hc2, -, ho2, -⟩ := own_step ht1 hd1 (a := x.owner) (time := time) (tick := t) (id := x.id) (Or.inr rfl)
    have hrun : run ch w (Spec.exits time ((t, d, x) :: l)) =
        run ch (apply ch (apply ch w (.execute x.owner [] time (.claimLimit t x.id))) (.execute x.owner [] time (.cancelLimit t x.id)))
          (Spec.exits time l) := rfl
    have hne := hk t d x (by simp)
    rw [hrun, ih ht2 (hc2.denoms hd1) k (fun t' d' x' hm => hk t' d' x' (by simp [hm])), ho2 k hne, ho1 k hne]

/-- Exits are claims and cancels by owners. -/
theorem exits_op {time : Nat} {l : List (Int × Dir × Entry)} {op : Op} (h : op ∈ Spec.exits time l) :
    ∃ t d x, (t, d, x) ∈ l ∧ (op = .execute x.owner [] time (.claimLimit t x.id) ∨ op = .execute x.owner [] time (.cancelLimit t x.id)) := by
  unfold Spec.exits at h
  obtain ⟨⟨t, d, x⟩, h1, h2⟩ := List.mem_flatMap.1 h
  refine ⟨t, d, x, h1, ?_⟩
  simpa using h2

theorem owned_length {s : Store} {b : Book} (h : Rel s b) {S : Finset Addr} {l : List (Int × Dir × Entry)} (hl : OwnedOrders b S l) :
    l.length ≤ s.orderId.getD 0 := by
  have h1 : ∀ e ∈ l, e.2.2 ∈ b e.1 e.2.1 := fun e he => ((hl.all e.1 e.2.1 e.2.2).1 he).1
  have h2 : ∀ e ∈ l, e.2.2.id < s.orderId.getD 0 := fun e he => h.ids.lt _ _ _ (h1 e he)
  have h3 : (l.map fun e => e.2.2.id).Nodup := by
    refine List.Nodup.map_on ?_ hl.once
    rintro ⟨t, d, x⟩ hx ⟨t', d', y⟩ hy he
    obtain ⟨p, q, hsp⟩ := List.append_of_mem (h1 _ hy)
    obtain ⟨rfl, rfl, rfl⟩ := h.same_entry hsp (h1 _ hx) he
    rfl
  have h4 : (l.map fun e => e.2.2.id) ⊆ List.range (s.orderId.getD 0) := by
    intro i hi
    obtain ⟨e, he, rfl⟩ := List.mem_map.1 hi
    exact List.mem_range.2 (h2 e he)
  have h5 := (List.subperm_of_subset h3 h4).length_le
  rwa [List.length_map, List.length_range] at h5

/-- C98: everyone can leave alone. Whatever the history, on an active book any accounts can take out all their orders without anybody's help:
if they claim and then cancel each of their live orders, in any order, then none of their orders is left, each of them has been paid at least
what the orders were worth, and the orders of all others are exactly as they were. -/
theorem C98_leave_alone {ch : Chain} {n : Nat} {w : World} {b : Book} (h : Traced ch n w b) (ha : isActive w.store = true)
    {quote base : Denom} (hd : denoms w.store = .ok (quote, base)) {S : Finset Addr} {l : List (Int × Dir × Entry)} (hl : OwnedOrders b S l)
    (hn : w.HasRoom) (time : Nat) :
    let w' := run ch w (exits time l)
    (∀ op ∈ exits time l, ∃ a ∈ S, signer op = some a) ∧
    (∀ k, w'.store.orders.get? k = (w.store.orders.get? k).filter fun o => o.owner ∉ S) ∧
    (∀ a d, a ≠ ch.contract → w.bank a d + worthTo quote base (getMakerFee w.store) a d l ≤ w'.bank a d) := by
  intro w'
  obtain ⟨-, h2, h3, h4⟩ := exits_run h ha hd time l
    (hn.big.mono (by have := owned_length h.rel hl; have := hn.1; omega)) hl.once fun t d x hm => ⟨((hl.all t d x).1 hm).1, ((hl.all t d x).1 hm).2.1⟩
  refine ⟨?_, ?_, h4⟩
  · intro op hop
    obtain ⟨t, d, x, hm, hc⟩ := exits_op hop
    exact ⟨x.owner, ((hl.all t d x).1 hm).2.2, by rcases hc with rfl | rfl <;> rfl⟩
  · rintro ⟨t, id⟩
    rcases h.rel.lookup t id with hk | ⟨d, p, x, q, hsp, hlive, rfl, hg⟩
    · rw [hk.1]; exact h3 _ hk.1
    · have hx : x ∈ b t d := by rw [hsp]; simp
      rw [hg]
      by_cases ho : x.owner ∈ S
      · have e : ((some (orderOf t d (sumBy Entry.placed p) x)).filter fun o => o.owner ∉ S) = none := by
          simp [Option.filter, orderOf, ho]
        rw [e]
        exact h2 t d x ((hl.all t d x).2 ⟨hx, hlive, ho⟩)
      · have e : ((some (orderOf t d (sumBy Entry.placed p) x)).filter fun o => o.owner ∉ S) = some (orderOf t d (sumBy Entry.placed p) x) := by
          simp [Option.filter, orderOf, ho]
        rw [e, ← hg]
        refine exits_others h hd time l _ ?_
        intro t' d' y hy hkk
        simp only [Prod.mk.injEq] at hkk
        obtain ⟨hy1, -, hy3⟩ := (hl.all t' d' y).1 hy
        obtain ⟨rfl, rfl, rfl⟩ := h.rel.same_entry hsp hy1 hkk.2.symm
        exact ho hy3

/-- Every reachable book has such a list. -/
theorem C98_owned_exist {ch : Chain} {n : Nat} {w : World} {b : Book} (h : Traced ch n w b) (S : Finset Addr) : ∃ l, OwnedOrders b S l := by
  obtain ⟨l, hl⟩ := C64_live_orders_exist h
  refine ⟨l.filter fun e => e.2.2.owner ∈ S, hl.once.filter _, ?_⟩
  intro t d x
  rw [List.mem_filter, hl.all]
  simp [and_assoc]

/-- C98 for makers: accounts that only place orders around some price, cancel and claim can, after any history of the others' making, take out their
orders and then hold in coins as much as they owned at first, apart from what the claims cost (C97). -/
theorem C98_money_back {ch : Chain} {n : Nat} {w : World} {b : Book} (h : Traced ch n w b) {quote base : Denom}
    (hd : denoms w.store = .ok (quote, base)) {t0 : Int} (h0 : ValidTick t0) {S : Finset Addr} (hS : ch.contract ∉ S)
    (ho : OrdersAround b S t0) {ops : List Op} (hf : ∀ op ∈ ops, ∀ a ∈ S, signer op = some a → MakerOp t0 op)
    (ha : isActive (run ch w ops).store = true) (hn : (run ch w ops).HasRoom) (time : Nat) :
    ∃ out : List Op, (∀ op ∈ out, ∃ a ∈ S, signer op = some a ∧ MakerOp t0 op) ∧
      wealth quote base t0 S w.bank b ≤ holdings quote base t0 S (run ch w (ops ++ out)).bank + claimCosts t0 S (log ch w (ops ++ out)) := by
  have ht := (C97_makers_keep h hd h0 hS ho hf).2
  obtain ⟨l, hl⟩ := C98_owned_exist ht S
  have hd1 : denoms (run ch w ops).store = .ok (quote, base) := by rw [C39_denoms_fixed ⟨_, h.reachable⟩]; exact hd
  obtain ⟨k1, k2, -⟩ := C98_leave_alone ht ha hd1 hl hn time
  have hm : ∀ op ∈ exits time l, MakerOp t0 op := by
    intro op hop
    obtain ⟨t, d, x, -, hc⟩ := exits_op hop
    rcases hc with rfl | rfl <;> trivial
  refine ⟨exits time l, fun op hop => ?_, C97_cash h hd h0 hS ho ?_ ?_⟩
  · obtain ⟨a, a1, a2⟩ := k1 op hop
    exact ⟨a, a1, a2, hm op hop⟩
  · intro op hop a ha' he
    rcases List.mem_append.1 hop with hop | hop
    · exact hf op hop a ha' he
    · exact hm op hop
  · intro k o hg
    rw [run_append, k2 k] at hg
    obtain ⟨-, hg2⟩ := Option.filter_eq_some_iff.1 hg
    simpa using hg2

/-- C98 on the demo book: dave, whose bid is partly filled, leaves; bob's and erin's orders stay. -/
example : Traced Demo.ch 10 Demo.after (Demo.trace Demo.history).2 ∧ isActive Demo.after.store = true ∧ Demo.after.HasRoom ∧
    (let w' := run Demo.ch Demo.after (exits 9 [(0, .bid, ⟨3, "dave", some (10 ^ 16), 7, 100000, 60000, 0, false⟩)])
     Demo.after.store.orders.map (fun kv => (kv.1, kv.2.owner)) = [((-5000000, 4), "erin"), ((0, 3), "dave"), ((10, 1), "bob")] ∧
     w'.store.orders.map (fun kv => (kv.1, kv.2.owner)) = [((-5000000, 4), "erin"), ((10, 1), "bob")] ∧
     w'.bank "dave" "q" - Demo.after.bank "dave" "q" = 40000 ∧ w'.bank "dave" "b" - Demo.after.bank "dave" "b" = 58800) := by
  refine ⟨Demo.traced Demo.history, ?_, Demo.room _ ?_, ?_, ?_, ?_, ?_⟩ <;> decide +kernel

-- After the first six operations of the example of C97 the two makers can leave with their money.
example : ∃ out : List Op, (∀ op ∈ out, ∃ a ∈ ({"bob", "dave"} : Finset Addr), signer op = some a ∧ MakerOp 5 op) ∧
    wealth "q" "b" 5 {"bob", "dave"} Demo.w0.bank Book.empty ≤ holdings "q" "b" 5 {"bob", "dave"} (run Demo.ch Demo.w0 (Demo.makers.take 6 ++ out)).bank +
      claimCosts 5 {"bob", "dave"} (log Demo.ch Demo.w0 (Demo.makers.take 6 ++ out)) := by
  have ha : isActive (run Demo.ch Demo.w0 (Demo.makers.take 6)).store = true := by decide +kernel
  have hd : denoms Demo.w0.store = .ok ("q", "b") := by decide +kernel
  have hlen : 0 + (Demo.makers.take 6).length < 10 ^ 16 := by decide +kernel
  have hf : ∀ op ∈ Demo.makers.take 6, ∀ a ∈ ({"bob", "dave"} : Finset Addr), signer op = some a → MakerOp 5 op := by
    intro op hop a ha he
    simp only [Finset.mem_insert, Finset.mem_singleton] at ha
    simp only [Demo.makers, Demo.place, Demo.sell, Demo.buy, Demo.claim, Demo.cancel, List.take_succ_cons, List.take_zero, List.mem_cons, List.not_mem_nil,
      or_false] at hop
    rcases hop with rfl | rfl | rfl | rfl | rfl | rfl <;> simp [MakerOp, Better] <;> (rcases ha with rfl | rfl <;> simp [signer] at he)
  have hS : Demo.ch.contract ∉ ({"bob", "dave"} : Finset Addr) := by decide
  have h0 : ValidTick 5 := ⟨by norm_num, by norm_num⟩
  have hb : OrdersAround Book.empty ({"bob", "dave"} : Finset Addr) 5 := fun _ _ x hx => by simp [Book.empty] at hx
  have hn := (C97_makers_keep (.init Demo.initial) hd h0 hS hb hf).2.short hlen
  exact C98_money_back (.init Demo.initial) hd h0 hS hb hf ha hn 9

end OB
