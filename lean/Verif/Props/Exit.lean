import Verif.SpecExit
import Verif.Props.Flow
import Verif.Props.Book
import Verif.Props.Auth
/- C64: an active book can be wound down completely. -/
namespace OB
open Spec

/-- The parts of the configuration that matter for claims and cancels are kept. -/
def KeepConf (s s' : Store) : Prop :=
  isActive s' = isActive s ∧ s'.orderbook = s.orderbook ∧ getMakerFee s' = getMakerFee s

theorem SameConf.keep {s s' : Store} (h : SameConf s s') : KeepConf s s' :=
  ⟨by unfold isActive; rw [h.active], h.orderbook, by unfold getMakerFee; rw [h.fee]⟩

theorem KeepConf.denoms {s s' : Store} (h : KeepConf s s') {quote base : Denom} (hd : denoms s = .ok (quote, base)) :
    OB.denoms s' = .ok (quote, base) := by
  obtain ⟨ob, hob, rfl, rfl⟩ := denoms_eq hd
  exact denoms_of (by rw [h.2.1, hob])

/-- A claim or cancel, accepted or not, changes nothing about other orders, the configuration, or (for the worse) about other accounts. -/
theorem own_step {ch : Chain} {n : Nat} {w : World} {b : Book} (h : Traced ch n w b) {quote base : Denom}
    (hd : denoms w.store = .ok (quote, base)) {a : Addr} {time : Nat} {tick : Int} {id : Nat} {op : Op}
    (hop : op = .execute a [] time (.claimLimit tick id) ∨ op = .execute a [] time (.cancelLimit tick id)) :
    ∃ b', Traced ch (n + 1) (apply ch w op) b' ∧ KeepConf w.store (apply ch w op).store ∧
      (∀ t d x, x ∈ b t d → x.id ≠ id → x ∈ b' t d) ∧
      (∀ k, k ≠ (tick, id) → (apply ch w op).store.orders.get? k = w.store.orders.get? k) ∧
      (∀ a' d, a' ≠ ch.contract → w.bank a' d ≤ (apply ch w op).bank a' d) := by
  cases hs : step ch w op with
  | error e =>
    have ea : apply ch w op = w := by unfold apply; rw [hs]
    rw [ea]
    exact ⟨b, .failed h hs, ⟨rfl, rfl, rfl⟩, fun _ _ _ hx _ => hx, fun _ _ => rfl, fun _ _ _ => le_refl _⟩
  | ok y =>
    obtain ⟨w', resp⟩ := y
    have ea : apply ch w op = w' := by unfold apply; rw [hs]
    rw [ea]
    have hbank : ∀ a' d, a' ≠ ch.contract → w.bank a' d ≤ w'.bank a' d := fun a' d ha' => by
      have := (C63_no_loss hs ha' d).1
      have e : paysIn ch op a' d = 0 := by rcases hop with rfl | rfl <;> simp [paysIn, payment, amountOf]
      omega
    refine ⟨_, .ok h hs, ?_⟩
    rcases hop with rfl | rfl
    · have hord := C12_claim_effects h hd hs
      obtain ⟨-, -, -, -, -, -, -, -, -, -, -, -, -, hord, -⟩ := hord
      obtain ⟨dir, p, x, q, ob, rc, s1, k1, k2, -, -, -, -, -, -, k9, k10, -, -, k13⟩ := h.claim_inv hs
      rw [k13]
      refine ⟨by rw [k10]; exact (k9.conf.trans (claimedStore_conf _ _ _)).keep, ?_, hord, hbank⟩
      intro t d y hy hne
      by_cases htd : t = tick ∧ d = dir
      · obtain ⟨rfl, rfl⟩ := htd
        rw [Book.set_self]
        rw [k1] at hy
        simp only [List.mem_append, List.mem_cons] at hy ⊢
        rcases hy with hy | rfl | hy
        · exact Or.inl hy
        · exact absurd k2 hne
        · exact Or.inr (Or.inr hy)
      · rw [Book.set_ne _ _ (not_and_or.1 htd)]; exact hy
    · have hord := C09_cancel_effects h hd hs
      obtain ⟨-, -, -, -, -, -, -, -, -, -, -, hord, -, -⟩ := hord
      have hst : StoreStep ch (.execute a [] time (.cancelLimit tick id)) _ _ _ _ _ := h.step hs
      generalize b.observe _ _ _ _ = b' at hst ⊢
      generalize w'.store = s' at hst hord ⊢
      cases hst with
      | config h1 => simp [Op.isConfig] at h1
      | @cancel _ _ dir _ s1 _ ob' p q x tr ts1 h1 h2 h3 h4 h5 h6 h7 h8 h9 =>
        refine ⟨h6.conf.keep, ?_, fun k hk => by rw [hord, if_neg hk], hbank⟩
        intro t d y hy hne
        by_cases htd : t = tick ∧ d = dir
        · obtain ⟨rfl, rfl⟩ := htd
          rw [Book.set_self]
          rw [h3] at hy
          simp only [List.mem_append, List.mem_cons] at hy ⊢
          rcases hy with hy | rfl | hy
          · exact Or.inl hy
          · exact absurd rfl hne
          · exact Or.inr (Or.inr hy)
        · rw [Book.set_ne _ _ (not_and_or.1 htd)]; exact hy

/-- ... and uses at most four nodes. -/
theorem own_room {ch : Chain} {n : Nat} {w : World} {b : Book} (h : Traced ch n w b) {a : Addr} {time : Nat} {tick : Int} {id : Nat} {op : Op}
    (hop : op = .execute a [] time (.claimLimit tick id) ∨ op = .execute a [] time (.cancelLimit tick id)) {k : Nat}
    (hr : Room (k + 4) w.store) : Room k (apply ch w op).store := by
  cases hs : step ch w op with
  | error e =>
    have ea : apply ch w op = w := by unfold apply; rw [hs]
    rw [ea]; exact hr.mono (by omega)
  | ok y =>
    obtain ⟨w', resp⟩ := y
    have ea : apply ch w op = w' := by unfold apply; rw [hs]
    rw [ea]; exact (h.step hs).own hop hr

/-- There are at most as many live orders as orders have been placed. -/
theorem live_length {s : Store} {b : Book} (h : Rel s b) {l : List (Int × Dir × Entry)} (hl : LiveOrders b l) :
    l.length ≤ s.orderId.getD 0 := by
  have h1 : ∀ e ∈ l, e.2.2 ∈ b e.1 e.2.1 := fun e he => ((hl.all e.1 e.2.1 e.2.2).1 he).1
  have h2 : ∀ e ∈ l, e.2.2.id < s.orderId.getD 0 := fun e he => h.ids.lt _ _ _ (h1 e he)
  have h3 : (l.map fun e => e.2.2.id).Nodup := by
    refine List.Nodup.map_on ?_ hl.once
    rintro ⟨t, d, x⟩ hx ⟨t', d', y⟩ hy he
    obtain ⟨p, q, hsp⟩ := List.append_of_mem (h1 _ hy)
    obtain ⟨rfl, rfl, rfl⟩ := h.same_entry hsp (h1 _ hx) he
    rfl
  have h4 : (l.map fun e => e.2.2.id) ⊆ List.range (s.orderId.getD 0) := by
    intro i hi
    obtain ⟨e, he, rfl⟩ := List.mem_map.1 hi
    exact List.mem_range.2 (h2 e he)
  have h5 := (List.subperm_of_subset h3 h4).length_le
  rwa [List.length_map, List.length_range] at h5

theorem exits_run {ch : Chain} {n : Nat} {w : World} {b : Book} (h : Traced ch n w b) (ha : isActive w.store = true) {quote base : Denom}
    (hd : denoms w.store = .ok (quote, base)) (time : Nat) (l : List (Int × Dir × Entry)) (hn : Room (8 * l.length) w.store)
    (hnd : l.Nodup) (hl : ∀ t d x, (t, d, x) ∈ l → x ∈ b t d ∧ x.Live) :
    (∃ b', Traced ch (n + 2 * l.length) (run ch w (Spec.exits time l)) b') ∧
    (∀ t d x, (t, d, x) ∈ l → (run ch w (Spec.exits time l)).store.orders.get? (t, x.id) = none) ∧
    (∀ k, (w.store.orders.get? k = none) → (run ch w (Spec.exits time l)).store.orders.get? k = none) ∧
    (∀ a d, a ≠ ch.contract →
      w.bank a d + worthTo quote base (getMakerFee w.store) a d l ≤ (run ch w (Spec.exits time l)).bank a d) := by
  induction l generalizing n w b with
  | nil => exact ⟨⟨b, h⟩, by simp, fun _ hk => hk, fun a d _ => by simp [worthTo, Spec.exits, run]⟩
  | cons e l ih =>
    obtain ⟨t, d, x⟩ := e
    obtain ⟨hx, hlive⟩ := hl t d x (by simp)
    have hlen : ((t, d, x) :: l).length = l.length + 1 := rfl
    rw [hlen] at hn ⊢
    have hexit := exit_room h (hn.mono (by omega)) ha hd hx hlive time
    have hr1 := own_room h (a := x.owner) (time := time) (tick := t) (id := x.id) (Or.inl rfl) (k := 8 * l.length + 4) (hn.mono (by omega))
    obtain ⟨b1, ht1, hc1, hb1, ho1, hm1⟩ := own_step h hd (a := x.owner) (time := time) (tick := t) (id := x.id) (Or.inl rfl)
    have hd1 : denoms (apply ch w (.execute x.owner [] time (.claimLimit t x.id))).store = .ok (quote, base) := hc1.denoms hd
    obtain ⟨b2, ht2, hc2, hb2, ho2, hm2⟩ := own_step ht1 hd1 (a := x.owner) (time := time) (tick := t) (id := x.id) (Or.inr rfl)
    have hr2 := own_room ht1 (a := x.owner) (time := time) (tick := t) (id := x.id) (Or.inr rfl) (k := 8 * l.length) hr1
    have hrun : run ch w (Spec.exits time ((t, d, x) :: l)) =
        run ch (run ch w [.execute x.owner [] time (.claimLimit t x.id), .execute x.owner [] time (.cancelLimit t x.id)]) (Spec.exits time l) := by
      rw [← run_append]; rfl
    have hw2 : run ch w [.execute x.owner [] time (.claimLimit t x.id), .execute x.owner [] time (.cancelLimit t x.id)] =
        apply ch (apply ch w (.execute x.owner [] time (.claimLimit t x.id))) (.execute x.owner [] time (.cancelLimit t x.id)) := rfl
    simp only at hexit
    rw [hrun]
    rw [← hw2] at ht2 hc2 ho2 hm2 hr2
    generalize apply ch w (.execute x.owner [] time (.claimLimit t x.id)) = w1 at *
    generalize run ch w [.execute x.owner [] time (.claimLimit t x.id), .execute x.owner [] time (.cancelLimit t x.id)] = w2 at *
    have ha2 : isActive w2.store = true := by rw [hc2.1, hc1.1]; exact ha
    have hd2 : denoms w2.store = .ok (quote, base) := hc2.denoms hd1
    have hfee : getMakerFee w2.store = getMakerFee w.store := by rw [hc2.2.2, hc1.2.2]
    have hid : ∀ t' d' x', (t', d', x') ∈ l → x'.id ≠ x.id := by
      intro t' d' x' hm hid
      obtain ⟨p, q, hsp⟩ := List.append_of_mem hx
      obtain ⟨rfl, rfl, rfl⟩ := h.rel.same_entry hsp (hl t' d' x' (by simp [hm])).1 hid
      exact (List.nodup_cons.1 hnd).1 hm
    obtain ⟨⟨b', i1⟩, i2, i3, i4⟩ := ih ht2 ha2 hd2 hr2 (List.nodup_cons.1 hnd).2 fun t' d' x' hm =>
      ⟨hb2 _ _ _ (hb1 _ _ _ (hl t' d' x' (by simp [hm])).1 (hid t' d' x' hm)) (hid t' d' x' hm), (hl t' d' x' (by simp [hm])).2⟩
    have hk2 : ∀ k, w.store.orders.get? k = none → w2.store.orders.get? k = none := by
      intro k hk
      by_cases hkk : k = (t, x.id)
      · subst hkk; exact hexit.1
      · rw [ho2 k hkk, ho1 k hkk]; exact hk
    refine ⟨⟨b', by rw [show n + 2 * (l.length + 1) = n + 1 + 1 + 2 * l.length by omega]; exact i1⟩, ?_, fun k hk => i3 k (hk2 k hk), ?_⟩
    · intro t' d' x' hm
      rw [List.mem_cons] at hm
      rcases hm with hm | hm
      · obtain ⟨rfl, rfl, rfl⟩ : t' = t ∧ d' = d ∧ x' = x := by simpa using hm
        exact i3 _ hexit.1
      · exact i2 t' d' x' hm
    · intro a dn hac
      have h1 := i4 a dn hac
      rw [hfee] at h1
      have h2 : w.bank a dn + (if x.owner = a then worth quote base (getMakerFee w.store) dn (t, d, x) else 0) ≤ w2.bank a dn := by
        split
        · rename_i howner
          obtain ⟨-, g1, g2⟩ := hexit
          have hmono : w.bank x.owner dn ≤ w2.bank x.owner dn := (hm1 _ _ (howner ▸ hac)).trans (hm2 _ _ (howner ▸ hac))
          rw [← howner]
          obtain ⟨ob, hob, rfl, rfl⟩ := denoms_eq hd
          have hne := denomIn_ne_out (filledBook_rel h.rel hob) d
          unfold worth
          simp only
          generalize payout d (x.filled - x.claimed) t = P at g2 ⊢
          generalize P * getMakerFee w.store / 10 ^ 18 = F at g2 ⊢
          by_cases e1 : denomIn ob.quoteDenom ob.baseDenom d = dn
          · subst e1
            rw [if_pos rfl, if_neg hne, g1]
            omega
          · rw [if_neg e1]
            by_cases e2 : denomOut ob.quoteDenom ob.baseDenom d = dn
            · subst e2
              rw [if_pos rfl]
              omega
            · rw [if_neg e2]; omega
        · exact (hm1 _ _ hac).trans (hm2 _ _ hac)
      have e : worthTo quote base (getMakerFee w.store) a dn ((t, d, x) :: l) =
          (if x.owner = a then worth quote base (getMakerFee w.store) dn (t, d, x) else 0) + worthTo quote base (getMakerFee w.store) a dn l := by
        unfold worthTo
        rw [List.filter_cons]
        by_cases ho : x.owner = a <;> simp [ho]
      rw [e]
      omega

/-- C64: an active book can be wound down completely, whatever its history: if the owner of every live order claims and then cancels it,
in any order of orders, the book is empty afterwards, no side of any tick and no direction has liquidity left, and everybody has been paid
at least what their orders were worth. -/
theorem C64_wind_down {ch : Chain} {n : Nat} {w : World} {b : Book} (h : Traced ch n w b) (ha : isActive w.store = true)
    {quote base : Denom} (hd : denoms w.store = .ok (quote, base)) {l : List (Int × Dir × Entry)} (hl : LiveOrders b l)
    (hn : w.HasRoom) (time : Nat) :
    let w' := run ch w (exits time l)
    w'.store.orders = [] ∧ (∀ t d, tickLiquidity w'.store t d = 0) ∧ (∀ d, dirLiquidity w'.store d = 0) ∧
    ∀ a d, a ≠ ch.contract → w.bank a d + worthTo quote base (getMakerFee w.store) a d l ≤ w'.bank a d := by
  intro w'
  obtain ⟨⟨b', h1⟩, h2, h3, h4⟩ := exits_run h ha hd time l
    (hn.big.mono (by have := live_length h.rel hl; have := hn.1; omega)) hl.once fun t d x hm => (hl.all t d x).1 hm
  have hnone : ∀ k, w'.store.orders.get? k = none := by
    rintro ⟨t, id⟩
    rcases h.rel.lookup t id with hk | ⟨d, p, x, q, hsp, hlive, rfl, -⟩
    · exact h3 _ hk.1
    · exact h2 t d x ((hl.all t d x).2 ⟨by rw [hsp]; simp, hlive⟩)
  have hr' : Rel w'.store b' := h1.rel
  have hleft : ∀ t d, openTotal (b' t d) = 0 := by
    intro t d
    unfold openTotal
    have : (b' t d).filter (fun x => decide x.Live) = [] := by
      rw [List.filter_eq_nil_iff]
      intro x hx
      simp only [decide_eq_true_eq]
      intro hlive
      rcases hr'.lookup t x.id with hk | ⟨d2, p, y, q, hsp, _, _, hg⟩
      · exact hk.2 d x hx rfl hlive
      · rw [hnone] at hg; simp at hg
    rw [this]; rfl
  refine ⟨?_, ?_, ?_, h4⟩
  · cases ho : w'.store.orders with
    | nil => rfl
    | cons kv m =>
      have := hnone kv.1
      rw [ho] at this
      simp [SMap.get?] at this
  · intro t d
    rw [(C26_tick_liquidity h1 t d).2, hleft]
  · intro d
    have hd' : denoms w'.store = .ok (quote, base) := by rw [C39_denoms_fixed ⟨_, h.reachable⟩]; exact hd
    rw [(C26_pool_liquidity ⟨_, h1.reachable⟩ hd').1]
    have : (fun t => tickLiquidity w'.store t d) = fun _ => 0 := by
      funext t; rw [(C26_tick_liquidity h1 t d).2, hleft]
    rw [this]
    unfold overTicks
    exact Finset.sum_eq_zero fun _ _ => rfl

/-- Every reachable book has such a list of its live orders. -/
theorem C64_live_orders_exist {ch : Chain} {n : Nat} {w : World} {b : Book} (h : Traced ch n w b) : ∃ l, LiveOrders b l := by
  refine ⟨(w.store.orders.flatMap fun kv => [Dir.bid, Dir.ask].flatMap fun d =>
    ((b kv.1.1 d).filter fun x => decide x.Live).map fun x => (kv.1.1, d, x)).dedup, List.nodup_dedup _, ?_⟩
  intro t d x
  rw [List.mem_dedup, List.mem_flatMap]
  constructor
  · rintro ⟨kv, -, hm⟩
    obtain ⟨d', -, hm⟩ := List.mem_flatMap.1 hm
    obtain ⟨y, hy, he⟩ := List.mem_map.1 hm
    obtain ⟨hy1, hy2⟩ := List.mem_filter.1 hy
    simp only [Prod.mk.injEq] at he
    obtain ⟨rfl, rfl, rfl⟩ := he
    exact ⟨hy1, of_decide_eq_true hy2⟩
  · rintro ⟨hx, hl⟩
    rcases h.rel.lookup t x.id with hk | ⟨d2, p, y, q, hsp, _, _, hg⟩
    · exact absurd hl (hk.2 d x hx rfl)
    · refine ⟨((t, x.id), _), SMap.get?_mem hg, ?_⟩
      refine List.mem_flatMap.2 ⟨d, by cases d <;> simp, List.mem_map.2 ⟨x, List.mem_filter.2 ⟨hx, decide_eq_true hl⟩, rfl⟩⟩

/-- The three live orders of the demo book. -/
def Demo.live : List (Int × Dir × Entry) :=
  [(10, .ask, ⟨1, "bob", some (10 ^ 16), 7, 50000, 0, 0, false⟩), (0, .bid, ⟨3, "dave", some (10 ^ 16), 7, 100000, 60000, 0, false⟩),
   (-5000000, .bid, ⟨4, "erin", none, 7, 500000, 0, 0, false⟩)]

/-- C64 on the demo book: its three live orders leave; bob gets his 50000 base back, dave 40000 quote and 58800 base (60000 minus 2%
fee), erin her 500000 quote. -/
example : Traced Demo.ch 10 Demo.after (Demo.trace Demo.history).2 ∧ isActive Demo.after.store = true ∧
    (∀ e ∈ Demo.live, e.2.2 ∈ (Demo.trace Demo.history).2 e.1 e.2.1 ∧ e.2.2.Live) ∧
    (let w' := run Demo.ch Demo.after (exits 9 Demo.live)
     (w'.store.orders.length, w'.bank "bob" "b" - Demo.after.bank "bob" "b", w'.bank "dave" "q" - Demo.after.bank "dave" "q",
       w'.bank "dave" "b" - Demo.after.bank "dave" "b", w'.bank "erin" "q" - Demo.after.bank "erin" "q",
       w'.bank "orderbook" "q", w'.bank "orderbook" "b") = (0, 50000, 40000, 58800, 500000, 0, 0)) := by
  refine ⟨Demo.traced Demo.history, ?_, ?_, ?_⟩ <;> decide +kernel

end OB
