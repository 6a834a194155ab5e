import Verif.SpecIso
import Verif.Proofs.TreeObs
import Verif.Proofs.Demo
/- C34, C35: the sides of a tick, and different ticks, do not interfere. -/
namespace OB
open Spec

/-- Queue and tree of a side are kept. -/
def KeepL (s s' : Store) (b b' : Book) (t : Int) (d : Dir) : Prop :=
  b' t d = b t d ∧ ∀ rt, RootRep s.trees t d rt → RootRep s'.trees t d rt

theorem KeepL.trans {s s1 s2 : Store} {b b1 b2 : Book} {t : Int} {d : Dir} (h : KeepL s s1 b b1 t d) (g : KeepL s1 s2 b1 b2 t d) :
    KeepL s s2 b b2 t d := ⟨g.1.trans h.1, fun rt hr => g.2 rt (h.2 rt hr)⟩

theorem KeepL.of_trees {s s' : Store} {b b' : Book} {t : Int} {d : Dir} (h : b' t d = b t d) (g : s'.trees = s.trees) :
    KeepL s s' b b' t d := ⟨h, fun rt hr => by rw [g]; exact hr⟩

theorem Synced.keepL {s s' : Store} {b : Book} {tick : Int} (h : Synced s s' b tick) (t : Int) (d : Dir) : KeepL s s' b b t d :=
  ⟨rfl, h.keep t d⟩

theorem ClaimStep.keepL {sender : Addr} {tick : Int} {id : Nat} {s s' : Store} {b b' : Book} {r : Nat × List SendMsg × LimitOrder}
    (h : ClaimStep sender tick id s b r s' b') {t : Int} {d : Dir} (hne : ¬ (tick = t ∧ ∃ x ∈ b t d, x.id = id)) : KeepL s s' b b' t d := by
  obtain ⟨h1, h2, h3, h4, h5, h6, h7⟩ := h
  rename_i s1 dir p q x ob rc
  refine (h6.keepL t d).trans (KeepL.of_trees ?_ (claimedStore_same ..).2.2.1)
  refine Book.set_ne _ _ (not_and_or.1 ?_)
  rintro ⟨rfl, rfl⟩
  exact hne ⟨rfl, x, by rw [h1]; simp, h3⟩

theorem ClaimFail.keepL {s s' : Store} {b : Book} {tick : Int} {id : Nat} (h : ClaimFail s s' b tick id) (t : Int) (d : Dir) :
    KeepL s s' b b t d := by
  rcases h.store with rfl | h
  · exact KeepL.of_trees rfl rfl
  · exact h.keepL t d

theorem ClaimRun.keepL {sender : Addr} {ob : Orderbook} {l : List (Int × Nat)} {s s' : Store} {b b' : Book} {ms : List SendMsg}
    {es : List Event} (h : ClaimRun sender ob l s b ms es s' b') {t : Int} {d : Dir} (hne : ∀ x ∈ b t d, (t, x.id) ∉ l) :
    KeepL s s' b b' t d := by
  induction h with
  | nil => exact KeepL.of_trees rfl rfl
  | @ok tick id rest s b r s1 b1 ms es s' b' _ h _ ih =>
    have h1 : KeepL s s1 b b1 t d := h.keepL (by
      rintro ⟨rfl, x, hx, rfl⟩
      exact hne x hx (by simp))
    refine h1.trans (ih ?_)
    rw [h1.1]
    intro x hx hm
    exact hne x hx (by simp [hm])
  | skip _ h _ ih =>
    refine (h.keepL t d).trans (ih ?_)
    intro x hx hm
    exact hne x hx (by simp [hm])

theorem StoreStep.keepL {ch : Chain} {op : Op} {s s' : Store} {b b' : Book} {resp : Response} (h : StoreStep ch op s b resp s' b')
    {ob : Orderbook} (hob : s.orderbook = some ob) {t : Int} {d : Dir} (hne : ¬ Concerns ob.quoteDenom ob.baseDenom b t d op) :
    KeepL s s' b b' t d := by
  cases h with
  | place h1 h2 h3 h4 =>
    refine KeepL.of_trees (Book.set_ne _ _ (not_and_or.1 ?_)) rfl
    rintro ⟨rfl, rfl⟩
    exact hne ⟨rfl, rfl⟩
  | @cancel time tick dir s s1 b ob p q x tr ts1 h1 h2 h3 h4 h5 h6 h7 h8 h9 =>
    have hn : ¬ (t = tick ∧ d = dir) := by
      rintro ⟨rfl, rfl⟩
      exact hne ⟨rfl, x, by rw [h3]; simp, rfl⟩
    refine (h6.keepL t d).trans ⟨Book.set_ne _ _ (not_and_or.1 hn), fun rt hr => ?_⟩
    exact hr.frame h8.1 (not_and_or.1 hn)
  | claim h1 h2 h3 h4 => exact h4.keepL hne
  | batch h1 h2 h3 h4 => exact h4.keepL fun x hx hm => hne ⟨x, hx, hm⟩
  | @swap time msg sender c out m fee target s b ob' dir F q' dust lp h1 h2 h3 h4 h5 =>
    obtain rfl := orderbook_inj h2 hob
    refine KeepL.of_trees ?_ rfl
    have hd : d ≠ dir.opposite := by
      rintro rfl
      have : c.denom = denomOut ob.quoteDenom ob.baseDenom dir.opposite := by
        rw [h5.denoms.1]; cases dir <;> rfl
      apply hne
      cases msg <;> simp only [SudoMsg.swapArgs, Option.some.injEq, Prod.mk.injEq, reduceCtorEq] at h3 <;>
        (obtain ⟨-, rfl, -⟩ := h3; exact this)
    unfold filledBook takenBy
    rw [if_neg hd, fillQ_zero]
  | config h1 h2 h3 h4 => exact KeepL.of_trees rfl h2.trees

theorem position_aux {S r r' : Nat} {D e e' c c' : Nat} (h1 : e = D * (S + r)) (h2 : c = D * r) (h3 : e' = D * (S + r')) (h4 : c' = D * r') :
    e' + c = e + c' := by
  subst h1 h2 h3 h4
  rw [Nat.mul_add, Nat.mul_add]; omega

theorem order_iff {s s' : Store} {b b' : Book} (h : Rel s b) (h' : Rel s' b') {t : Int} {d : Dir} (hq : b' t d = b t d) {id : Nat}
    {o : LimitOrder} (hd : o.dir = d) (hg : s.orders.get? (t, id) = some o) : s'.orders.get? (t, id) = some o := by
  obtain ⟨dir, p, x, q, h1, h2, h3, h4⟩ := (h.orders t id o).1 hg
  have : dir = d := by rw [← hd, h4]; rfl
  subst this
  exact (h'.orders t id o).2 ⟨dir, p, x, q, by rw [hq]; exact h1, h2, h3, h4⟩

theorem KeepL.sideKept {s s' : Store} {b b' : Book} {t : Int} {d : Dir} (h : KeepL s s' b b' t d) (hr : Rel s b) (hr' : Rel s' b') :
    SideKept s s' b b' t d := by
  obtain ⟨hq, hk⟩ := h
  obtain ⟨r, rt, g1, g2, g3⟩ := hr.sides t d
  obtain ⟨r', rt', g1', -, -⟩ := hr'.sides t d
  rw [hq] at g1'
  refine ⟨hq, ?_, ?_, ?_, ?_, ?_⟩
  · exact g1'.tal.trans g1.tal.symm
  · exact g1'.ctv.trans g1.ctv.symm
  · exact position_aux g1.etas g1.crc g1'.etas g1'.crc
  · intro id o hd
    exact ⟨order_iff hr' hr hq.symm hd, order_iff hr hr' hq hd⟩
  · intro h L ks
    refine ⟨fun hv => ?_, validOn_of_keep hk⟩
    obtain ⟨rfl, rfl, rfl⟩ := ValidOn.unique hv (validOn_of_keep hk g2.validOn)
    exact g2.validOn

/-- C34: in every reachable state, whatever operation succeeds, every side of every tick that the operation is not about is left alone:
its queue with all fills, its liquidity, its orders, and its tree, node by node; although the two sides of a tick share the node storage
and the id counter. -/
theorem C34_sides_isolated {ch : Chain} {n : Nat} {w : World} {b : Book} (h : Traced ch n w b) {quote base : Denom}
    (hd : denoms w.store = .ok (quote, base)) {op : Op} {w' : World} {resp : Response} (hs : step ch w op = .ok (w', resp)) {t : Int}
    {d : Dir} (hne : ¬ Concerns quote base b t d op) :
    SideKept w.store w'.store b (b.observe op w.store w'.store resp) t d := by
  obtain ⟨ob, hob, rfl, rfl⟩ := denoms_eq hd
  have hst := h.step hs
  exact (hst.keepL hob hne).sideKept h.rel (hst.rel h.rel)

/-- C34: placing and swapping leave the accumulators of the other side exactly as they are, and change no tree at all. -/
theorem C34_place_and_swap_exact {ch : Chain} {n : Nat} {w : World} {b : Book} (h : Traced ch n w b) {quote base : Denom}
    (hd : denoms w.store = .ok (quote, base)) {op : Op} {w' : World} {resp : Response} (hs : step ch w op = .ok (w', resp))
    (ho : (∃ sender funds time t d q bounty, op = .execute sender funds time (.placeLimit t d q bounty)) ∨
      ∃ r time, op = SwapReq.op r time) {t : Int} {d : Dir} (hne : ¬ Concerns quote base b t d op) :
    tickValues w'.store t d = tickValues w.store t d ∧ w'.store.trees = w.store.trees := by
  have hr := h.rel
  have hst := h.step hs
  obtain ⟨ob, hob, rfl, rfl⟩ := denoms_eq hd
  generalize b.observe _ _ _ _ = b' at hst
  generalize w'.store = s' at hst ⊢
  cases hst with
  | @place sender funds time tick dir q cb s b ob' h1 h2 h3 h4 =>
    refine ⟨?_, rfl⟩
    have hn : ¬ (t = tick ∧ d = dir) := fun hc => hne ⟨hc.1.symm, hc.2.symm⟩
    by_cases ht : t = tick
    · subst ht
      have hdd : d ≠ dir := fun hc => hn ⟨rfl, hc⟩
      have e : (placedStore w.store ob' t dir sender q cb time).ticks.get? t = some _ := SMap.get?_insert_self _ _ _
      exact (tv_of_get e d).trans (getValues_setValues_ne _ _ hdd)
    · exact tv_congr (SMap.get?_insert_ne _ _ ht) d
  | cancel =>
    rcases ho with ⟨_, _, _, _, _, _, _, ho⟩ | ⟨⟨_, _, _, _, _, tg⟩, _, ho⟩
    · simp at ho
    · cases tg <;> simp [SwapReq.op] at ho
  | claim =>
    rcases ho with ⟨_, _, _, _, _, _, _, ho⟩ | ⟨⟨_, _, _, _, _, tg⟩, _, ho⟩
    · simp at ho
    · cases tg <;> simp [SwapReq.op] at ho
  | batch =>
    rcases ho with ⟨_, _, _, _, _, _, _, ho⟩ | ⟨⟨_, _, _, _, _, tg⟩, _, ho⟩
    · simp at ho
    · cases tg <;> simp [SwapReq.op] at ho
  | config h1 h2 h3 h4 => exact ⟨tv_congr (by rw [h2.ticks]) d, h2.trees⟩
  | @swap time msg sender c out m fee target s b ob' dir F q' dust lp h1 h2 h3 h4 h5 =>
    obtain rfl := orderbook_inj h2 hob
    refine ⟨?_, rfl⟩
    have hd : d ≠ dir.opposite := by
      rintro rfl
      have : c.denom = denomOut ob.quoteDenom ob.baseDenom dir.opposite := by
        rw [h5.denoms.1]; cases dir <;> rfl
      apply hne
      cases msg <;> simp only [SudoMsg.swapArgs, Option.some.injEq, Prod.mk.injEq, reduceCtorEq] at h3 <;>
        (obtain ⟨-, rfl, -⟩ := h3; exact this)
    exact swapped_tv_ne (h5.run.fillsOk hr h2).nodup t hd

/-! ### Ticks -/

theorem TickKept.refl (s : Store) (b : Book) (t : Int) : TickKept s s b b t := ⟨rfl, rfl, fun _ => rfl, rfl, rfl, rfl⟩

theorem TickKept.trans {s s1 s2 : Store} {b b1 b2 : Book} {t : Int} (h : TickKept s s1 b b1 t) (g : TickKept s1 s2 b1 b2 t) :
    TickKept s s2 b b2 t :=
  ⟨g.1.trans h.1, g.2.trans h.2, fun id => (g.3 id).trans (h.3 id), g.4.trans h.4, g.5.trans h.5, g.6.trans h.6⟩

theorem Synced.tickKept {s s' : Store} {b : Book} {tick : Int} (h : Synced s s' b tick) {t : Int} (ht : t ≠ tick) : TickKept s s' b b t :=
  ⟨rfl, h.ticks_ne t ht, fun id => by rw [h.store], funext (h.frame.nodes t ht), funext fun d => h.frame.roots t d ht, h.frame.counter t ht⟩

theorem Book.set_tick {b : Book} {tick t : Int} {d : Dir} {q : List Entry} (ht : t ≠ tick) : b.set tick d q t = b t := by
  funext d'; exact Book.set_ne _ _ (Or.inl ht)

theorem claimedStore_tickKept {s : Store} {b : Book} {tick t : Int} {o : LimitOrder} {d : Dir} {q : List Entry} (ht : t ≠ tick) :
    TickKept s (claimedStore s tick o) b (b.set tick d q) t := by
  obtain ⟨-, -, g3, g4, -⟩ := claimedStore_same s tick o
  refine ⟨Book.set_tick ht, by rw [g4], fun id => ?_, by rw [g3], by rw [g3], by rw [g3]⟩
  have hne : (t, id) ≠ (tick, o.orderId) := fun hc => ht (Prod.mk.inj hc).1
  unfold claimedStore
  split
  · show SMap.get? (s.orders.erase _) _ = _
    rw [SMap.get?_erase, if_neg hne]
  · exact SMap.get?_insert_ne _ _ hne

theorem ClaimStep.tickKept {sender : Addr} {tick : Int} {id : Nat} {s s' : Store} {b b' : Book} {r : Nat × List SendMsg × LimitOrder}
    (h : ClaimStep sender tick id s b r s' b') {t : Int} (ht : t ≠ tick) : TickKept s s' b b' t := by
  obtain ⟨h1, h2, h3, h4, h5, h6, h7⟩ := h
  exact TickKept.trans (h6.tickKept ht) (claimedStore_tickKept ht)

theorem ClaimRun.tickKept {sender : Addr} {ob : Orderbook} {l : List (Int × Nat)} {s s' : Store} {b b' : Book} {ms : List SendMsg}
    {es : List Event} (h : ClaimRun sender ob l s b ms es s' b') {t : Int} (hne : ¬ ∃ id, (t, id) ∈ l) : TickKept s s' b b' t := by
  induction h with
  | nil => exact TickKept.refl _ _ _
  | @ok tick id rest s b r s1 b1 ms es s' b' _ h _ ih =>
    refine TickKept.trans (h.tickKept ?_) (ih ?_)
    · rintro rfl; exact hne ⟨id, by simp⟩
    · rintro ⟨i, hi⟩; exact hne ⟨i, by simp [hi]⟩
  | @skip tick id rest s b e s1 ms es s' b' _ h _ ih =>
    refine TickKept.trans ?_ (ih ?_)
    · rcases h.store with rfl | h
      · exact TickKept.refl _ _ _
      · refine h.tickKept ?_
        rintro rfl; exact hne ⟨id, by simp⟩
    · rintro ⟨i, hi⟩; exact hne ⟨i, by simp [hi]⟩

/-- C35: in every reachable state, a successful operation other than a swap leaves every tick that it does not name exactly as it was: the
stored tick state, queues, orders, and everything stored for its trees. -/
theorem C35_ticks_isolated {ch : Chain} {n : Nat} {w : World} {b : Book} (h : Traced ch n w b) {op : Op} {w' : World} {resp : Response}
    (hs : step ch w op = .ok (w', resp)) {t : Int} (hne : ¬ Mentions t op) :
    TickKept w.store w'.store b (b.observe op w.store w'.store resp) t := by
  have hst := h.step hs
  generalize b.observe _ _ _ _ = b' at hst ⊢
  generalize w'.store = s' at hst ⊢
  cases hst with
  | @place sender funds time tick dir q cb s b ob' h1 h2 h3 h4 =>
    have ht : t ≠ tick := fun hc => hne hc.symm
    refine ⟨Book.set_tick ht, SMap.get?_insert_ne _ _ ht, fun id => SMap.get?_insert_ne _ _ ?_, rfl, rfl, rfl⟩
    exact fun hc => ht (Prod.mk.inj hc).1
  | @cancel time tick dir s s1 b ob p q x tr ts1 h1 h2 h3 h4 h5 h6 h7 h8 h9 =>
    have ht : t ≠ tick := fun hc => hne hc.symm
    refine TickKept.trans (h6.tickKept ht) ⟨Book.set_tick ht, SMap.get?_insert_ne _ _ ht, fun id => ?_, funext (h8.1.nodes t ht),
      funext fun d => h8.1.roots t d (Or.inl ht), h8.1.counter t ht⟩
    show SMap.get? (s1.orders.erase _) _ = _
    rw [SMap.get?_erase, if_neg fun hc => ht (Prod.mk.inj hc).1]
  | claim h1 h2 h3 h4 => exact h4.tickKept fun hc => hne hc.symm
  | batch h1 h2 h3 h4 => exact h4.tickKept hne
  | @swap time msg sender c out m fee target s b ob' dir F q' dust lp h1 h2 h3 h4 h5 =>
    exfalso
    apply hne
    cases msg <;> simp only [SudoMsg.swapArgs, reduceCtorEq] at h3 <;> trivial
  | config h1 h2 h3 h4 => exact ⟨rfl, by rw [h2.ticks], fun id => by rw [h2.orders], by rw [h2.trees], by rw [h2.trees], by rw [h2.trees]⟩

/-- C35: a swap changes no stored order and no tree, and leaves every tick from which it takes nothing exactly as it was. -/
theorem C35_swap_touches_only_filled {ch : Chain} {n : Nat} {w : World} {b : Book} (h : Traced ch n w b) {r : SwapReq} {time : Nat}
    {w' : World} {resp : Response} (hs : step ch w (r.op time) = .ok (w', resp)) :
    w'.store.orders = w.store.orders ∧ w'.store.trees = w.store.trees ∧
    ∀ t, (∀ d, taken w.store w'.store t d = 0) → TickKept w.store w'.store b (b.observe (r.op time) w.store w'.store resp) t := by
  have hr := h.rel
  have hst := h.step hs
  have hr' := hst.rel hr
  generalize b.observe _ _ _ _ = b' at hst hr' ⊢
  generalize w'.store = s' at hst hr' ⊢
  generalize hop : r.op time = op at hst
  cases hst with
  | @swap time msg sender c out m fee target s b ob' dir F q' dust lp h1 h2 h3 h4 h5 =>
    refine ⟨rfl, rfl, fun t ht => ?_⟩
    have hok := h5.run.fillsOk hr h2
    have hnot : t ∉ F.map Fill.tick := by
      intro hm
      obtain ⟨f, hf, rfl⟩ := List.mem_map.1 hm
      have e := ht dir.opposite
      unfold taken at e
      rw [hr.tickLiq, hr'.tickLiq] at e
      have e2 : sumBy Entry.left (filledBook b F dir.opposite f.tick dir.opposite) + f.amount = sumBy Entry.left (b f.tick dir.opposite) := by
        unfold filledBook takenBy
        rw [if_pos rfl, fillAt_mem hok.nodup hf, fillQ_sumLeft (hok.le f hf)]
        have := hok.le f hf
        unfold leftAt at this
        omega
      have := hok.pos f hf
      omega
    refine ⟨?_, (swapped_get hok.nodup t).2 hnot, fun _ => rfl, rfl, rfl, rfl⟩
    funext d
    unfold filledBook takenBy
    rw [fillAt_notin hnot]
    simp [fillQ_zero]
  | config h1 h2 h3 h4 => obtain ⟨_, _, _, _, _, tg⟩ := r; subst hop; cases tg <;> simp [SwapReq.op, Op.isConfig] at h1
  | _ => obtain ⟨_, _, _, _, _, tg⟩ := r; cases tg <;> simp [SwapReq.op] at hop

/-! ### Non-vacuity -/

/-- In the demo, a sell takes from bids only: the ask side of tick 10 is not concerned; and a claim of order 3 (a bid at tick 0) does not
mention tick 10. -/
example : ¬ Concerns "q" "b" (Demo.trace Demo.history).2 10 .ask (Demo.sell "zed" 300000 1) ∧
    (step Demo.ch (Demo.trace Demo.history).1 (Demo.sell "zed" 300000 1)).toOption.isSome ∧
    ¬ Mentions 10 (Demo.claim "zed" 0 3) ∧ (step Demo.ch (Demo.trace Demo.history).1 (Demo.claim "zed" 0 3)).toOption.isSome := by
  refine ⟨?_, by decide +kernel, ?_, by decide +kernel⟩
  · simp only [Concerns, Demo.sell, denomOut]; decide
  · simp only [Mentions, Demo.claim]; decide

/-- The two sides of one tick: after the demo, bob asks at tick 0 where bids are resting and have cancellations in their tree; cancelling
that ask adds a node to the same storage and is not about the bids. -/
example : ¬ Concerns "q" "b" (Demo.trace (Demo.history ++ [Demo.place "bob" 0 .ask 500 none])).2 0 .bid (Demo.cancel "bob" 0 5) ∧
    (step Demo.ch (Demo.trace (Demo.history ++ [Demo.place "bob" 0 .ask 500 none])).1 (Demo.cancel "bob" 0 5)).toOption.isSome ∧
    (Demo.trace (Demo.history ++ [Demo.place "bob" 0 .ask 500 none, Demo.cancel "bob" 0 5])).1.store.trees.counter 0 ≠
      (Demo.trace (Demo.history ++ [Demo.place "bob" 0 .ask 500 none])).1.store.trees.counter 0 := by
  refine ⟨?_, by decide +kernel, by decide +kernel⟩
  simp only [Concerns, Demo.cancel]; decide +kernel

end OB
