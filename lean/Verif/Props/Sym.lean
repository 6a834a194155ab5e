import Verif.Proofs.SymAns
import Verif.Props.Answers
import Verif.Props.Flow
/- C77, C78, C79: block times do not matter, nor do names, nor who is behind a price level. -/
namespace OB
open Spec
namespace Sym

/-- The change that erases block times. -/
def erase : Renaming := ⟨Equiv.refl _, Equiv.refl _, fun _ => 0⟩

theorem erase_ok (ch : Chain) : erase.Ok ch := ⟨rfl, fun _ => rfl, rfl, rfl, rfl, rfl⟩

theorem erase_send (m : SendMsg) : erase.send m = m := rfl

theorem erase_attr (a : Attr) : erase.attr a = a := by cases a <;> rfl

theorem erase_event (e : Event) : erase.event e = e := by
  cases e with
  | method name attrs =>
    have : (attrs.map fun p => (p.1, erase.attr p.2)) = attrs := by
      conv_rhs => rw [← List.map_id attrs]
      exact List.map_congr_left fun p _ => by rw [erase_attr]; rfl
    show Event.method name (attrs.map fun p => (p.1, erase.attr p.2)) = _
    rw [this]
  | _ => rfl

theorem erase_err (e : Err) : erase.err e = e := by
  cases e with
  | payment p => cases p <;> rfl
  | _ => rfl

theorem erase_result (r : Except Err Response) : erase.result r = r := by
  cases r with
  | error e => exact congrArg Except.error (erase_err e)
  | ok r =>
    have h1 : r.msgs.map erase.send = r.msgs := List.map_id _
    have h2 : r.events.map erase.event = r.events := by
      conv_rhs => rw [← List.map_id r.events]
      exact List.map_congr_left fun e _ => by rw [erase_event]; rfl
    show Except.ok (erase.response r) = _
    unfold Renaming.response
    rw [h1, h2]

theorem erase_results (l : List (Except Err Response)) : l.map erase.result = l := by
  conv_rhs => rw [← List.map_id l]
  exact List.map_congr_left fun r _ => by rw [erase_result]; rfl

theorem erase_roles (c : Roles) : erase.roles c = c := by
  unfold Renaming.roles erase
  simp

theorem erase_fresh (q b : Denom) (bank : Bank) : erase.ref (Ref.fresh q b bank) = Ref.fresh q b bank := by
  rw [fresh_rn (erase_ok ⟨"", fun _ => true⟩)]
  rfl

theorem erase_query (q : QueryMsg) : erase.query q = q := by cases q <;> rfl

theorem openTotal_fill {n : Nat} {q : List Entry} (h : ∀ x ∈ q, EntryOk x) : openTotal (fillQ n q) = openTotal q - n := by
  rw [openTotal_eq h, openTotal_eq (fillQ_ok h)]
  clear h
  induction q generalizing n with
  | nil => simp [fillQ, sumBy]
  | cons x q ih =>
    have := ih (n := n - min n x.left)
    simp only [fillQ, sumBy, List.map_cons, List.sum_cons] at this ⊢
    rw [this]
    have e : ({ x with filled := x.filled + min n x.left } : Entry).left = x.left - min n x.left := by
      unfold Entry.left
      simp only
      split <;> omega
    rw [e]
    omega

end Sym
open Sym

/-- C77: block times decide nothing. Take two histories that differ in nothing but the block times of their operations. Every operation
gets the same answer - response or error - in both; all balances and the configuration end up the same; and every query is answered the
same, except for the dates shown with orders. -/
theorem C77_block_time {ch : Chain} {w0 : World} (hi : Initial ch w0) {ops ops' : List Op} (ht : ops.map timeless = ops'.map timeless)
    (hn : ops.length < 10 ^ 16) :
    answers ch w0 ops = answers ch w0 ops' ∧
    (run ch w0 ops).bank = (run ch w0 ops').bank ∧
    roles (run ch w0 ops).store = roles (run ch w0 ops').store ∧
    ∀ q, QueryFits q → (answer (run ch w0 ops).store q).map undated = (answer (run ch w0 ops').store q).map undated := by
  have hl : ops.length = ops'.length := by simpa using congrArg List.length ht
  have hr := (C72_room hi ops).2.1 hn
  have hr' := (C72_room hi ops').2.1 (hl ▸ hn)
  obtain ⟨ob, hob, -⟩ := (Traced.init hi).rel.ptr
  have hd := denoms_of hob
  obtain ⟨a1, a2, a3, -, -, -⟩ := C67_refines hi hd ops hr
  obtain ⟨b1, b2, b3, -, -, -⟩ := C67_refines hi hd ops' hr'
  have ka := run_rn (erase_ok ch) ops (Ref.fresh ob.quoteDenom ob.baseDenom w0.bank)
  have kb := run_rn (erase_ok ch) ops' (Ref.fresh ob.quoteDenom ob.baseDenom w0.bank)
  have ma := runMarks_rn (erase_ok ch) ops (Ref.fresh ob.quoteDenom ob.baseDenom w0.bank) (fun _ _ => ⟨0, 0⟩)
  have mb := runMarks_rn (erase_ok ch) ops' (Ref.fresh ob.quoteDenom ob.baseDenom w0.bank) (fun _ _ => ⟨0, 0⟩)
  rw [show ops.map erase.op = ops'.map erase.op from ht, kb, Prod.mk.injEq] at ka
  rw [show ops.map erase.op = ops'.map erase.op from ht, mb, Prod.mk.injEq] at ma
  obtain ⟨k1, k2⟩ := ka
  obtain ⟨m1, m2⟩ := ma
  rw [erase_results, erase_results] at k2
  refine ⟨?_, ?_, ?_, fun q hq => ?_⟩
  · rw [a1, b1, k2]
  · rw [a2, b2]
    exact (congrArg Ref.bank k1).symm
  · rw [a3, b3]
    have := congrArg Ref.conf k1
    exact (((erase_roles _).symm.trans this).trans (erase_roles _)).symm
  · have qa := (C68_queries hi hd ops hr q hq).2
    have qb := (C68_queries hi hd ops' hr' q hq).2
    rw [qa, qb]
    have ea := answer_rn (f := erase) ((Ref.fresh ob.quoteDenom ob.baseDenom w0.bank).runMarks ch (fun _ _ => ⟨0, 0⟩) ops).1
      ((Ref.fresh ob.quoteDenom ob.baseDenom w0.bank).runMarks ch (fun _ _ => ⟨0, 0⟩) ops).2 q
    have eb := answer_rn (f := erase) ((Ref.fresh ob.quoteDenom ob.baseDenom w0.bank).runMarks ch (fun _ _ => ⟨0, 0⟩) ops').1
      ((Ref.fresh ob.quoteDenom ob.baseDenom w0.bank).runMarks ch (fun _ _ => ⟨0, 0⟩) ops').2 q
    have ec := congrArg₂ (fun r m => r.answer m (erase.query q)) m1 m2
    exact (ea.symm.trans ec.symm).trans eb

/-- C78: names do not matter. Rename all accounts and denoms one to one (the contract and the hard-coded accounts keep their names), set
up the book for the renamed pair and the renamed balances, and send the renamed history: every operation gets the renamed answer, the
balances and the configuration end up renamed, and every renamed query gets the renamed answer. -/
theorem C78_renaming {ch : Chain} {f : Renaming} (hf : f.Ok ch) {w0 w1 : World} (hi : Initial ch w0) (hi' : Initial ch w1)
    {quote base : Denom} (hd : denoms w0.store = .ok (quote, base)) (hd' : denoms w1.store = .ok (f.coin quote, f.coin base))
    (hb : w1.bank = f.bank w0.bank) (ops : List Op) (hn : ops.length < 10 ^ 16) :
    answers ch w1 (ops.map f.op) = (answers ch w0 ops).map f.result ∧
    (run ch w1 (ops.map f.op)).bank = f.bank (run ch w0 ops).bank ∧
    roles (run ch w1 (ops.map f.op)).store = f.roles (roles (run ch w0 ops).store) ∧
    ∀ q, QueryFits q → answer (run ch w1 (ops.map f.op)).store (f.query q) = (answer (run ch w0 ops).store q).map f.answer := by
  have hr := (C72_room hi ops).2.1 hn
  have hr' := (C72_room hi' (ops.map f.op)).2.1 (by rw [List.length_map]; exact hn)
  obtain ⟨a1, a2, a3, -, -, -⟩ := C67_refines hi hd ops hr
  obtain ⟨b1, b2, b3, -, -, -⟩ := C67_refines hi' hd' _ hr'
  have hfr := fresh_rn hf quote base w0.bank
  rw [hb, ← hfr, run_rn hf] at b1 b2 b3
  refine ⟨?_, ?_, ?_, fun q hq => ?_⟩
  · rw [b1, a1]
  · rw [b2, a2]; rfl
  · rw [b3, a3]; rfl
  · have qa := (C68_queries hi hd ops hr q hq).2
    have qb := (C68_queries hi' hd' _ hr' (f.query q) (by rw [queryFits_rn]; exact hq)).2
    rw [hb, ← hfr, runMarks_rn hf] at qb
    rw [qa, qb]
    exact answer_rn _ _ q

namespace Sym

/-- What a trader's view says about two reference states. -/
structure Alike (traders : Addr → Prop) (r r' : Ref) : Prop where
  quote : r.quote = r'.quote
  base : r.base = r'.base
  best : r.best = r'.best
  active : r.conf.active = r'.conf.active
  depth : ∀ t d, openTotal (r.queues t d) = openTotal (r'.queues t d)
  balances : ∀ a d, traders a → r.bank a d = r'.bank a d

variable {ch : Chain} {traders : Addr → Prop}

theorem alike_of {n n' : Nat} {w w' : World} {b b' : Book} (h : Traced ch n w b) (h' : Traced ch n' w' b')
    (hs : SameMarket traders w w') : Alike traders (refOf w b) (refOf w' b') := by
  obtain ⟨ob, hob, -⟩ := h.rel.ptr
  obtain ⟨ob', hob', -⟩ := h'.rel.ptr
  have hb := hs.book
  rw [answer_orderbookState hob, answer_orderbookState hob'] at hb
  simp only [Option.some.injEq, Answer.book.injEq] at hb
  subst hb
  refine ⟨?_, ?_, ?_, hs.active, fun t d => ?_, hs.balances⟩
  · simp [refS, hob, hob']
  · simp [refS, hob, hob']
  · simp [refS, hob, hob']
  · exact (C26_tick_liquidity h t d).2.symm.trans ((hs.depth t d).trans (C26_tick_liquidity h' t d).2)

theorem alike_back {n n' : Nat} {w w' : World} {b b' : Book} (h : Traced ch n w b) (h' : Traced ch n' w' b')
    (hs : Alike traders (refOf w b) (refOf w' b')) : SameMarket traders w w' := by
  obtain ⟨ob, hob, -⟩ := h.rel.ptr
  obtain ⟨ob', hob', -⟩ := h'.rel.ptr
  have hc := current_zero h hob
  have hc' := current_zero h' hob'
  refine ⟨?_, hs.active, fun t d => ?_, hs.balances⟩
  · have h1 := hs.quote
    have h2 := hs.base
    have h3 := congrFun hs.best .bid
    have h4 := congrFun hs.best .ask
    simp only [refS, hob, hob', Option.map_some, Option.getD_some] at h1 h2 h3 h4
    rw [answer_orderbookState hob, answer_orderbookState hob']
    obtain ⟨q1, q2, q3, q4, q5⟩ := ob
    obtain ⟨p1, p2, p3, p4, p5⟩ := ob'
    simp only at h1 h2 h3 h4 hc hc'
    subst h1 h2 h3 h4 hc hc'
    rfl
  · exact (C26_tick_liquidity h t d).2.trans ((hs.depth t d).trans (C26_tick_liquidity h' t d).2.symm)

theorem payOut_alike (src : Addr) (ms : List SendMsg) {k k' : Bank} (h : ∀ a d, traders a → k a d = k' a d) :
    ∀ a d, traders a → payOut src k ms a d = payOut src k' ms a d := by
  induction ms generalizing k k' with
  | nil => exact h
  | cons m ms ih =>
    refine ih fun a d ha => ?_
    simp only [pay, h a d ha]

theorem verdict_alike {r r' : Ref} (h : Alike traders r r') {s : SwapReq} (hs : traders s.sender) :
    verdict (r.swapChecks ch s) = verdict (r'.swapChecks ch s) := by
  have hl : ∀ d, r.levels s d = r'.levels s d := fun d => levels_congr rfl fun t => h.depth t d
  have ho : Owns r.bank s.sender [s.tokenIn] = Owns r'.bank s.sender [s.tokenIn] := by
    unfold Owns
    simp only [h.balances _ _ hs]
  unfold Ref.swapChecks
  simp only [h.quote, h.base, h.best, h.active, hl, ho]

/-- One swap on two reference states that look alike. -/
theorem swap_alike {r r' : Ref} (h : Alike traders r r') (hq : ∀ t d, ∀ x ∈ r.queues t d, EntryOk x)
    (hq' : ∀ t d, ∀ x ∈ r'.queues t d, EntryOk x) {s : SwapReq} (hs : traders s.sender) (t t' : Nat) :
    (∃ e, r.step ch (s.op t) = .error e ∧ r'.step ch (s.op t') = .error e) ∨
    ∃ r1 r1' resp, r.step ch (s.op t) = .ok (r1, resp) ∧ r'.step ch (s.op t') = .ok (r1', resp) ∧ Alike traders r1 r1' := by
  have hc : ∀ (r : Ref) (t : Nat), r.checks ch (s.op t) = r.swapChecks ch s := by
    intro r t
    obtain ⟨a, c, o, m, fee, target⟩ := s
    cases target <;> rfl
  have he : ∀ (r : Ref) (t : Nat), r.effect (s.op t) = r.swapEffect s := by
    intro r t
    obtain ⟨a, c, o, m, fee, target⟩ := s
    cases target <;> rfl
  have hm : ∀ (r : Ref) (t : Nat) ms, r.money ch (s.op t) ms = payOut ch.contract (pay r.bank s.sender ch.contract [s.tokenIn]) ms := by
    intro r t ms
    obtain ⟨a, c, o, m, fee, target⟩ := s
    cases target <;> rfl
  unfold Ref.step
  rw [hc, hc, ← verdict_alike h hs]
  cases verdict (r.swapChecks ch s) with
  | some e => exact .inl ⟨e, rfl, rfl⟩
  | none =>
    refine .inr ?_
    simp only [he, hm]
    have hl : ∀ d, r.levels s d = r'.levels s d := fun d => levels_congr rfl fun t => h.depth t d
    have hpay : ∀ a d, traders a → pay r.bank s.sender ch.contract [s.tokenIn] a d = pay r'.bank s.sender ch.contract [s.tokenIn] a d := by
      intro a d ha
      simp only [pay, h.balances a d ha]
    unfold Ref.swapEffect
    rw [← h.base, ← hl]
    cases matchLevels (s.side r.base) (r.levels s (s.side r.base)) s.tokenIn.amount with
    | none =>
      refine ⟨_, _, _, rfl, rfl, ?_⟩
      exact ⟨h.quote, h.base, h.best, h.active, h.depth, payOut_alike _ _ hpay⟩
    | some y =>
      obtain ⟨F, left, dust⟩ := y
      refine ⟨_, _, _, rfl, rfl, ?_⟩
      refine ⟨h.quote, h.base, ?_, h.active, fun u d => ?_, payOut_alike _ _ hpay⟩
      · simp only [Ref.trade, h.best]
      · simp only [Ref.trade]
        split
        · rw [openTotal_fill (hq u d), openTotal_fill (hq' u d), h.depth]
        · exact h.depth u d

theorem swaps_same {n n' : Nat} {w w' : World} {b b' : Book} (h : Traced ch n w b) (h' : Traced ch n' w' b') (hn : w.HasRoom)
    (hn' : w'.HasRoom) (hs : SameMarket traders w w') (l : List (SwapReq × Nat × Nat)) (hl : ∀ x ∈ l, traders x.1.sender) :
    answers ch w (l.map fun x => x.1.op x.2.1) = answers ch w' (l.map fun x => x.1.op x.2.2) ∧
    SameMarket traders (run ch w (l.map fun x => x.1.op x.2.1)) (run ch w' (l.map fun x => x.1.op x.2.2)) := by
  induction l generalizing n n' w w' b b' with
  | nil => exact ⟨rfl, hs⟩
  | cons x l ih =>
    obtain ⟨r, t, t'⟩ := x
    have hx := hl _ (List.mem_cons_self ..)
    have hl' : ∀ x ∈ l, traders x.1.sender := fun x hx => hl x (List.mem_cons_of_mem _ hx)
    have hok : ∀ {n : Nat} {w : World} {b : Book}, Traced ch n w b → ∀ t d, ∀ x ∈ b t d, EntryOk x := fun h t d => by
      obtain ⟨_, _, hs, -, -⟩ := h.rel.sides t d
      exact hs.ok
    have key := swap_alike (ch := ch) (alike_of h h' hs) (hok h) (hok h') hx t t'
    have e1 := C67_step h hn (r.op t)
    have e2 := C67_step h' hn' (r.op t')
    have hroom : ∀ {w w' : World} {resp : Response} {n : Nat} {b : Book} (t : Nat), Traced ch n w b → w.HasRoom →
        step ch w (r.op t) = .ok (w', resp) → w'.HasRoom := by
      intro w w' resp n b t h hn hs
      have hc := C72_counters (w := w) ⟨_, h.reachable⟩ [r.op t]
      have hrun : run ch w [r.op t] = w' := by
        show apply ch w (r.op t) = w'
        unfold apply; rw [hs]
      have hp : placements ch w [r.op t] = 0 := by
        unfold placements; rw [hs]
        obtain ⟨a, c, o, m, fee, target⟩ := r
        cases target <;> rfl
      have hmn : ∀ u, mentions ch u w [r.op t] = 0 := by
        intro u
        unfold mentions; rw [hs]
        obtain ⟨a, c, o, m, fee, target⟩ := r
        cases target <;> rfl
      rw [hrun, hp] at hc
      refine ⟨by have := hn.1; omega, fun u => ?_⟩
      have h1 := (hc.2 u).2
      rw [hmn u] at h1
      have := hn.2 u
      omega
    simp only [List.map_cons, run_cons]
    unfold answers
    rcases key with ⟨e, k1, k2⟩ | ⟨r1, r1', resp, k1, k2, k3⟩
    · rw [k1] at e1
      rw [k2] at e2
      cases hs1 : step ch w (r.op t) with
      | ok y => rw [hs1] at e1; cases e1
      | error e' =>
        rw [hs1] at e1
        cases hs2 : step ch w' (r.op t') with
        | ok y => rw [hs2] at e2; cases e2
        | error e'' =>
          rw [hs2] at e2
          cases e1
          cases e2
          have a1 : apply ch w (r.op t) = w := by unfold apply; rw [hs1]
          have a2 : apply ch w' (r.op t') = w' := by unfold apply; rw [hs2]
          rw [a1, a2]
          obtain ⟨i1, i2⟩ := ih h h' hn hn' hs hl'
          exact ⟨by simp only [i1], i2⟩
    · rw [k1] at e1
      rw [k2] at e2
      cases hs1 : step ch w (r.op t) with
      | error e' => rw [hs1] at e1; cases e1
      | ok y =>
        obtain ⟨w1, resp1⟩ := y
        rw [hs1] at e1
        cases hs2 : step ch w' (r.op t') with
        | error e'' => rw [hs2] at e2; cases e2
        | ok y =>
          obtain ⟨w2, resp2⟩ := y
          rw [hs2] at e2
          simp only [Except.ok.injEq, Prod.mk.injEq] at e1 e2
          obtain ⟨p1, rfl⟩ := e1
          obtain ⟨p2, rfl⟩ := e2
          subst p1 p2
          have a1 : apply ch w (r.op t) = w1 := by unfold apply; rw [hs1]
          have a2 : apply ch w' (r.op t') = w2 := by unfold apply; rw [hs2]
          rw [a1, a2]
          obtain ⟨i1, i2⟩ := ih (Traced.ok h hs1) (Traced.ok h' hs2) (hroom t h hn hs1) (hroom t' h' hn' hs2)
            (alike_back (Traced.ok h hs1) (Traced.ok h' hs2) k3) hl'
          exact ⟨by simp only [i1], i2⟩

end Sym

/-- C79: a trader needs to know the price levels only. Take two books, reached by any two histories, that show the same pair, best ticks,
activity and liquidity per tick, and traders who own the same in both. Whatever swaps these traders send (at whatever times), every one gets
the same answer - output, refund, event, error - in both, and afterwards the two still look the same: it does not matter whose orders stand behind a
level, how many they are, or what was filled, cancelled and claimed before. -/
theorem C79_depth {ch : Chain} {traders : Addr → Prop} {w0 w1 : World} (hi : Initial ch w0) (hi' : Initial ch w1) {ops ops' : List Op}
    (hn : ops.length < 10 ^ 16) (hn' : ops'.length < 10 ^ 16)
    (hs : SameMarket traders (run ch w0 ops) (run ch w1 ops')) (l : List (SwapReq × Nat × Nat)) (hl : ∀ x ∈ l, traders x.1.sender) :
    answers ch (run ch w0 ops) (l.map fun x => x.1.op x.2.1) = answers ch (run ch w1 ops') (l.map fun x => x.1.op x.2.2) ∧
    SameMarket traders (run ch (run ch w0 ops) (l.map fun x => x.1.op x.2.1)) (run ch (run ch w1 ops') (l.map fun x => x.1.op x.2.2)) := by
  have hr := (C72_room hi ops).2.1 hn
  have hr' := (C72_room hi' ops').2.1 hn'
  obtain ⟨-, b, h, -⟩ := ref_run (Traced.init hi) hr
  obtain ⟨-, b', h', -⟩ := ref_run (Traced.init hi') hr'
  exact swaps_same h h' hr hr' hs l hl

/-! ### Non-vacuity -/

/-- Set all block times of the demo to 0: the same answers; order 3 shows another date. -/
example : let ops := Demo.longer
    let ops' := Demo.longer.map timeless
    ops.map timeless = ops'.map timeless ∧ ops ≠ ops' ∧
    (answer (run Demo.ch Demo.w0 ops).store (.ordersByOwner "dave" none none none)) ≠
      (answer (run Demo.ch Demo.w0 ops').store (.ordersByOwner "dave" none none none)) ∧
    answers Demo.ch Demo.w0 ops = answers Demo.ch Demo.w0 ops' := by
  have hm : Demo.longer.map timeless = (Demo.longer.map timeless).map timeless := by decide +kernel
  exact ⟨hm, by decide +kernel, by decide +kernel, (C77_block_time Demo.initial hm (by decide +kernel)).1⟩

namespace Demo

/-- Swap the names "alice" and "bob", and the denoms "q" and "atom". -/
def swapped : Renaming := ⟨Equiv.swap "alice" "bob", Equiv.swap "q" "atom", fun t => t + 5⟩

theorem swapped_ok : swapped.Ok ch := by
  refine ⟨by decide +kernel, fun a => ?_, by decide +kernel, by decide +kernel, by decide +kernel, by decide +kernel⟩
  show decide (Equiv.swap "alice" "bob" a ≠ "") = decide (a ≠ "")
  have h0 : Equiv.swap "alice" "bob" "" = "" := by decide +kernel
  have : (Equiv.swap "alice" "bob" a ≠ "") = (a ≠ "") := by
    conv_lhs => rw [← h0]
    rw [ne_eq, ne_eq, (Equiv.swap "alice" "bob").injective.eq_iff]
  simp only [this]

/-- A book for the pair ("atom", "b"). -/
def atom0 : World :=
  match instantiate (ch.env 0) (fun _ => 1) "atom" "b" Store.empty with
  | .ok _ s => ⟨s, bank0⟩
  | .err _ s => ⟨s, bank0⟩

theorem atom_initial : Initial ch atom0 :=
  ⟨0, fun _ => 1, "atom", "b", { events := [.method "instantiate" [("quote_denom", .str "atom"), ("base_denom", .str "b")]] }, rfl⟩

theorem swapped_bank : atom0.bank = swapped.bank w0.bank := by
  funext a d
  show bank0 a d = bank0 (swapped.acct.symm a) (swapped.coin.symm d)
  have : ((Equiv.swap "alice" "bob").symm a = "orderbook") ↔ a = "orderbook" := by
    rw [Equiv.symm_apply_eq]
    have : Equiv.swap "alice" "bob" "orderbook" = "orderbook" := by decide +kernel
    rw [this]
  unfold bank0 swapped
  simp only [this]

end Demo

/-- C78 applied: in the renamed history, bob gets alice's refund in atoms. -/
example : (answers Demo.ch Demo.atom0 (Demo.longer.map Demo.swapped.op)) = (answers Demo.ch Demo.w0 Demo.longer).map Demo.swapped.result ∧
    ((answers Demo.ch Demo.w0 Demo.longer).map fun r => match r with | .ok r => r.msgs | .error _ => []).getD 7 [] =
      [⟨"alice", ⟨"q", 100000⟩, 1⟩] ∧
    ((answers Demo.ch Demo.atom0 (Demo.longer.map Demo.swapped.op)).map fun r => match r with | .ok r => r.msgs | .error _ => []).getD 7 [] =
      [⟨"bob", ⟨"atom", 100000⟩, 1⟩] :=
  ⟨(C78_renaming Demo.swapped_ok Demo.initial Demo.atom_initial (quote := "q") (base := "b") rfl rfl Demo.swapped_bank Demo.longer
    (by decide +kernel)).1, by decide +kernel, by decide +kernel⟩

/-- Somebody who sends nothing and gets nothing keeps what he has. -/
theorem Demo.idle {a : Addr} (ha : a ≠ ch.contract) (ops : List Op) (w : World)
    (h1 : (ops.all fun op => match op with | .execute s _ _ _ => decide (s ≠ a) | _ => false) = true)
    (h2 : ((answers ch w ops).all fun r => match r with | .ok r => r.msgs.all (fun m => decide (m.to ≠ a)) | .error _ => true) = true)
    (d : Denom) : (run ch w ops).bank a d = w.bank a d := by
  induction ops generalizing w with
  | nil => rfl
  | cons op ops ih =>
    rw [run_cons]
    simp only [List.all_cons, Bool.and_eq_true] at h1
    unfold answers at h2
    unfold apply
    cases hs : step ch w op with
    | error e =>
      rw [hs] at h2
      exact ih w h1.2 (by simpa using h2)
    | ok x =>
      obtain ⟨w', resp⟩ := x
      rw [hs] at h2
      simp only [List.all_cons, Bool.and_eq_true] at h2
      show (run ch w' ops).bank a d = _
      rw [ih w' h1.2 h2.2]
      cases op with
      | execute s f t m =>
        have hsa : s ≠ a := by simpa using h1.1
        have := C63_balances (by simp) hs a d
        simp only [paysIn, getsPaid, payment, if_neg ha, if_neg (Ne.symm hsa)] at this
        have hz : received a d resp.msgs = 0 := by
          unfold received
          have hm := List.all_eq_true.1 h2.1
          rw [List.sum_eq_zero]
          intro y hy
          rw [List.mem_map] at hy
          obtain ⟨m, hm', rfl⟩ := hy
          have := of_decide_eq_true (hm m hm')
          rw [if_neg fun hh => this hh.1]
        omega
      | _ => simp at h1

/-- C79 applied: 300 at tick 0 from one order of alice, or from two orders of carol and dave and a cancelled one of erin. The traders are frank and zed. -/
theorem Demo.same : let ops := [Demo.place "alice" 0 .bid 300 none]
    let ops' := [Demo.place "carol" 0 .bid 100 none, Demo.place "erin" 0 .bid 70 none, Demo.place "dave" 0 .bid 200 (some 5), Demo.cancel "erin" 0 1]
    SameMarket (fun a => a = "frank" ∨ a = "zed") (run Demo.ch Demo.w0 ops) (run Demo.ch Demo.w0 ops') := by
  intro ops ops'
  refine ⟨by decide +kernel, by decide +kernel, fun t d => ?_, ?_⟩
  · by_cases ht : t = 0
    · subst ht; cases d <;> decide +kernel
    · have h1 : ((run Demo.ch Demo.w0 ops).store.ticks.get? t) = none := by
        have hk : (run Demo.ch Demo.w0 ops).store.ticks.map Prod.fst = [0] := by decide +kernel
        generalize (run Demo.ch Demo.w0 ops).store.ticks = m at hk ⊢
        match m, hk with
        | [(k, v)], hk => cases hk; simp [SMap.get?, ht]
      have h2 : ((run Demo.ch Demo.w0 ops').store.ticks.get? t) = none := by
        have hk : (run Demo.ch Demo.w0 ops').store.ticks.map Prod.fst = [0] := by decide +kernel
        generalize (run Demo.ch Demo.w0 ops').store.ticks = m at hk ⊢
        match m, hk with
        | [(k, v)], hk => cases hk; simp [SMap.get?, ht]
      unfold tickLiquidity
      rw [h1, h2]
  · intro a d ha
    rcases ha with rfl | rfl
    all_goals
      refine (Demo.idle (by decide +kernel) ops _ (by decide +kernel) (by decide +kernel) d).trans ?_
      exact (Demo.idle (by decide +kernel) ops' _ (by decide +kernel) (by decide +kernel) d).symm

/-- Two sales, of which the second finds too little: the same in both books. -/
example : let l : List (SwapReq × Nat × Nat) := [(⟨"frank", ⟨"b", 120⟩, "q", 1, 0, none⟩, 3, 4), (⟨"zed", ⟨"b", 200⟩, "q", 1, 0, none⟩, 5, 6)]
    let w := run Demo.ch Demo.w0 [Demo.place "alice" 0 .bid 300 none]
    let w' := run Demo.ch Demo.w0 [Demo.place "carol" 0 .bid 100 none, Demo.place "erin" 0 .bid 70 none, Demo.place "dave" 0 .bid 200 (some 5),
      Demo.cancel "erin" 0 1]
    answers Demo.ch w (l.map fun x => x.1.op x.2.1) = answers Demo.ch w' (l.map fun x => x.1.op x.2.2) ∧
    ((answers Demo.ch w (l.map fun x => x.1.op x.2.1)).map fun r => match r with | .ok r => (r.data, none) | .error e => (none, some e)) =
      [(some 120, none), (none, some .insufficientLiquidity)] := by
  intro l w w'
  exact ⟨(C79_depth Demo.initial Demo.initial (by decide +kernel) (by decide +kernel) Demo.same l (by decide +kernel)).1, by decide +kernel⟩

end OB
