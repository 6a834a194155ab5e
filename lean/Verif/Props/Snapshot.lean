import Verif.Proofs.Snapshot
import Verif.Props.Room
import Verif.Props.Flow
/-
C102: what the queries show decides the future. Two books of which the queries show the same (whatever happened before, in particular
however the sums of cancelled orders are stored) answer every other query alike; and if they also agree on the next order id, on the
recipient of the fee and on the balances, every history of operations is answered alike, for ever.
-/
namespace OB
open Spec

theorem traced_marks {ch : Chain} {n : Nat} {w : World} {b : Book} (h : Traced ch n w b) : ∃ m, MarksRel w.store m := by
  induction h with
  | init hi => exact ⟨_, initial_marks hi⟩
  | @ok n w b op w' resp h hs ih =>
    obtain ⟨m, hm⟩ := ih
    exact ⟨_, marks_step (h.step hs) h.rel hm w.bank⟩
  | failed _ _ ih => exact ih

/-- A snapshot contains the ticks ... -/
theorem Spec.SameSnapshot.same_ticks {s s' : Store} (h : SameSnapshot s s') : s.ticks = s'.ticks := by
  have := h.ticks
  rw [answer_allTicks, answer_allTicks] at this
  have := Answer.ticks.inj (Option.some.inj this)
  have e : ∀ s : Store, OB.allTicks s none none none = s.ticks := by
    intro s
    unfold OB.allTicks
    simp only [inBounds]
    exact List.filter_eq_self.2 fun _ _ => rfl
  rwa [e, e] at this

/-- ... the live orders ... -/
theorem same_listed {ch ch' : Chain} {n n' : Nat} {w w' : World} {b b' : Book} (h : Traced ch n w b) (h' : Traced ch' n' w' b')
    (hs : SameSnapshot w.store w'.store) (o : LimitOrder) : Listed b o ↔ Listed b' o := by
  have key : ∀ {ch : Chain} {n : Nat} {w : World} {b : Book}, Traced ch n w b → ∃ k l, answer w.store (.ordersByTick o.tickId none none none) = some (.orders k l) ∧
      (o ∈ l ↔ Listed b o) := by
    intro ch n w b h
    obtain ⟨all, h1, h2⟩ := C40_orders_by_tick h o.tickId
    refine ⟨_, _, h2 none none none, ?_⟩
    have e : (all.filter (withinIds none none)) = all := List.filter_eq_self.2 fun _ _ => rfl
    simp only [Option.map_none, Option.getD_none, List.take_length, e]
    rw [h1.2]
    simp
  obtain ⟨k, l, e1, e2⟩ := key h
  obtain ⟨k', l', e1', e2'⟩ := key h'
  have := hs.orders o.tickId
  rw [e1, e1'] at this
  obtain ⟨-, rfl⟩ := Answer.orders.inj (Option.some.inj this)
  rw [← e2, ← e2']

/-- ... and everything else, except the two hidden values. -/
theorem same_ref {ch ch' : Chain} {n n' : Nat} {w w' : World} {b b' : Book} (h : Traced ch n w b) (h' : Traced ch' n' w' b')
    (hs : SameSnapshot w.store w'.store) :
    refOf w' b' = { (refOf w b).swapQ b' with
      nextId := w'.store.orderId.getD 0, conf := { (refOf w b).conf with recipient := w'.store.makerFeeRecipient }, bank := w'.bank } := by
  obtain ⟨ob, hob, -⟩ := h.rel.ptr
  obtain ⟨ob', hob', -⟩ := h'.rel.ptr
  have e1 := hs.book
  rw [answer_orderbookState hob, answer_orderbookState hob'] at e1
  obtain rfl := Answer.book.inj (Option.some.inj e1)
  have e2 : isActive w.store = isActive w'.store := Answer.bool.inj (Option.some.inj hs.active)
  have e3 : getMakerFee w.store = getMakerFee w'.store := Answer.decimal.inj (Option.some.inj hs.fee)
  have e4 : ∀ a, authQuery w.store a = authQuery w'.store a := fun a => Answer.addr.inj (Option.some.inj (hs.auth a))
  simp only [refOf, refS, Ref.swapQ, roles, hob, hob', e2, e3, e4]

theorem same_marks {s s' : Store} (hs : SameSnapshot s s') {m : Marks} (hm : MarksRel s m) : MarksRel s' m := by
  intro t d
  have hv : tv s' t d = tv s t d := by unfold tv; rw [hs.same_ticks]
  rw [hv]
  exact hm t d

/-- C102 (queries): the snapshot contains everything that any query shows: two reachable books with the same snapshot answer every
query alike, whatever their histories. -/
theorem C102_queries {ch ch' : Chain} {w w' : World} (h : Reachable ch w) (h' : Reachable ch' w') (hs : SameSnapshot w.store w'.store)
    (q : QueryMsg) (hf : QueryFits q) : answer w.store q = answer w'.store q := by
  obtain ⟨n, hr⟩ := h
  obtain ⟨b, hb⟩ := hr.traced
  obtain ⟨n', hr'⟩ := h'
  obtain ⟨b', hb'⟩ := hr'.traced
  obtain ⟨m, hm⟩ := traced_marks hb
  have ha := alike_of hb.rel hb'.rel hs.same_ticks (same_listed hb hb' hs)
  rw [ref_answer hb hm q hf, ref_answer hb' (same_marks hs hm) q hf, same_ref hb hb' hs, answer_hidden]
  exact (alike_answer (r := refOf w b) hb.rel.qok hb'.rel.qok ha m q).symm

theorem alike_run {ch : Chain} {ops : List Op} {n n' : Nat} {w w' : World} {b b' : Book} {m : Marks} (h : Traced ch n w b)
    (h' : Traced ch n' w' b') (hm : MarksRel w.store m) (hm' : MarksRel w'.store m) (he : refOf w' b' = (refOf w b).swapQ b')
    (ha : BookAlike b b') (hn : (run ch w ops).HasRoom) (hn' : (run ch w' ops).HasRoom) :
    answers ch w ops = answers ch w' ops ∧ ∃ n1 n1' b1 b1' m1, Traced ch n1 (run ch w ops) b1 ∧ Traced ch n1' (run ch w' ops) b1' ∧
      MarksRel (run ch w ops).store m1 ∧ MarksRel (run ch w' ops).store m1 ∧
      refOf (run ch w' ops) b1' = (refOf (run ch w ops) b1).swapQ b1' ∧ BookAlike b1 b1' := by
  induction ops generalizing n n' w w' b b' m with
  | nil => exact ⟨rfl, n, n', b, b', m, h, h', hm, hm', he, ha⟩
  | cons op ops ih =>
    have hst := C67_step h (run_room_back h hn) op
    have hst' := C67_step h' (run_room_back h' hn') op
    obtain ⟨k1, k2⟩ := alike_step (r := refOf w b) h.rel.qok h'.rel.qok ha m ch op
    rw [he] at hst'
    rw [run_cons] at hn ⊢
    rw [run_cons] at hn' ⊢
    unfold answers
    cases hs : step ch w op with
    | error e =>
      rw [hs] at hst
      have hx := k1 e hst
      rw [hst'] at hx
      cases hs' : step ch w' op with
      | ok x => rw [hs'] at hx; cases hx
      | error e' =>
        rw [hs'] at hx
        obtain rfl : e' = e := Except.error.inj hx
        have a1 : apply ch w op = w := by unfold apply; rw [hs]
        have a2 : apply ch w' op = w' := by unfold apply; rw [hs']
        rw [a1] at hn ⊢
        rw [a2] at hn' ⊢
        obtain ⟨i1, i2⟩ := ih (Traced.failed h hs) (Traced.failed h' hs') hm hm' he ha hn hn'
        exact ⟨by simp only [i1], i2⟩
    | ok x =>
      obtain ⟨w1, resp⟩ := x
      rw [hs] at hst
      obtain ⟨b1, g1, g2, g3⟩ := k2 _ _ hst
      rw [hst'] at g1
      cases hs' : step ch w' op with
      | error e => rw [hs'] at g1; cases g1
      | ok x' =>
        obtain ⟨w1', resp'⟩ := x'
        rw [hs'] at g1
        obtain ⟨g4, rfl⟩ := Prod.mk.inj (Except.ok.inj g1)
        have a1 : apply ch w op = w1 := by unfold apply; rw [hs]
        have a2 : apply ch w' op = w1' := by unfold apply; rw [hs']
        rw [a1] at hn ⊢
        rw [a2] at hn' ⊢
        have hb1 : b'.observe op w'.store w1'.store resp' = b1 := congrArg Ref.queues g4
        have m1 := marks_step (h.step hs) h.rel hm w.bank
        have m2 := marks_step (h'.step hs') h'.rel hm' w'.bank
        have e2 : (refS w'.store b' w'.bank).marksAfter m op = (refS w.store b w.bank).marksAfter m op := by
          rw [← g3]; exact congrArg (fun r => Ref.marksAfter r m op) he
        rw [e2] at m2
        have t1 := Traced.ok h hs
        have t2 := Traced.ok h' hs'
        rw [hb1] at t2 g4
        obtain ⟨i1, i2⟩ := ih t1 t2 m1 m2 g4 g2 hn hn'
        exact ⟨by simp only [i1], i2⟩

/-- C102: what the queries show decides the future. Two reachable books of which the queries show the same, with the same next order id,
the same recipient of the fee and the same balances, answer every operation of every history alike, end with the same balances, and
answer every query alike in the end. -/
theorem C102_future {ch : Chain} {w w' : World} (h : Reachable ch w) (h' : Reachable ch w') (hs : SameSnapshot w.store w'.store)
    (hh : SameHidden w.store w'.store) (hb : w.bank = w'.bank) (ops : List Op) (hn : (run ch w ops).HasRoom)
    (hn' : (run ch w' ops).HasRoom) :
    answers ch w ops = answers ch w' ops ∧ (run ch w ops).bank = (run ch w' ops).bank ∧
    SameHidden (run ch w ops).store (run ch w' ops).store ∧
    ∀ q, QueryFits q → answer (run ch w ops).store q = answer (run ch w' ops).store q := by
  obtain ⟨n, hr⟩ := h
  obtain ⟨b, t⟩ := hr.traced
  obtain ⟨n', hr'⟩ := h'
  obtain ⟨b', t'⟩ := hr'.traced
  obtain ⟨m, hm⟩ := traced_marks t
  have ha := alike_of t.rel t'.rel hs.same_ticks (same_listed t t' hs)
  have he : refOf w' b' = (refOf w b).swapQ b' := by
    rw [same_ref t t' hs, ← hh.nextId, ← hh.recipient, ← hb]
    rfl
  obtain ⟨h1, n1, n1', b1, b1', m1, t1, t1', k1, k1', e1, a1⟩ := alike_run t t' hm (same_marks hs hm) he ha hn hn'
  refine ⟨h1, (congrArg Ref.bank e1).symm, ⟨(congrArg Ref.nextId e1).symm, (congrArg (fun r => r.conf.recipient) e1).symm⟩, fun q hf => ?_⟩
  rw [ref_answer t1 k1 q hf, ref_answer t1' k1' q hf, e1]
  exact (alike_answer (r := refOf (run ch w ops) b1) t1.rel.qok t1'.rel.qok a1 m1 q).symm

/-! ### Non-vacuity -/

namespace Demo

/-- The transfers of an accepted operation: from, to, coin. -/
def movesOf (ch : Chain) (op : Op) (resp : Response) : List (Addr × Addr × Coin) :=
  (match payment ch op with | some (src, dst, cs) => cs.map fun c => (src, dst, c) | none => []) ++
    resp.msgs.map fun m => (ch.contract, m.to, m.coin)

/-- The transfers of a history. -/
def moves (ch : Chain) : World → List Op → List (Addr × Addr × Coin)
  | _, [] => []
  | w, op :: ops =>
    match step ch w op with
    | .ok (w', resp) => movesOf ch op resp ++ moves ch w' ops
    | .error _ => moves ch w ops

def outs (l : List (Addr × Addr × Coin)) (a : Addr) (d : Denom) : Nat := (l.map fun m => if a = m.1 ∧ m.2.2.denom = d then m.2.2.amount else 0).sum
def ins (l : List (Addr × Addr × Coin)) (a : Addr) (d : Denom) : Nat := (l.map fun m => if a = m.2.1 ∧ m.2.2.denom = d then m.2.2.amount else 0).sum

theorem outs_append (l l' : List (Addr × Addr × Coin)) (a : Addr) (d : Denom) : outs (l ++ l') a d = outs l a d + outs l' a d := by
  simp [outs]
theorem ins_append (l l' : List (Addr × Addr × Coin)) (a : Addr) (d : Denom) : ins (l ++ l') a d = ins l a d + ins l' a d := by
  simp [ins]

theorem outs_pay (src dst a : Addr) (d : Denom) (cs : List Coin) :
    outs (cs.map fun c => (src, dst, c)) a d = if a = src then amountOf d cs else 0 := by
  induction cs with
  | nil => simp [outs, amountOf]
  | cons c cs ih =>
    unfold outs amountOf at *
    simp only [List.map_cons, List.sum_cons, ih]
    by_cases h : a = src <;> simp [h]
theorem ins_pay (src dst a : Addr) (d : Denom) (cs : List Coin) :
    ins (cs.map fun c => (src, dst, c)) a d = if a = dst then amountOf d cs else 0 := by
  induction cs with
  | nil => simp [ins, amountOf]
  | cons c cs ih =>
    unfold ins amountOf at *
    simp only [List.map_cons, List.sum_cons, ih]
    by_cases h : a = dst <;> simp [h]
theorem outs_msgs (k a : Addr) (d : Denom) (ms : List SendMsg) :
    outs (ms.map fun m => (k, m.to, m.coin)) a d = if a = k then spent d ms else 0 := by
  induction ms with
  | nil => simp [outs, spent]
  | cons c cs ih =>
    unfold outs spent at *
    simp only [List.map_cons, List.sum_cons, ih]
    by_cases h : a = k <;> simp [h]
theorem ins_msgs (k a : Addr) (d : Denom) (ms : List SendMsg) : ins (ms.map fun m => (k, m.to, m.coin)) a d = received a d ms := by
  unfold ins received
  rw [List.map_map]
  congr 1
  refine List.map_congr_left fun m _ => ?_
  simp only [Function.comp, eq_comm]

theorem moves_flow {ch : Chain} {ops : List Op} (hops : ∀ op ∈ ops, ∀ dst c, op ≠ .mint dst c) (w : World) (a : Addr) (d : Denom) :
    (run ch w ops).bank a d + outs (moves ch w ops) a d = w.bank a d + ins (moves ch w ops) a d := by
  induction ops generalizing w with
  | nil => rfl
  | cons op ops ih =>
    have ih := ih fun o ho => hops o (by simp [ho])
    rw [run_cons]
    unfold moves
    cases hs : step ch w op with
    | error e =>
      have ha : apply ch w op = w := by unfold apply; rw [hs]
      rw [ha]
      exact ih w
    | ok x =>
      obtain ⟨w', resp⟩ := x
      have ha : apply ch w op = w' := by unfold apply; rw [hs]
      rw [ha]
      simp only
      have h1 := ih w'
      have h2 := C63_balances (hops op (by simp)) hs a d
      have e1 : outs (movesOf ch op resp) a d = paysIn ch op a d + (if a = ch.contract then spent d resp.msgs else 0) := by
        unfold movesOf paysIn
        rw [outs_append, outs_msgs]
        cases payment ch op with
        | none => rfl
        | some y => obtain ⟨src, dst, cs⟩ := y; simp only; rw [outs_pay]
      have e2 : ins (movesOf ch op resp) a d = getsPaid ch op a d + received a d resp.msgs := by
        unfold movesOf getsPaid
        rw [ins_append, ins_msgs]
        cases payment ch op with
        | none => rfl
        | some y => obtain ⟨src, dst, cs⟩ := y; simp only; rw [ins_pay]
      rw [outs_append, ins_append, e1, e2]
      omega

theorem same_bank {ch : Chain} {w : World} {ops ops' : List Op} {l l' : List (Addr × Addr × Coin)} (hops : ∀ op ∈ ops, ∀ dst c, op ≠ .mint dst c)
    (hops' : ∀ op ∈ ops', ∀ dst c, op ≠ .mint dst c) (h1 : moves ch w ops = l) (h2 : moves ch w ops' = l')
    (h : ∀ a d, outs l a d + ins l' a d = outs l' a d + ins l a d) : (run ch w ops).bank = (run ch w ops').bank := by
  funext a d
  have g1 := moves_flow (ch := ch) hops w a d
  have g2 := moves_flow (ch := ch) hops' w a d
  have g3 := h a d
  rw [h1] at g1
  rw [h2] at g2
  omega

/-- Alice places 4 and 6 at tick 0 and cancels both, ahead of 7 of Bob, of which 3 get sold. -/
def fourSix : List Op :=
  [place "alice" 0 .bid 4 none, place "alice" 0 .bid 6 none, place "bob" 0 .bid 7 none, cancel "alice" 0 0, cancel "alice" 0 1, sell "frank" 3 1]
/-- The same with 5 and 5, cancelled in the other order. -/
def fiveFive : List Op :=
  [place "alice" 0 .bid 5 none, place "alice" 0 .bid 5 none, place "bob" 0 .bid 7 none, cancel "alice" 0 1, cancel "alice" 0 0, sell "frank" 3 1]

/-- Everything but the orders of a snapshot is decided by evaluation. -/
theorem snapshot_of {s s' : Store} (h1 : answer s .orderbookState = answer s' .orderbookState) (h2 : answer s .isActive = answer s' .isActive)
    (h3 : answer s .getMakerFee = answer s' .getMakerFee)
    (h4 : ([.admin, .adminOffer, .moderator, .moderatorOffer] : List AuthQueryMsg).map (fun a => answer s (.auth a)) =
      ([.admin, .adminOffer, .moderator, .moderatorOffer] : List AuthQueryMsg).map fun a => answer s' (.auth a))
    (h5 : answer s (.allTicks none none none) = answer s' (.allTicks none none none)) (h6 : s.orders = s'.orders) : SameSnapshot s s' := by
  simp only [List.map_cons, List.map_nil, List.cons.injEq] at h4
  obtain ⟨a1, a2, a3, a4, -⟩ := h4
  refine ⟨h1, h2, h3, fun a => ?_, h5, fun t => ?_⟩
  · cases a
    · exact a1
    · exact a2
    · exact a3
    · exact a4
  · rw [answer_ordersByTick, answer_ordersByTick]
    unfold OB.ordersByTick
    rw [h6]

theorem reach (ops : List Op) : Reachable ch (run ch w0 ops) := ⟨_, w0, ops, initial, rfl, rfl⟩

theorem noMint {ops : List Op} (h : (ops.all fun op => match op with | .mint .. => false | _ => true) = true) :
    ∀ op ∈ ops, ∀ dst c, op ≠ .mint dst c := by
  intro op ho dst c he
  subst he
  have := List.all_eq_true.1 h _ ho
  cases this

theorem twins : SameSnapshot (run ch w0 fourSix).store (run ch w0 fiveFive).store :=
  snapshot_of (by decide +kernel) (by decide +kernel) (by decide +kernel) (by decide +kernel) (by decide +kernel) (by decide +kernel)

theorem twins_bank : (run ch w0 fourSix).bank = (run ch w0 fiveFive).bank := by
  refine same_bank (l := [("alice", "orderbook", ⟨"q", 4⟩), ("alice", "orderbook", ⟨"q", 6⟩), ("bob", "orderbook", ⟨"q", 7⟩),
      ("orderbook", "alice", ⟨"q", 4⟩), ("orderbook", "alice", ⟨"q", 6⟩), ("frank", "orderbook", ⟨"b", 3⟩), ("orderbook", "frank", ⟨"q", 3⟩)])
    (l' := [("alice", "orderbook", ⟨"q", 5⟩), ("alice", "orderbook", ⟨"q", 5⟩), ("bob", "orderbook", ⟨"q", 7⟩),
      ("orderbook", "alice", ⟨"q", 5⟩), ("orderbook", "alice", ⟨"q", 5⟩), ("frank", "orderbook", ⟨"b", 3⟩), ("orderbook", "frank", ⟨"q", 3⟩)])
    (noMint (by decide +kernel)) (noMint (by decide +kernel)) (by decide +kernel) (by decide +kernel) fun a d => ?_
  simp only [outs, ins, List.map_cons, List.map_nil, List.sum_cons, List.sum_nil]
  split_ifs <;> rfl

end Demo

/-- The two histories leave different trees of cancelled orders behind ... -/
example : ((run Demo.ch Demo.w0 Demo.fourSix).store.trees.nodes 0 2).map (fun n => n.ntype) ≠
    ((run Demo.ch Demo.w0 Demo.fiveFive).store.trees.nodes 0 2).map fun n => n.ntype := by decide +kernel

/-- ... but nobody can ever tell: the hypotheses are met for every continuation that leaves room. -/
example (ops : List Op) (hn : (run Demo.ch (run Demo.ch Demo.w0 Demo.fourSix) ops).HasRoom)
    (hn' : (run Demo.ch (run Demo.ch Demo.w0 Demo.fiveFive) ops).HasRoom) :
    answers Demo.ch (run Demo.ch Demo.w0 Demo.fourSix) ops = answers Demo.ch (run Demo.ch Demo.w0 Demo.fiveFive) ops :=
  (C102_future (Demo.reach _) (Demo.reach _) Demo.twins ⟨by decide +kernel, by decide +kernel⟩ Demo.twins_bank ops hn hn').1

/-! ### The hidden values matter -/

namespace Demo

/-- Ten in one order, or five and five: afterwards all queries are answered alike, only the next order id differs. -/
def ten : List Op := [place "alice" 0 .bid 10 none, cancel "alice" 0 0]
def five : List Op := [place "alice" 0 .bid 5 none, place "alice" 0 .bid 5 none, cancel "alice" 0 0, cancel "alice" 0 1]

/-- The fee goes to one account or to another. -/
def payee (a : Addr) : List Op :=
  [.execute gov [] 1 (.auth (.setMakerFee (2 * 10 ^ 16))), .execute gov [] 1 (.auth (.setMakerFeeRecipient a)),
   place "alice" 0 .bid 1000 none, sell "frank" 1000 1]

theorem ten_bank : (run ch w0 ten).bank = (run ch w0 five).bank := by
  refine same_bank (l := [("alice", "orderbook", ⟨"q", 10⟩), ("orderbook", "alice", ⟨"q", 10⟩)])
    (l' := [("alice", "orderbook", ⟨"q", 5⟩), ("alice", "orderbook", ⟨"q", 5⟩), ("orderbook", "alice", ⟨"q", 5⟩), ("orderbook", "alice", ⟨"q", 5⟩)])
    (noMint (by decide +kernel)) (noMint (by decide +kernel)) (by decide +kernel) (by decide +kernel) fun a d => ?_
  simp only [outs, ins, List.map_cons, List.map_nil, List.sum_cons, List.sum_nil]
  split_ifs <;> rfl

theorem payee_bank : (run ch w0 (payee "x")).bank = (run ch w0 (payee "y")).bank := by
  refine same_bank (l := [("alice", "orderbook", ⟨"q", 1000⟩), ("frank", "orderbook", ⟨"b", 1000⟩), ("orderbook", "frank", ⟨"q", 1000⟩)])
    (l' := [("alice", "orderbook", ⟨"q", 1000⟩), ("frank", "orderbook", ⟨"b", 1000⟩), ("orderbook", "frank", ⟨"q", 1000⟩)])
    (noMint (by decide +kernel)) (noMint (by decide +kernel)) (by decide +kernel) (by decide +kernel) fun a d => rfl

end Demo

/-- Whom an accepted response pays, and which order ids it reports. -/
def gist : List (Except Err Response) → List (List Addr × List Nat)
  | [] => []
  | .ok r :: l => (r.msgs.map SendMsg.to, r.events.filterMap fun e => match e with | .placeLimit _ _ id .. => some id | _ => none) :: gist l
  | .error _ :: l => gist l

/-- C102 (the hidden values are really hidden, and really matter): there are reachable worlds with the same snapshot and the same
balances, hence with the same answers to all queries, that agree on the recipient but number the next order differently; and such that agree
on the next id but pay the next maker fee to different accounts. -/
theorem C102_hidden :
    (∃ ch w w', Reachable ch w ∧ Reachable ch w' ∧ SameSnapshot w.store w'.store ∧ w.bank = w'.bank ∧
      w.store.makerFeeRecipient = w'.store.makerFeeRecipient ∧ ∃ op, answers ch w [op] ≠ answers ch w' [op]) ∧
    ∃ ch w w', Reachable ch w ∧ Reachable ch w' ∧ SameSnapshot w.store w'.store ∧ w.bank = w'.bank ∧
      w.store.orderId.getD 0 = w'.store.orderId.getD 0 ∧ ∃ op, answers ch w [op] ≠ answers ch w' [op] := by
  constructor
  · refine ⟨Demo.ch, run Demo.ch Demo.w0 Demo.ten, run Demo.ch Demo.w0 Demo.five, Demo.reach _, Demo.reach _,
      Demo.snapshot_of (by decide +kernel) (by decide +kernel) (by decide +kernel) (by decide +kernel) (by decide +kernel) (by decide +kernel),
      Demo.ten_bank, by decide +kernel, Demo.place "bob" 0 .bid 7 none, fun h => ?_⟩
    have h1 : gist (answers Demo.ch (run Demo.ch Demo.w0 Demo.ten) [Demo.place "bob" 0 .bid 7 none]) = [([], [1])] := by decide +kernel
    have h2 : gist (answers Demo.ch (run Demo.ch Demo.w0 Demo.five) [Demo.place "bob" 0 .bid 7 none]) = [([], [2])] := by decide +kernel
    rw [h, h2] at h1
    revert h1
    decide
  · refine ⟨Demo.ch, run Demo.ch Demo.w0 (Demo.payee "x"), run Demo.ch Demo.w0 (Demo.payee "y"), Demo.reach _, Demo.reach _,
      Demo.snapshot_of (by decide +kernel) (by decide +kernel) (by decide +kernel) (by decide +kernel) (by decide +kernel) (by decide +kernel),
      Demo.payee_bank, by decide +kernel, Demo.claim "alice" 0 0, fun h => ?_⟩
    have h1 : gist (answers Demo.ch (run Demo.ch Demo.w0 (Demo.payee "x")) [Demo.claim "alice" 0 0]) = [(["alice", "x"], [])] := by decide +kernel
    have h2 : gist (answers Demo.ch (run Demo.ch Demo.w0 (Demo.payee "y")) [Demo.claim "alice" 0 0]) = [(["alice", "y"], [])] := by decide +kernel
    rw [h, h2] at h1
    revert h1
    decide

end OB
