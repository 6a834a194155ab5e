import Verif.SpecRef
import Verif.Props.Errors
import Verif.Props.AdminErrors
import Verif.Props.Flow
import Verif.Props.Pointer
import Verif.Props.Claim
import Verif.Props.Engine
/- Lemmas for the refinement theorem: the reference exchange makes the same decisions as the contract. -/
namespace OB
open Spec

/-! ### Checklists -/

theorem verdict_some {l : List (Prop × Err)} {e : Err} : verdict l = some e ↔ Fails l e := by
  induction l with
  | nil => simp [verdict, Fails]
  | cons x l ih =>
    obtain ⟨c, err⟩ := x
    unfold verdict Fails
    by_cases h : c
    · rw [if_pos h, ih]; simp [h]
    · rw [if_neg h]; simp [h, eq_comm]

theorem fails_congr {c c' : Prop} {err e : Err} {rest rest' : List (Prop × Err)} (h : c ↔ c')
    (hr : c → (Fails rest e ↔ Fails rest' e)) : Fails ((c, err) :: rest) e ↔ Fails ((c', err) :: rest') e := by
  unfold Fails
  by_cases hc : c
  · have hc' := h.1 hc
    simp [hc, hc', hr hc]
  · have hc' : ¬ c' := fun x => hc (h.2 x)
    simp [hc, hc']

/-! ### Bank -/

theorem amountOf_cons (d : Denom) (c : Coin) (cs : List Coin) :
    amountOf d (c :: cs) = (if c.denom = d then c.amount else 0) + amountOf d cs := by simp [amountOf]

theorem amountOf_single (d : Denom) (c : Coin) : amountOf d [c] = if c.denom = d then c.amount else 0 := by simp [amountOf]

theorem owns_single {b : Bank} {a : Addr} {c : Coin} : Owns b a [c] ↔ c.amount ≠ 0 ∧ c.amount ≤ b a c.denom := by
  unfold Owns
  constructor
  · rintro ⟨h1, h2⟩
    have := h2 c.denom
    rw [amountOf_single, if_pos rfl] at this
    exact ⟨h1 c (by simp), this⟩
  · rintro ⟨h1, h2⟩
    refine ⟨by simpa using h1, fun d => ?_⟩
    rw [amountOf_single]
    split
    · rename_i h; subst h; exact h2
    · exact Nat.zero_le _

theorem send_pay {b b' : Bank} {src dst : Addr} {c : Coin} (h : b.send src dst c = .ok b') : b' = pay b src dst [c] := by
  funext a d
  have h1 := Bank.send_flow h a d
  obtain ⟨-, h2, -⟩ := Bank.send_eq_ok.1 h
  unfold pay
  rw [amountOf_single]
  by_cases hs : a = src
  · subst hs
    by_cases hd : c.denom = d
    · subst hd
      rw [if_pos rfl, if_pos rfl] at *
      omega
    · rw [if_neg hd] at *
      split_ifs at * <;> omega
  · rw [if_neg hs] at *
    omega

theorem send_ok_iff {b : Bank} {src dst : Addr} {c : Coin} : (∃ b', b.send src dst c = .ok b') ↔ Owns b src [c] := by
  rw [owns_single]
  constructor
  · rintro ⟨b', h⟩
    obtain ⟨h1, h2, -⟩ := Bank.send_eq_ok.1 h
    exact ⟨h1, h2⟩
  · rintro ⟨h1, h2⟩
    exact ⟨_, Bank.send_eq_ok.2 ⟨h1, h2, rfl⟩⟩

theorem sendAll_ok_iff {b : Bank} {src dst : Addr} (hne : src ≠ dst) {cs : List Coin} :
    (∃ b', b.sendAll src dst cs = .ok b') ↔ Owns b src cs := by
  induction cs generalizing b with
  | nil => simp [Bank.sendAll, Owns, amountOf]
  | cons c cs ih =>
    have key : (∃ b', b.sendAll src dst (c :: cs) = .ok b') ↔ ∃ b1, b.send src dst c = .ok b1 ∧ Owns b1 src cs := by
      unfold Bank.sendAll
      constructor
      · rintro ⟨b', h⟩
        rw [Except.bind_eq_ok'] at h
        obtain ⟨b1, h1, h2⟩ := h
        exact ⟨b1, h1, ih.1 ⟨b', h2⟩⟩
      · rintro ⟨b1, h1, h2⟩
        obtain ⟨b', h3⟩ := ih.2 h2
        exact ⟨b', (Except.bind_eq_ok' ..).2 ⟨b1, h1, h3⟩⟩
    rw [key]
    constructor
    · rintro ⟨b1, h1, h2, h3⟩
      have hp := fun d => Bank.send_flow h1 src d
      refine ⟨?_, fun d => ?_⟩
      · intro x hx
        rcases List.mem_cons.1 hx with rfl | hx
        · exact (Bank.send_eq_ok.1 h1).1
        · exact h2 x hx
      · have := hp d
        have h4 := h3 d
        rw [if_pos rfl, if_neg hne] at this
        rw [amountOf_cons]
        omega
    · rintro ⟨h1, h2⟩
      have hd := h2 c.denom
      rw [amountOf_cons, if_pos rfl] at hd
      obtain ⟨b1, h3⟩ := (send_ok_iff (dst := dst)).2 (owns_single (b := b) (a := src) (c := c) |>.2 ⟨h1 c (by simp), by omega⟩)
      refine ⟨b1, h3, fun x hx => h1 x (by simp [hx]), fun d => ?_⟩
      have := Bank.send_flow h3 src d
      have h4 := h2 d
      rw [if_pos rfl, if_neg hne] at this
      rw [amountOf_cons] at h4
      omega

theorem sendAll_pay {b b' : Bank} {src dst : Addr} (hne : src ≠ dst) {cs : List Coin} (h : b.sendAll src dst cs = .ok b') :
    b' = pay b src dst cs := by
  funext a d
  have h1 := Bank.sendAll_flow h a d
  unfold pay
  by_cases hs : a = src
  · subst hs
    have := ((sendAll_ok_iff hne).1 ⟨b', h⟩).2 d
    rw [if_pos rfl, if_neg hne] at *
    omega
  · rw [if_neg hs] at *
    omega

theorem dispatch_payOut {b b' : Bank} {src : Addr} {ms : List SendMsg} (h : b.dispatch src ms = .ok b') : b' = payOut src b ms := by
  induction ms generalizing b with
  | nil => simp [Bank.dispatch] at h; simp [payOut, h]
  | cons m ms ih =>
    unfold Bank.dispatch at h
    split at h
    · rename_i b1 h1
      rw [payOut, ← send_pay h1]
      exact ih h
    · simp at h

/-! ### The reference state of a world -/

/-- The reference state that belongs to a store, its queues and the balances. -/
def refS (s : Store) (b : Book) (bank : Bank) : Ref where
  quote := (s.orderbook.map Orderbook.quoteDenom).getD ""
  base := (s.orderbook.map Orderbook.baseDenom).getD ""
  conf := roles s
  nextId := s.orderId.getD 0
  queues := b
  best := fun d => match d with
    | .bid => (s.orderbook.map Orderbook.nextBidTick).getD 0
    | .ask => (s.orderbook.map Orderbook.nextAskTick).getD 0
  bank := bank

/-- The reference state that belongs to a world and its queues. -/
abbrev refOf (w : World) (b : Book) : Ref := refS w.store b w.bank

theorem refOf_order {s : Store} {k : Bank} {b : Book} (h : Rel s b) {tick : Int} {id : Nat} {d : Dir} {x : Entry} :
    (refS s b k).order tick id = some (d, x) ↔ x ∈ b tick d ∧ x.id = id ∧ x.Live := by
  have hf : ∀ (d : Dir) (x : Entry), ((b tick d).find? fun x => decide (x.id = id ∧ x.Live)) = some x ↔ x ∈ b tick d ∧ x.id = id ∧ x.Live := by
    intro d x
    constructor
    · intro hx
      have h1 := List.mem_of_find?_eq_some hx
      have h2 := List.find?_some hx
      exact ⟨h1, by simpa using h2⟩
    · rintro ⟨h1, h2, h3⟩
      cases hg : (b tick d).find? fun x => decide (x.id = id ∧ x.Live) with
      | none =>
        have := List.find?_eq_none.1 hg x h1
        exact absurd (decide_eq_true ⟨h2, h3⟩) this
      | some y =>
        have h4 := List.mem_of_find?_eq_some hg
        have h5 : y.id = id ∧ y.Live := by simpa using List.find?_some hg
        obtain ⟨p, q, hsp⟩ := List.append_of_mem h1
        rw [(h.same_entry hsp h4 (h5.1.trans h2.symm)).2.2]
  unfold Ref.order
  have e : (refS s b k).queues = b := rfl
  rw [e]
  cases h1 : (b tick .bid).find? fun x => decide (x.id = id ∧ x.Live) with
  | some y =>
    have hy := (hf .bid y).1 h1
    simp only [Option.some.injEq, Prod.mk.injEq]
    constructor
    · rintro ⟨rfl, rfl⟩; exact hy
    · rintro ⟨g1, g2, g3⟩
      obtain ⟨p, q, hsp⟩ := List.append_of_mem hy.1
      obtain ⟨-, g4, g5⟩ := h.same_entry hsp g1 (g2.trans hy.2.1.symm)
      exact ⟨g4.symm, g5.symm⟩
  | none =>
    have hno : ∀ y, ¬ (y ∈ b tick .bid ∧ y.id = id ∧ y.Live) := by
      intro y hy
      have := (hf .bid y).2 hy
      rw [h1] at this; cases this
    simp only [Option.map_eq_some_iff, Prod.mk.injEq]
    constructor
    · rintro ⟨y, hy, rfl, rfl⟩; exact (hf .ask y).1 hy
    · intro hx
      cases d with
      | bid => exact absurd hx (hno x)
      | ask => exact ⟨x, (hf .ask x).2 hx, rfl, rfl⟩

theorem refOf_order_none {w : World} {b : Book} (h : Rel w.store b) {tick : Int} {id : Nat} :
    (refOf w b).order tick id ≠ none ↔ LiveOrder b tick id fun _ => True := by
  constructor
  · intro hx
    obtain ⟨⟨d, x⟩, hx⟩ := Option.ne_none_iff_exists'.1 hx
    obtain ⟨h1, h2, h3⟩ := (refOf_order h).1 hx
    exact ⟨d, x, h1, h2, h3, trivial⟩
  · rintro ⟨d, x, h1, h2, h3, -⟩
    rw [(refOf_order h).2 ⟨h1, h2, h3⟩]; simp

theorem refOf_order_all {w : World} {b : Book} (h : Rel w.store b) {tick : Int} {id : Nat} {p : Entry → Prop}
    (he : LiveOrder b tick id fun _ => True) :
    (LiveOrder b tick id p) ↔ ∀ side x, (refOf w b).order tick id = some (side, x) → p x := by
  obtain ⟨d, x, h1, h2, h3, -⟩ := he
  have hx := (refOf_order (k := w.bank) h).2 ⟨h1, h2, h3⟩
  constructor
  · rintro ⟨d', y, g1, g2, g3, g4⟩ side z hz
    have hy := (refOf_order (k := w.bank) h).2 ⟨g1, g2, g3⟩
    rw [hy] at hz
    cases hz
    exact g4
  · intro hall
    exact ⟨d, x, h1, h2, h3, hall _ _ hx⟩

theorem refOf_denoms {w : World} {b : Book} {ob : Orderbook} (hob : w.store.orderbook = some ob) :
    (refOf w b).quote = ob.quoteDenom ∧ (refOf w b).base = ob.baseDenom := by
  simp [refOf, refS, hob]

theorem msgFits_iff (m : ExecuteMsg) : m.wellTyped = true ↔ MsgFits m := by
  cases m with
  | placeLimit tick dir q bounty =>
    simp only [ExecuteMsg.wellTyped, MsgFits, i64Ok, Bool.and_eq_true, decide_eq_true_eq, and_assoc]
    unfold U128
    cases bounty with
    | none => simp
    | some x => simp only [decide_eq_true_eq, Option.some.injEq, forall_eq']; rfl
  | cancelLimit tick id => simp only [ExecuteMsg.wellTyped, MsgFits, i64Ok, Bool.and_eq_true, decide_eq_true_eq]; rfl
  | claimLimit tick id => simp only [ExecuteMsg.wellTyped, MsgFits, i64Ok, Bool.and_eq_true, decide_eq_true_eq]; rfl
  | batchClaim l => simp only [ExecuteMsg.wellTyped, MsgFits, i64Ok, List.all_eq_true, Bool.and_eq_true, decide_eq_true_eq]; rfl
  | auth m => cases m <;> simp only [ExecuteMsg.wellTyped, AuthMsg.wellTyped, MsgFits, decide_eq_true_eq]; rfl

/-! ### The checklists agree -/

theorem sender_checks {ch : Chain} {w : World} {b : Book} {sender : Addr} {funds : List Coin} {msg : ExecuteMsg} {e : Err}
    {rest rest' : List (Prop × Err)} (hr : Fails rest e ↔ Fails rest' e) :
    Fails ([(sender ≠ ch.contract, .std), (msg.wellTyped = true, .decode),
      ((∃ bank, w.bank.sendAll sender ch.contract funds = .ok bank), .bank)] ++ rest) e ↔
    Fails ((refOf w b).senderChecks ch sender funds msg ++ rest') e := by
  unfold Ref.senderChecks
  simp only [List.cons_append, List.nil_append]
  refine fails_congr Iff.rfl fun hne => fails_congr (msgFits_iff msg) fun _ => fails_congr ?_ fun _ => hr
  exact sendAll_ok_iff hne

theorem checks_place {ch : Chain} {n : Nat} {w : World} {b : Book} (h : Traced ch n w b) (hn : w.HasRoom) (sender : Addr)
    (funds : List Coin) (time : Nat) (tick : Int) (dir : Dir) (q : Nat) (bounty : Option Nat) (e : Err) :
    step ch w (.execute sender funds time (.placeLimit tick dir q bounty)) = .error e ↔
      Fails ((refOf w b).checks ch (.execute sender funds time (.placeLimit tick dir q bounty))) e := by
  obtain ⟨ob, hob, -⟩ := h.rel.ptr
  rw [C49_place_errors ⟨_, h.reachable⟩ hn (denoms_of hob) sender funds time tick dir q bounty e]
  refine sender_checks ?_
  simp only [Ref.userChecks, (refOf_denoms (b := b) hob).1, (refOf_denoms (b := b) hob).2]
  rfl

theorem checks_cancel {ch : Chain} {n : Nat} {w : World} {b : Book} (h : Traced ch n w b) (hn : w.HasRoom) (sender : Addr)
    (funds : List Coin) (time : Nat) (tick : Int) (id : Nat) (e : Err) :
    step ch w (.execute sender funds time (.cancelLimit tick id)) = .error e ↔
      Fails ((refOf w b).checks ch (.execute sender funds time (.cancelLimit tick id))) e := by
  rw [C49_cancel_errors h hn sender funds time tick id e]
  refine sender_checks ?_
  refine fails_congr Iff.rfl fun _ => fails_congr Iff.rfl fun _ => fails_congr (refOf_order_none h.rel).symm fun he => ?_
  refine fails_congr (refOf_order_all h.rel he) fun _ => fails_congr (refOf_order_all h.rel he) fun _ => Iff.rfl

theorem checks_claim {ch : Chain} {n : Nat} {w : World} {b : Book} (h : Traced ch n w b) (hn : w.HasRoom) (sender : Addr)
    (funds : List Coin) (time : Nat) (tick : Int) (id : Nat) (e : Err) :
    step ch w (.execute sender funds time (.claimLimit tick id)) = .error e ↔
      Fails ((refOf w b).checks ch (.execute sender funds time (.claimLimit tick id))) e := by
  rw [C49_claim_errors h hn sender funds time tick id e]
  refine sender_checks ?_
  refine fails_congr Iff.rfl fun _ => fails_congr Iff.rfl fun _ => fails_congr Iff.rfl fun _ =>
    fails_congr (refOf_order_none h.rel).symm fun he => ?_
  exact fails_congr (refOf_order_all h.rel he) fun _ => Iff.rfl

theorem checks_batch {ch : Chain} {n : Nat} {w : World} {b : Book} (h : Traced ch n w b) (hn : w.HasRoom) (sender : Addr)
    (funds : List Coin) (time : Nat) (l : List (Int × Nat)) (e : Err) :
    step ch w (.execute sender funds time (.batchClaim l)) = .error e ↔
      Fails ((refOf w b).checks ch (.execute sender funds time (.batchClaim l))) e := by
  rw [C49_batch_errors h hn sender funds time l e]
  exact sender_checks Iff.rfl

theorem checks_auth (ch : Chain) (w : World) (b : Book) (sender : Addr) (funds : List Coin) (time : Nat) (m : AuthMsg) (e : Err) :
    step ch w (.execute sender funds time (.auth m)) = .error e ↔
      Fails ((refOf w b).checks ch (.execute sender funds time (.auth m))) e := by
  rw [C59_auth_errors ch w sender funds time m e]
  exact sender_checks (msg := .auth m) Iff.rfl

theorem checks_gov (ch : Chain) (w : World) (b : Book) (time : Nat) (m : SudoMsg) {x : Bool} (hm : GovCall ch.addrValid m = some x)
    (e : Err) : step ch w (.sudo time m) = .error e ↔ Fails ((refOf w b).checks ch (.sudo time m)) e := by
  rw [C59_gov_errors ch w time m hm e]
  cases m <;> simp only [GovCall, Option.some.injEq, reduceCtorEq] at hm <;> subst hm
  · rfl
  · exact fails_congr Iff.rfl fun _ => by simp [Fails]
  · exact fails_congr Iff.rfl fun _ => by simp [Fails]

theorem checks_swapOut (ch : Chain) (w : World) (b : Book) (time : Nat) (a : Addr) (d : Denom) (maxIn : Nat) (c : Coin) (fee : Nat)
    (e : Err) : step ch w (.sudo time (.swapExactAmountOut a d maxIn c fee)) = .error e ↔
      Fails ((refOf w b).checks ch (.sudo time (.swapExactAmountOut a d maxIn c fee))) e := by
  have hd : SudoMsg.deposit (.swapExactAmountOut a d maxIn c fee) = none := rfl
  have hwt : SudoMsg.wellTyped (.swapExactAmountOut a d maxIn c fee) = true ↔ c.amount < 2 ^ 128 ∧ maxIn < 2 ^ 128 ∧ fee < 2 ^ 128 := by
    simp only [SudoMsg.wellTyped, Bool.and_eq_true, decide_eq_true_eq, and_assoc]; rfl
  simp only [Ref.checks, step, hd]
  by_cases h1 : SudoMsg.wellTyped (.swapExactAmountOut a d maxIn c fee) = true
  · rw [if_neg (by simp [h1]), fails_cons_true (hwt.1 h1)]
    have ha : (refOf w b).conf.active = isActive w.store := rfl
    rw [ha]
    cases hact : isActive w.store with
    | false =>
      have hx : «sudo» (ch.env time) (.swapExactAmountOut a d maxIn c fee) w.store = .err .inactive w.store := by
        unfold «sudo» ensureIsActive
        simp only [EM.get_bind, EM.bind_eq_err, hact, EM.ensure_eq_err]
        left; refine ⟨hact, ?_⟩; simp
      rw [runTx_err hx, fails_cons_false (by simp), Except.error.injEq, eq_comm]
    | true =>
      have hx : ∃ s', «sudo» (ch.env time) (.swapExactAmountOut a d maxIn c fee) w.store = .err .panic s' := by
        unfold «sudo»
        rw [EM.bind_ok_of (ensureIsActive_eq_ok.2 ⟨hact, rfl⟩ : ensureIsActive w.store = .ok () w.store)]
        exact ⟨_, rfl⟩
      obtain ⟨s', hx⟩ := hx
      rw [runTx_err hx, fails_cons_true rfl, fails_cons_false (by simp), Except.error.injEq, eq_comm]
  · rw [if_pos (by simpa using h1), fails_cons_false (fun hh => h1 (hwt.2 hh)), Except.error.injEq, eq_comm]

theorem checks_transfer (ch : Chain) (w : World) (b : Book) (src dst : Addr) (c : Coin) (e : Err) :
    step ch w (.transfer src dst c) = .error e ↔ Fails ((refOf w b).checks ch (.transfer src dst c)) e := by
  simp only [Ref.checks, step]
  by_cases h1 : src = ch.contract
  · rw [if_pos h1, fails_cons_false (by simpa using h1), Except.error.injEq, eq_comm]
  · rw [if_neg h1, fails_cons_true h1]
    have hb : (refOf w b).bank = w.bank := rfl
    rw [hb]
    cases h2 : w.bank.send src dst c with
    | ok bank =>
      rw [fails_cons_true (send_ok_iff.1 ⟨_, h2⟩)]
      simp [Fails, Except.ok_bind', Except.pure_eq']
    | error x =>
      have hx : x = .bank := by
        unfold Bank.send at h2
        split at h2
        · simpa using h2.symm
        · split at h2
          · simpa using h2.symm
          · simp at h2
      subst hx
      rw [fails_cons_false (fun hh => by obtain ⟨b', hb'⟩ := (send_ok_iff (dst := dst)).2 hh; rw [h2] at hb'; cases hb')]
      simp [Except.error_bind', eq_comm]

/-! ### Swaps -/

theorem ref_levels {ch : Chain} {n : Nat} {w : World} {b : Book} (h : Traced ch n w b) (r : SwapReq) (side : Dir) :
    r.Levels w.store side ((refOf w b).levels r side) := by
  have htl : ∀ t, tickLiquidity w.store t side = openTotal (b t side) := fun t => (C26_tick_liquidity h t side).2
  have hq : (refOf w b).queues = b := rfl
  have hv : ∀ t, openTotal (b t side) ≠ 0 → t ∈ Finset.Icc (-108000000 : Int) 182402823 := by
    intro t ht
    rw [← htl] at ht
    obtain ⟨ob, hob, -⟩ := h.rel.ptr
    exact Finset.mem_Icc.2 ((C26_pool_liquidity ⟨_, h.reachable⟩ (denoms_of hob)).2.1 t side ht)
  unfold Ref.levels SwapReq.Levels
  rw [hq]
  constructor
  · rw [List.pairwise_map]
    cases side with
    | ask => exact (Finset.sortedLT_sort _).pairwise
    | bid => exact (Finset.sortedGT_sort _).pairwise
  · intro t l
    simp only [List.mem_map, Prod.mk.injEq]
    cases side <;> simp only [Finset.mem_sort, Finset.mem_filter] <;> constructor
    all_goals first
      | (rintro ⟨t', ⟨g1, g2, g3⟩, rfl, rfl⟩
         exact ⟨(htl _).symm, g2, g3⟩)
      | (rintro ⟨rfl, g2, g3⟩
         rw [htl] at g2
         exact ⟨t, ⟨hv t g2, g2, g3⟩, rfl, (htl t).symm⟩)

theorem checks_swap {ch : Chain} {n : Nat} {w : World} {b : Book} (h : Traced ch n w b) (hn : w.HasRoom) (r : SwapReq) (time : Nat)
    (e : Err) : step ch w (r.op time) = .error e ↔ Fails ((refOf w b).swapChecks ch r) e := by
  obtain ⟨ob, hob, -⟩ := h.rel.ptr
  have hbase := (refOf_denoms (b := b) hob).2
  refine Iff.trans (C50_swap_errors ⟨_, h.reachable⟩ hn (orderbookState_eq_ok.2 hob) r (ref_levels h r _) time e) ?_
  unfold Ref.swapChecks
  rw [hbase, (refOf_denoms (b := b) hob).1]
  refine fails_congr Iff.rfl fun _ => fails_congr Iff.rfl fun _ => fails_congr owns_single.symm fun _ =>
    fails_congr Iff.rfl fun _ => fails_congr Iff.rfl fun _ => fails_congr Iff.rfl fun _ => fails_congr Iff.rfl fun _ =>
    fails_congr Iff.rfl fun _ => fails_congr ?_ fun _ => Iff.rfl
  unfold SwapReq.targetOk
  generalize r.side ob.baseDenom = side
  refine forall_congr' fun t => forall_congr' fun _ => and_congr_right fun _ => ?_
  cases side <;> simp [refOf, refS, hob, Better]


/-! ### Effects -/

theorem refS_same {s s' : Store} (h : SameConf s s') (b b' : Book) (k : Bank) :
    refS s' b' k = { refS s b k with queues := b' } := by
  unfold refS
  rw [h.orderbook, h.roles, h.orderId]

theorem set_update {s : Store} {b : Book} {k : Bank} (hr : Rel s b) {tick : Int} {dir : Dir} {p q : List Entry} {x : Entry}
    (hsp : b tick dir = p ++ x :: q) (g : Entry → Entry) :
    (refS s b k).update tick dir x.id g = { refS s b k with queues := b.set tick dir (p ++ g x :: q) } := by
  unfold Ref.update
  have e : (refS s b k).queues = b := rfl
  rw [e, hsp, updQ_split (by rw [← hsp]; exact hr.ids.inc tick dir)]

theorem ref_cancel {s s1 : Store} {b : Book} {k : Bank} (hr : Rel s b) {ob : Orderbook} (hob : s.orderbook = some ob) {tick : Int}
    {dir : Dir} {p q : List Entry} {x : Entry} (hsp : b tick dir = p ++ x :: q) (hx : x.filled = x.claimed) (hc : SameConf s s1) :
    (refS s b k).cancel tick dir x = (refS s1 (b.set tick dir (p ++ { x with cancelled := true } :: q)) k,
      { msgs := [⟨x.owner, ⟨ob.expectedDenom dir, x.placed - x.claimed⟩, REPLY_ID_REFUND⟩],
        events := [.cancelLimit x.owner tick x.id (x.placed - x.claimed) dir x.placed (ob.expectedDenom dir) (ob.oppositeDenom dir)] }) := by
  unfold Ref.cancel
  rw [set_update hr hsp, refS_same hc b]
  simp only [refS, hob, Option.map_some, Option.getD_some, denomIn_eq, denomOut_eq, hx]
  rfl

theorem ref_claim {s : Store} {b b' : Book} {k : Bank} (hr : Rel s b) {sender : Addr} {tick : Int} {id : Nat} {s' : Store}
    {r : Nat × List SendMsg × LimitOrder} {ob : Orderbook} (hob : s.orderbook = some ob) (h : ClaimStep sender tick id s b r s' b') :
    ∃ dir x, (refS s b k).order tick id = some (dir, x) ∧ x.claimed < x.filled ∧
      (refS s b k).claim sender tick dir x = (refS s' b' k, r.2.1,
        claimedEvent sender r.2.2 r.1 (ob.expectedDenom r.2.2.dir) (ob.oppositeDenom r.2.2.dir)) := by
  have hc := h.conf
  obtain ⟨h1, h2, h3, h4, h5, h6, h7⟩ := h
  rename_i s1 dir p q x ob' rc
  obtain rfl := orderbook_inj h4 hob
  have hx : x ∈ b tick dir := by rw [h1]; simp
  have hrange := hr.range tick dir (by rw [h1]; simp)
  refine ⟨dir, x, (refOf_order hr).2 ⟨hx, h3, h2⟩, h7, ?_⟩
  subst h3
  unfold Ref.claim
  rw [set_update hr h1, refS_same hc b]
  have hmsgs : split sender x.owner ((refS s b k).conf.recipient.getD "") (denomOut (refS s b k).quote (refS s b k).base dir) x.bounty
      (refS s b k).conf.fee (payout dir (x.filled - x.claimed) tick) =
      claimMsgs sender x.owner rc (ob.oppositeDenom dir) x.bounty (getMakerFee s) (valDown dir (x.filled - x.claimed) (priceNat tick)) := by
    rw [payout_eq hrange, claimMsgs_eq_split]
    simp only [refS, hob, Option.map_some, Option.getD_some, denomOut_eq, roles, h5]
  have hfp : x.filled ≤ x.placed := by
    obtain ⟨_, _, hs, -, -⟩ := hr.sides tick dir
    exact (hs.ok x hx).filled_le
  have hfacts := split_facts (caller := sender) (owner := x.owner) (rc := (refS s b k).conf.recipient.getD "")
    (denom := denomOut (refS s b k).quote (refS s b k).base dir)
    (r := x.bounty) (f := (refS s b k).conf.fee) (v := payout dir (x.filled - x.claimed) tick)
    (bountyOk_iff.1 (hr.bounty tick dir x hx)) hr.conf.fee
  simp only [hfacts.2.2.2.2]
  rw [hmsgs]
  have hdec : decide (x.filled = x.placed) = decide (x.placed - x.filled = 0) := by
    rw [decide_eq_decide]; omega
  refine Prod.ext rfl (Prod.ext rfl ?_)
  simp only [hdec, claimedEvent, orderOf, ownerAmount_eq, payout_eq hrange]
  simp only [refS, hob, Option.map_some, Option.getD_some, denomIn_eq, denomOut_eq, roles]
  rfl

theorem ref_claims {sender : Addr} {ob : Orderbook} {l : List (Int × Nat)} {s s' : Store} {b b' : Book} {ms : List SendMsg}
    {es : List Event} {k : Bank} (h : ClaimRun sender ob l s b ms es s' b') (hr : Rel s b) (hob : s.orderbook = some ob) :
    Ref.claims sender (refS s b k) l = (refS s' b' k, ms, es) := by
  induction h with
  | nil => rfl
  | @ok tick id rest s b r s1 b1 ms es s' b' h1 h2 h3 ih =>
    obtain ⟨dir, x, g1, g2, g3⟩ := ref_claim (k := k) hr hob h2
    rw [Ref.claims]
    simp only [g1, if_pos g2, g3]
    rw [ih h2.rel (h2.conf.orderbook.trans hob)]
  | @skip tick id rest s b e s1 ms es s' b' h1 h2 h3 ih =>
    rw [Ref.claims]
    have hs1 : refS s1 b k = refS s b k := by rw [refS_same h2.conf b]; rfl
    have ih := ih (h2.rel hr) (h2.conf.orderbook.trans hob)
    rw [hs1] at ih
    cases hg : (refS s b k).order tick id with
    | none => exact ih
    | some y =>
      obtain ⟨dir, x⟩ := y
      obtain ⟨g1, g2, g3⟩ := (refOf_order hr).1 hg
      have := h2.none dir x g1 g3 g2
      simp only
      rw [if_neg (by omega)]
      exact ih


theorem ref_place {s : Store} {b : Book} {k : Bank} {ob : Orderbook} (hob : s.orderbook = some ob) (sender : Addr) (tick : Int) (dir : Dir)
    (q : Nat) (cb : Option Nat) (time : Nat) :
    (refS s b k).place sender tick dir q cb time =
      (refS (placedStore s ob tick dir sender q cb time) (b.set tick dir (b tick dir ++ [newEntry s sender q cb time])) k,
        { events := [.placeLimit sender tick (s.orderId.getD 0) dir q (ob.expectedDenom dir) (ob.oppositeDenom dir)] }) := by
  unfold Ref.place
  refine Prod.ext ?_ ?_
  · have e1 : (ob.withPlaced tick dir).quoteDenom = ob.quoteDenom ∧ (ob.withPlaced tick dir).baseDenom = ob.baseDenom ∧
        (ob.withPlaced tick dir).nextBidTick = (if dir = .bid then max ob.nextBidTick tick else ob.nextBidTick) ∧
        (ob.withPlaced tick dir).nextAskTick = (if dir = .ask then min ob.nextAskTick tick else ob.nextAskTick) := by
      cases dir <;> simp only [Orderbook.withPlaced] <;> split <;> simp <;> omega
    obtain ⟨e1, e2, e3, e4⟩ := e1
    simp only [refS, placedStore, hob, Option.map_some, Option.getD_some, e1, e2, Ref.mk.injEq, true_and, and_true]
    refine ⟨rfl, rfl, ?_⟩
    funext d
    cases d <;> cases dir <;> simp [e3, e4]
  · simp only [refS, hob, Option.map_some, Option.getD_some, denomIn_eq, denomOut_eq]

theorem filledAt_fillPairs {F : List Fill} (hnd : (F.map Fill.tick).Nodup) (t : Int) : filledAt (fillPairs F) t = fillAt F t := by
  by_cases ht : t ∈ F.map Fill.tick
  · obtain ⟨f, hf, rfl⟩ := List.mem_map.1 ht
    rw [fillAt_mem hnd hf]
    unfold filledAt fillPairs
    obtain ⟨p, q, rfl⟩ := List.append_of_mem hf
    rw [List.map_append, List.map_cons, List.nodup_append] at hnd
    obtain ⟨-, h2, h3⟩ := hnd
    rw [List.nodup_cons] at h2
    rw [List.map_append, List.map_cons, List.filter_append, List.filter_cons, if_pos (by simp)]
    have z1 : (List.map (fun f => (f.tick, f.amount)) p).filter (fun x => decide (x.1 = f.tick)) = [] := by
      rw [List.filter_eq_nil_iff]
      intro x hx
      obtain ⟨g, hg, rfl⟩ := List.mem_map.1 hx
      have := h3 _ (List.mem_map_of_mem hg) f.tick (by simp)
      simpa using this
    have z2 : (List.map (fun f => (f.tick, f.amount)) q).filter (fun x => decide (x.1 = f.tick)) = [] := by
      rw [List.filter_eq_nil_iff]
      intro x hx
      obtain ⟨g, hg, rfl⟩ := List.mem_map.1 hx
      have : g.tick ≠ f.tick := fun hh => h2.1 (hh ▸ List.mem_map_of_mem hg)
      simpa using this
    rw [z1, z2]; simp
  · rw [fillAt_notin ht]
    unfold filledAt fillPairs
    rw [List.filter_eq_nil_iff.2]
    · rfl
    · intro x hx
      obtain ⟨g, hg, rfl⟩ := List.mem_map.1 hx
      have : g.tick ≠ t := fun hh => ht (hh ▸ List.mem_map_of_mem hg)
      simpa using this

theorem ref_trade {s : Store} {b : Book} {k : Bank} {ob : Orderbook} (hob : s.orderbook = some ob) (r : SwapReq) (side : Dir) {F : List Fill}
    (hF : FillsOk b F side) (left : Nat) :
    (refS s b k).trade r side (fillPairs F) left =
      (refS (swappedStore s side F ob) (filledBook b F side) k, swapResponse r.sender r.tokenIn r.outDenom r.minOut (sumAmount F) left) := by
  unfold Ref.trade
  simp only [fillPairs_sum]
  refine Prod.ext ?_ rfl
  have hq : (fun t d => if d = side then fillQ (filledAt (fillPairs F) t) (b t d) else b t d) = filledBook b F side := by
    funext t d
    unfold filledBook takenBy
    by_cases hd : d = side
    · rw [if_pos hd, if_pos hd, filledAt_fillPairs hF.nodup]
    · rw [if_neg hd, if_neg hd, fillQ_zero]
  have hl : (fillPairs F).getLast?.map Prod.fst = F.getLast?.map Fill.tick := by
    unfold fillPairs
    rw [List.getLast?_map, Option.map_map]; rfl
  have hpt := ptrAfter_eq ob side F
  simp only [refS, swappedStore, hob, Option.map_some, Option.getD_some, Ref.mk.injEq]
  rw [hl, hpt]
  refine ⟨?_, ?_, rfl, trivial, hq, ?_, trivial⟩
  · cases F.getLast? <;> cases side <;> rfl
  · cases F.getLast? <;> cases side <;> rfl
  · funext d
    cases F.getLast? <;> cases side <;> cases d <;> simp [Orderbook.setNext]

/-! ### Configuration messages -/

theorem authDispatch_resp {env : Env} {info : MessageInfo} {msg : AuthMsg} {s s' : Store} {resp : Response}
    (hok : authDispatch env info msg s = .ok resp s') : resp = { events := [confEvent msg] } := by
  cases msg <;>
    simp only [authDispatch, ensureIsAdmin, ensureIsAdminOrModerator, offerAdmin, removeAdminTransfer, updateAdmin, removeAdmin,
      offerModerator, removeModeratorOffer, updateModerator, setActive, setMakerFee, setMakerFeeRecipient,
      EM.bind_eq_ok, EM.get_eq_ok, EM.ensure_eq_ok, EM.modify_eq_ok, EM.pure_eq_ok, decide_eq_true_eq] at hok
  case transferAdmin => obtain ⟨_, _, ⟨_, _, ⟨rfl, rfl⟩, -, rfl⟩, _, _, ⟨_, _, ⟨-, rfl⟩, rfl⟩, rfl, rfl⟩ := hok; rfl
  case cancelAdminTransfer => obtain ⟨_, _, ⟨_, _, ⟨rfl, rfl⟩, -, rfl⟩, _, _, rfl, rfl, rfl⟩ := hok; rfl
  case rejectAdminTransfer => obtain ⟨_, _, ⟨rfl, rfl⟩, _, _, ⟨-, rfl⟩, _, _, rfl, rfl, rfl⟩ := hok; rfl
  case claimAdmin =>
    obtain ⟨x, _, ⟨rfl, rfl⟩, _, _, ⟨h, rfl⟩, _, _, ⟨_, _, ⟨-, rfl⟩, rfl⟩, _, _, rfl, rfl, rfl⟩ := hok
    rfl
  case renounceAdminship => obtain ⟨_, _, ⟨_, _, ⟨rfl, rfl⟩, -, rfl⟩, _, _, rfl, rfl, rfl⟩ := hok; rfl
  case offerModerator => obtain ⟨_, _, ⟨_, _, ⟨rfl, rfl⟩, -, rfl⟩, _, _, ⟨_, _, ⟨-, rfl⟩, rfl⟩, rfl, rfl⟩ := hok; rfl
  case rejectModeratorOffer => obtain ⟨_, _, ⟨rfl, rfl⟩, _, _, ⟨-, rfl⟩, _, _, rfl, rfl, rfl⟩ := hok; rfl
  case claimModerator =>
    obtain ⟨x, _, ⟨rfl, rfl⟩, _, _, ⟨h, rfl⟩, _, _, ⟨_, _, ⟨-, rfl⟩, rfl⟩, _, _, rfl, rfl, rfl⟩ := hok
    rfl
  case setActive => obtain ⟨_, _, ⟨_, _, ⟨rfl, rfl⟩, -, rfl⟩, _, _, rfl, rfl, rfl⟩ := hok; rfl
  case setMakerFee => obtain ⟨_, _, ⟨_, _, ⟨rfl, rfl⟩, -, rfl⟩, _, _, ⟨_, _, ⟨hf, rfl⟩, _, _, rfl, rfl, rfl⟩, rfl, rfl⟩ := hok; rfl
  case setMakerFeeRecipient => obtain ⟨_, _, ⟨_, _, ⟨rfl, rfl⟩, -, rfl⟩, _, _, ⟨_, _, ⟨-, rfl⟩, rfl⟩, rfl, rfl⟩ := hok; rfl

theorem sudo_resp {env : Env} {msg : SudoMsg} {s s' : Store} {resp : Response} (hd : msg.deposit = none)
    (hok : «sudo» env msg s = .ok resp s') (time : Nat) (r : Ref) : resp = (r.effect (.sudo time msg)).2 := by
  unfold «sudo» at hok
  rw [EM.bind_eq_ok] at hok
  obtain ⟨u, s1, h1, hok⟩ := hok
  obtain ⟨ha, rfl⟩ := ensureIsActive_eq_ok.1 h1
  cases msg with
  | swapExactAmountIn => simp [SudoMsg.deposit] at hd
  | swapToTick => simp [SudoMsg.deposit] at hd
  | swapExactAmountOut => simp at hok
  | transferAdmin a =>
    simp only [updateAdmin, EM.bind_eq_ok, EM.ensure_eq_ok, EM.modify_eq_ok, EM.pure_eq_ok] at hok
    obtain ⟨_, _, ⟨_, _, ⟨-, rfl⟩, rfl⟩, rfl, rfl⟩ := hok; rfl
  | removeAdmin =>
    simp only [removeAdmin, EM.bind_eq_ok, EM.modify_eq_ok, EM.pure_eq_ok] at hok
    obtain ⟨_, _, rfl, rfl, rfl⟩ := hok; rfl
  | setActive a =>
    simp only [setActive, EM.bind_eq_ok, EM.modify_eq_ok, EM.pure_eq_ok] at hok
    obtain ⟨_, _, rfl, rfl, rfl⟩ := hok; rfl

theorem refS_conf {s s' : Store} (h : SameBook s s') (b : Book) (k : Bank) : refS s' b k = { refS s b k with conf := roles s' } := by
  unfold refS
  rw [h.orderbook, h.orderId]

end OB
