import Verif.SpecLive
import Verif.Props.Wire
import Verif.Props.TextEvents
import Verif.Props.QuerySays
/- C101: the contract on the wire. -/
namespace OB
open Spec Json

/-- The operation of a call, if the contract understands it. -/
def callOps : Call → List Op
  | .execute sender funds time t => ((fromText readExecuteMsg t).map fun m => Op.execute sender funds time m).toList
  | .sudo time t => ((fromText readSudoMsg t).map fun m => Op.sudo time m).toList
  | .query _ => []
  | .migrate => [.migrate]
  | .mint dst c => [.mint dst c]
  | .transfer src dst c => [.transfer src dst c]

theorem settleOp_world (ch : Chain) (w : World) (op : Op) : (settleOp ch w op).1 = run ch w [op] := by
  show _ = apply ch w op
  unfold settleOp apply
  cases step ch w op <;> rfl

theorem enter_world (ch : Chain) (w : World) (c : Call) : (enter ch w c).1 = run ch w (callOps c) := by
  cases c with
  | execute sender funds time t =>
    simp only [enter, callOps]
    cases fromText readExecuteMsg t with
    | none => rfl
    | some m => exact settleOp_world _ _ _
  | «sudo» time t =>
    simp only [enter, callOps]
    cases fromText readSudoMsg t with
    | none => rfl
    | some m => exact settleOp_world _ _ _
  | query t =>
    simp only [enter, callOps]
    cases fromText readQueryMsg t with
    | none => rfl
    | some q =>
      simp only
      cases queryResult w.store q <;> rfl
  | migrate => exact settleOp_world _ _ _
  | mint dst c => exact settleOp_world _ _ _
  | transfer src dst c => exact settleOp_world _ _ _

theorem serve_world (ch : Chain) (w : World) (cs : List Call) : (serve ch w cs).1 = run ch w (cs.flatMap callOps) := by
  induction cs generalizing w with
  | nil => rfl
  | cons c cs ih =>
    unfold serve
    rw [ih, enter_world, List.flatMap_cons]
    unfold run
    rw [List.foldl_append]

theorem asks_iff {c : Call} {op : Op} : Spec.Call.Asks c op ↔ callOps c = [op] := by
  cases c with
  | execute sender funds time t =>
    simp only [Spec.Call.Asks, callOps]
    constructor
    · rintro ⟨j, m, h1, h2, rfl⟩
      rw [((C90_messages t).1 m).2 ⟨j, h1, h2⟩]; rfl
    · intro h
      cases hm : fromText readExecuteMsg t with
      | none => rw [hm] at h; cases h
      | some m =>
        rw [hm] at h
        cases h
        obtain ⟨j, h1, h2⟩ := ((C90_messages t).1 m).1 hm
        exact ⟨j, m, h1, h2, rfl⟩
  | «sudo» time t =>
    simp only [Spec.Call.Asks, callOps]
    constructor
    · rintro ⟨j, m, h1, h2, rfl⟩
      rw [((C90_messages t).2.1 m).2 ⟨j, h1, h2⟩]; rfl
    · intro h
      cases hm : fromText readSudoMsg t with
      | none => rw [hm] at h; cases h
      | some m =>
        rw [hm] at h
        cases h
        obtain ⟨j, h1, h2⟩ := ((C90_messages t).2.1 m).1 hm
        exact ⟨j, m, h1, h2, rfl⟩
  | query t => simp [Spec.Call.Asks, callOps]
  | migrate => simp [Spec.Call.Asks, callOps, eq_comm]
  | mint dst c => simp [Spec.Call.Asks, callOps, eq_comm]
  | transfer src dst c => simp [Spec.Call.Asks, callOps, eq_comm]

/-- Only swaps return data. -/
theorem effect_data (r : Ref) (op : Op) : (∃ s : SwapReq, ∃ time, op = s.op time) ∨ (r.effect op).2.data = none := by
  cases op with
  | execute sender funds time msg =>
    right
    cases msg with
    | placeLimit => rfl
    | cancelLimit tick id =>
      simp only [Ref.effect, Ref.userEffect]
      split <;> rfl
    | claimLimit tick id =>
      simp only [Ref.effect, Ref.userEffect]
      split <;> rfl
    | batchClaim l => rfl
    | auth m => rfl
  | «sudo» time msg =>
    cases msg with
    | swapExactAmountIn a c o x f => exact Or.inl ⟨⟨a, c, o, x, f, none⟩, time, rfl⟩
    | swapToTick a c o x f t => exact Or.inl ⟨⟨a, c, o, x, f, some t⟩, time, rfl⟩
    | swapExactAmountOut => right; rfl
    | transferAdmin => right; rfl
    | removeAdmin => right; rfl
    | setActive => right; rfl
  | migrate => right; rfl
  | mint => right; rfl
  | transfer => right; rfl

theorem shows_response {ch : Chain} {n : Nat} {w w' : World} {b : Book} (h : Traced ch n w b) (hn : w.HasRoom)
    (hden : ∀ quote base, denoms w.store = .ok (quote, base) → DenomText quote ∧ DenomText base) {op : Op} {resp : Response}
    (hs : step ch w op = .ok (w', resp)) :
    ShowsResponse resp (.response resp.raw resp.msgs (resp.data.map fun n => (swapDataJson n).text)) := by
  have hw : Reachable ch w := ⟨_, h.reachable⟩
  have hnames := C84_names hw hs
  refine ⟨C84_decode hw hden hs, hnames.1, hnames.2, rfl, ?_⟩
  rcases effect_data (refOf w b) op with ⟨s, time, rfl⟩ | hd
  · obtain ⟨n, j, h1, h2, h3, -⟩ := C91_swap_data hw hs
    rw [h1]
    exact ⟨j, h2, h3⟩
  · have hst := C67_step h hn op
    rw [hs] at hst
    unfold Ref.step at hst
    split at hst
    · cases hst
    · simp only [Except.ok.injEq, Prod.mk.injEq] at hst
      rw [hst.2] at hd
      rw [hd]
      trivial

theorem queryFits_of {q : QueryMsg} (h : q.wellTyped = true) : QueryFits q := by
  cases q <;> simp only [QueryFits]
  all_goals
    simp only [QueryMsg.wellTyped, Bool.and_eq_true, decide_eq_true_eq] at h
    exact h.1

theorem refuses_eq {ch : Chain} {n : Nat} {w : World} {b : Book} (h : Traced ch n w b) {ob : Orderbook} (hob : w.store.orderbook = some ob)
    (q : QueryMsg) : querySays w.store ob b (refOf w b).depth q = (refOf w b).refuses q := by
  have hq := (refOf_denoms (b := b) hob).1
  have hb := (refOf_denoms (b := b) hob).2
  have htl : ∀ t d, tickLiquidity w.store t d = openTotal (b t d) := fun t d => (C26_tick_liquidity h t d).2
  cases q <;> simp only [querySays, Ref.refuses, quoteSays, hq, hb]
  · have : ∀ d, (fun t => tickLiquidity w.store t d) = fun t => openTotal ((refOf w b).queues t d) := fun d => funext fun t => htl t d
    simp only [this]
  · rfl
  · rfl

/-- One call: the contract's reply is right, and afterwards the exchange is in the state that belongs to the contract's. -/
theorem enter_serves {ch : Chain} {n : Nat} {w : World} {b : Book} (h : Traced ch n w b) (hn : w.HasRoom) (hs : Written w.store)
    (hden : ∀ quote base, denoms w.store = .ok (quote, base) → DenomText quote ∧ DenomText base) {m : Marks} (hm : MarksRel w.store m)
    {c : Call} (hc : Spec.Call.Sane c) :
    ∃ n' b' m', Traced ch n' (enter ch w c).1 b' ∧ Written (enter ch w c).1.store ∧ MarksRel (enter ch w c).1.store m' ∧
      Serves ch (refOf w b) m c (enter ch w c).2 (refOf (enter ch w c).1 b') m' := by
  have hw : Reachable ch w := ⟨_, h.reachable⟩
  have hop : ∀ op, callOps c = [op] → (match op with | .execute a _ time _ => AddrOk a ∧ IdOk time | _ => True) → enter ch w c = settleOp ch w op →
      ∃ n' b' m', Traced ch n' (enter ch w c).1 b' ∧ Written (enter ch w c).1.store ∧ MarksRel (enter ch w c).1.store m' ∧
      Serves ch (refOf w b) m c (enter ch w c).2 (refOf (enter ch w c).1 b') m' := by
    intro op h1 h2 h3
    have hst := C67_step h hn op
    have hwr : Written (enter ch w c).1.store := by
      rw [enter_world, h1]
      exact run_written hs (ops := [op]) (fun o ho => by rw [List.mem_singleton] at ho; subst ho; exact h2)
    rw [h3] at hwr ⊢
    unfold settleOp at hwr ⊢
    cases he : step ch w op with
    | error e =>
      rw [he] at hwr hst
      simp only at hwr hst ⊢
      exact ⟨n, b, m, h, hwr, hm, .rejected (asks_iff.2 h1) hst (text_pieces e)⟩
    | ok x =>
      obtain ⟨w', resp⟩ := x
      rw [he] at hwr hst
      simp only at hwr hst ⊢
      exact ⟨n + 1, _, _, Traced.ok h he, hwr, marks_step (h.step he) h.rel hm w.bank, .accepted (asks_iff.2 h1) hst (shows_response h hn hden he)⟩
  have hbad : callOps c = [] → (∀ q, ¬ Spec.Call.AsksFor c q) → enter ch w c = (w, .refusal none) →
      ∃ n' b' m', Traced ch n' (enter ch w c).1 b' ∧ Written (enter ch w c).1.store ∧ MarksRel (enter ch w c).1.store m' ∧
      Serves ch (refOf w b) m c (enter ch w c).2 (refOf (enter ch w c).1 b') m' := by
    intro h1 h2 h3
    rw [h3]
    refine ⟨n, b, m, h, hs, hm, .unread (fun op hop => ?_) h2⟩
    rw [asks_iff, h1] at hop
    cases hop
  cases c with
  | execute sender funds time t =>
    cases ht : fromText readExecuteMsg t with
    | none => exact hbad (by simp [callOps, ht]) (fun _ hq => hq) (by simp [enter, ht])
    | some msg => exact hop _ (by simp [callOps, ht]; rfl) hc (by simp [enter, ht])
  | «sudo» time t =>
    cases ht : fromText readSudoMsg t with
    | none => exact hbad (by simp [callOps, ht]) (fun _ hq => hq) (by simp [enter, ht])
    | some msg => exact hop _ (by simp [callOps, ht]; rfl) trivial (by simp [enter, ht])
  | migrate => exact hop _ rfl trivial rfl
  | mint dst c => exact hop _ rfl trivial rfl
  | transfer src dst c => exact hop _ rfl trivial rfl
  | query t =>
    cases ht : fromText readQueryMsg t with
    | none =>
      refine hbad rfl (fun q hq => ?_) (by simp [enter, ht])
      rw [((C90_messages t).2.2.1 q).2 hq] at ht
      cases ht
    | some q =>
      have hasks : Spec.Call.AsksFor (.query t) q := ((C90_messages t).2.2.1 q).1 ht
      have hfit : QueryFits q := by
        obtain ⟨j, -, hj⟩ := Option.bind_eq_some_iff.1 ht
        exact queryFits_of (queryMsg_range hj)
      have hans := ref_answer h hm q hfit
      cases hr : queryResult w.store q with
      | ok a =>
        have e : enter ch w (.query t) = (w, .answer (answerJson q a).text) := by simp [enter, ht, hr]
        obtain ⟨s', hq⟩ : ∃ s', query q w.store = .ok a s' := by
          unfold queryResult at hr
          split at hr
          · next x s' hx => cases hr; exact ⟨s', hx⟩
          · cases hr
        rw [e]
        refine ⟨n, b, m, h, hs, hm, .answered hasks (a := a) ?_ ⟨_, answer_written hw hs.1 hq⟩⟩
        rw [← hans]
        unfold answer
        rw [hq]
      | error er =>
        have e : enter ch w (.query t) = (w, .refusal er.text) := by simp [enter, ht, hr]
        obtain ⟨ob, hob, -⟩ := h.rel.ptr
        rw [e]
        refine ⟨n, b, m, h, hs, hm, .refused hasks ?_ ?_⟩
        · rw [← hans]
          unfold queryResult at hr
          unfold answer
          split at hr
          · cases hr
          · next e2 s2 hx => rw [hx]
        · show Says ((refOf w b).refuses q) er.text
          rw [← refuses_eq h hob q]
          refine C100_says h (orderbookState_eq_ok.2 hob) (fun d => ?_) hfit hr
          have := ref_levels h ⟨"", ⟨"", 0⟩, "", 0, 0, none⟩ d
          refine ⟨this.1, fun t x => ?_⟩
          show (t, x) ∈ (refOf w b).levels _ d ↔ _
          rw [this.2]
          simp [SwapReq.within]

/-- C101: instantiate the contract and the reference exchange for the same pair and let the world send them any texts. The contract's replies are right,
text for text, and at the end all balances are those of the exchange. -/
theorem C101_wire {ch : Chain} {w0 : World} (hi : Initial ch w0) {quote base : Denom} (hd : denoms w0.store = .ok (quote, base))
    (hq : DenomText quote) (hb : DenomText base) (calls : List Call) (hc : ∀ c ∈ calls, Spec.Call.Sane c) (hn : (serve ch w0 calls).1.HasRoom) :
    ∃ r m, Session ch (Ref.fresh quote base w0.bank) (fun _ _ => ⟨0, 0⟩) calls (serve ch w0 calls).2 r m ∧ (serve ch w0 calls).1.bank = r.bank := by
  have key : ∀ (calls : List Call) {n : Nat} {w : World} {b : Book} {m : Marks}, Traced ch n w b → Written w.store → MarksRel w.store m →
      (∀ q b, denoms w.store = .ok (q, b) → DenomText q ∧ DenomText b) → (∀ c ∈ calls, Spec.Call.Sane c) → (serve ch w calls).1.HasRoom →
      ∃ r m', Session ch (refOf w b) m calls (serve ch w calls).2 r m' ∧ (serve ch w calls).1.bank = r.bank := by
    intro calls
    induction calls with
    | nil => exact fun _ _ _ _ _ _ => ⟨_, _, .done, rfl⟩
    | cons c cs ih =>
      intro n w b m h hs hm hden hc hn
      have hroom : w.HasRoom := by
        rw [serve_world] at hn
        exact run_room_back h hn
      obtain ⟨n', b', m', h1, h2, h3, h4⟩ := enter_serves h hroom hs hden hm (hc c (by simp))
      obtain ⟨r, m2, h5, h6⟩ := ih h1 h2 h3 (fun q b hqb => by
        rw [enter_world, C39_denoms_fixed ⟨_, h.reachable⟩] at hqb
        exact hden q b hqb) (fun x hx => hc x (by simp [hx])) hn
      exact ⟨r, m2, .call h4 h5, h6⟩
  have := key calls (Traced.init hi) (initial_written hi) (initial_marks hi) (fun q b h => by rw [hd] at h; cases h; exact ⟨hq, hb⟩) hc hn
  rw [fresh_ref hi hd] at this
  exact this

theorem instantiate_says {env : Env} {supply : Denom → Nat} {quote base : Denom} {resp : Response} {s : Store}
    (h : instantiate env supply quote base Store.empty = .ok resp s) :
    resp.raw = ⟨[("method", "instantiate"), ("quote_denom", quote), ("base_denom", base)], []⟩ ∧ denoms s = .ok (quote, base) := by
  simp only [instantiate, createOrderbook, saveOrderbook, setMakerFee, setMakerFeeRecipient,
    EM.bind_eq_ok, EM.ensure_eq_ok, EM.modify_eq_ok, EM.pure_eq_ok] at h
  obtain ⟨_, _, ⟨-, rfl⟩, _, _, rfl, _, _, ⟨-, rfl⟩, _, _, rfl, _, _, ⟨_, _, ⟨hne, rfl⟩, _, _, ⟨-, rfl⟩, _, _, ⟨-, rfl⟩, _, _, rfl,
    _, _, ⟨_, _, ⟨hfee, rfl⟩, _, _, rfl, -, rfl⟩, _, _, ⟨-, rfl⟩, rfl⟩, rfl, rfl⟩ := h
  exact ⟨rfl, rfl⟩

/-- C101: where a session starts: a text instantiates the contract exactly if it is a JSON text of the published form for a pair that qualifies; the contract
then is a fresh one for that pair and says so. -/
theorem C101_instantiate (ch : Chain) (time : Nat) (supply : Denom → Nat) (t : List Char) :
    (∀ base quote j, Readable t j → InstantiateJ base quote j → quote ≠ base → supply quote ≠ 0 → supply base ≠ 0 →
      ch.addrValid govAddr = true → ch.addrValid circuitBreakerAddr = true → ch.addrValid feeAddr = true →
      ∃ s raw, instantiateText (ch.env time) supply t = .ok (s, raw)) ∧
    ∀ s raw, instantiateText (ch.env time) supply t = .ok (s, raw) → ∃ base quote j, Readable t j ∧ InstantiateJ base quote j ∧
      quote ≠ base ∧ supply quote ≠ 0 ∧ supply base ≠ 0 ∧
      raw = ⟨[("method", "instantiate"), ("quote_denom", quote), ("base_denom", base)], []⟩ ∧
      ∀ bank, Initial ch ⟨s, bank⟩ ∧ denoms s = .ok (quote, base) := by
  constructor
  · intro base quote j h1 h2 h3 h4 h5 h6 h7 h8
    obtain ⟨resp, s, h⟩ := (C56_instantiate (ch.env time) supply quote base).1.2 ⟨h3, h4, h5, h6, h7, h8⟩
    refine ⟨s, resp.raw, ?_⟩
    unfold instantiateText
    rw [((C90_messages t).2.2.2 base quote).2 ⟨j, h1, h2⟩]
    simp only
    rw [h]
  · intro s raw h
    unfold instantiateText at h
    cases ht : fromText readInstantiateMsg t with
    | none => rw [ht] at h; cases h
    | some x =>
      obtain ⟨base, quote⟩ := x
      rw [ht] at h
      simp only at h
      obtain ⟨j, h1, h2⟩ := ((C90_messages t).2.2.2 base quote).1 ht
      cases hi : instantiate (ch.env time) supply quote base Store.empty with
      | err e s' => rw [hi] at h; cases h
      | ok resp s' =>
        rw [hi] at h
        cases h
        have hc := (C56_instantiate (ch.env time) supply quote base).1.1 ⟨_, _, hi⟩
        obtain ⟨hr, hd⟩ := instantiate_says hi
        exact ⟨base, quote, j, h1, h2, hc.1, hc.2.1, hc.2.2.1, hr, fun bank => ⟨⟨_, _, _, _, _, hi⟩, hd⟩⟩

/-- C101: a text that does not instantiate the contract is refused, with the reason if it is of the published form. -/
theorem C101_not_instantiated (env : Env) (supply : Denom → Nat) (t : List Char) (u : Option (List Char))
    (h : instantiateText env supply t = .error u) :
    (u = none ∧ ∀ base quote j, Readable t j → ¬ InstantiateJ base quote j) ∨
    ∃ base quote j, Readable t j ∧ InstantiateJ base quote j ∧
      Says [(env.addrValid govAddr = true, none), (env.addrValid circuitBreakerAddr = true, none),
        (quote ≠ base, plain "Base and quote denoms cannot be the same"), (supply quote ≠ 0, plain "Invalid denom"),
        (supply base ≠ 0, plain "Invalid denom"), (env.addrValid feeAddr = true, plain "Invalid Maker Fee Recipient")] u := by
  unfold instantiateText at h
  cases ht : fromText readInstantiateMsg t with
  | none =>
    rw [ht] at h
    cases h
    refine Or.inl ⟨rfl, fun base quote j h1 h2 => ?_⟩
    rw [((C90_messages t).2.2.2 base quote).2 ⟨j, h1, h2⟩] at ht
    cases ht
  | some x =>
    obtain ⟨base, quote⟩ := x
    rw [ht] at h
    simp only at h
    obtain ⟨j, h1, h2⟩ := ((C90_messages t).2.2.2 base quote).1 ht
    cases hi : instantiate env supply quote base Store.empty with
    | ok resp s => rw [hi] at h; cases h
    | err e s =>
      rw [hi] at h
      cases h
      exact Or.inr ⟨base, quote, j, h1, h2, C92_instantiate env supply quote base s e hi⟩

/-- C101: what a call asks for is unique, and so is what the exchange does: a session has one outcome only. -/
theorem C101_unique {ch : Chain} {r r1 r2 : Ref} {m m1 m2 : Marks} {calls : List Call} {replies replies' : List Reply}
    (h1 : Session ch r m calls replies r1 m1) (h2 : Session ch r m calls replies' r2 m2) : r1 = r2 ∧ m1 = m2 := by
  have asks1 : ∀ {c op op'}, Spec.Call.Asks c op → Spec.Call.Asks c op' → op = op' := by
    intro c op op' h h'
    rw [asks_iff] at h h'
    rw [h] at h'
    exact (List.cons.inj h').1
  have asks2 : ∀ {c op q}, Spec.Call.Asks c op → ¬ Spec.Call.AsksFor c q := by
    intro c op q h h'
    cases c <;> first | exact h | exact h'
  have one : ∀ {r r1 r2 : Ref} {m m1 m2 : Marks} {c reply reply'}, Serves ch r m c reply r1 m1 → Serves ch r m c reply' r2 m2 → r1 = r2 ∧ m1 = m2 := by
    intro r r1 r2 m m1 m2 c reply reply' h h'
    cases h with
    | unread g g' =>
      cases h' with
      | accepted k => exact absurd k (g _)
      | _ => exact ⟨rfl, rfl⟩
    | accepted g gs =>
      cases h' with
      | unread k => exact absurd g (k _)
      | accepted k ks =>
        obtain rfl := asks1 g k
        rw [gs] at ks
        cases ks
        exact ⟨rfl, rfl⟩
      | rejected k ks =>
        obtain rfl := asks1 g k
        rw [gs] at ks
        cases ks
      | answered k => exact absurd k (asks2 g)
      | refused k => exact absurd k (asks2 g)
    | rejected g gs =>
      cases h' with
      | accepted k ks =>
        obtain rfl := asks1 g k
        rw [gs] at ks
        cases ks
      | _ => exact ⟨rfl, rfl⟩
    | answered g =>
      cases h' with
      | accepted k => exact absurd g (asks2 k)
      | _ => exact ⟨rfl, rfl⟩
    | refused g =>
      cases h' with
      | accepted k => exact absurd g (asks2 k)
      | _ => exact ⟨rfl, rfl⟩
  induction h1 generalizing replies' r2 m2 with
  | done => cases h2; exact ⟨rfl, rfl⟩
  | call g gs ih =>
    cases h2 with
    | call k ks =>
      obtain ⟨rfl, rfl⟩ := one g k
      exact ih ks

/-! ### Non-vacuity -/

namespace Demo

/-- A morning on the wire: an order, a text with a missing field, a query, a swap, an order with a tick out of bounds, a query for a tick never used. -/
def texts : List Call := [
  .execute "alice" [⟨"q", 1000⟩] 5 "{\"place_limit\":{\"tick_id\":0,\"order_direction\":\"bid\",\"quantity\":\"1000\",\"claim_bounty\":null}}".toList,
  .execute "alice" [] 5 "{\"place_limit\":{\"tick_id\":0}}".toList,
  .query " {\"is_active\" : {} }".toList,
  .sudo 6 ("{\"swap_exact_amount_in\":{\"sender\":\"bob\",\"token_in\":{\"denom\":\"b\",\"amount\":\"400\"},\"token_out_denom\":\"q\"," ++
    "\"token_out_min_amount\":\"1\",\"swap_fee\":\"0\"}}").toList,
  .execute "alice" [⟨"q", 7⟩] 7 "{\"place_limit\":{\"tick_id\":999999999,\"order_direction\":\"bid\",\"quantity\":\"7\"}}".toList,
  .query "{\"ticks_by_id\":{\"tick_ids\":[0,3]}}".toList,
  .query "{\"denoms\":{}}".toList]

/-- A reply in strings. -/
def short : Reply → String × List (String × String) × Nat × Option String
  | .response raw msgs data => ("response", raw.attributes, msgs.length, data.map String.ofList)
  | .answer t => ("answer", [], 0, some (String.ofList t))
  | .refusal t => ("refusal", [], 0, t.map String.ofList)

end Demo

example : (serve Demo.ch Demo.w0 Demo.texts).2.map Demo.short = [
    ("response", [("method", "placeLimit"), ("owner", "alice"), ("tick_id", "0"), ("order_id", "0"), ("order_direction", "bid"), ("quantity", "1000"),
      ("order_denom", "q"), ("output_denom", "b")], 0, none),
    ("refusal", [], 0, none), ("answer", [], 0, some "true"),
    ("response", [("method", "swapExactAmountIn"), ("sender", "bob"), ("token_in", "400b"), ("token_out_denom", "q"), ("token_out_min_amount", "1"),
      ("output_quantity", "400")], 1, some "{\"token_out_amount\":\"400\"}"),
    ("refusal", [], 0, some "Invalid tick ID: 999999999"), ("refusal", [], 0, some "Invalid tick ID: 3"),
    ("answer", [], 0, some "{\"quote_denom\":\"q\",\"base_denom\":\"b\"}")] := by
  decide +kernel

/-- The hypotheses hold for these texts. -/
example : ∃ r m, Session Demo.ch (Ref.fresh "q" "b" Demo.w0.bank) (fun _ _ => ⟨0, 0⟩) Demo.texts (serve Demo.ch Demo.w0 Demo.texts).2 r m ∧
    (serve Demo.ch Demo.w0 Demo.texts).1.bank = r.bank :=
  C101_wire Demo.initial rfl (by simp [DenomText]) (by simp [DenomText]) Demo.texts
    (by simp [Demo.texts, Spec.Call.Sane, AddrOk, IdOk]; decide +kernel)
    (by rw [serve_world]; exact (C72_room Demo.initial _).2.1 (by decide +kernel))

/-- Instantiations: one that works, one with the same denom twice, one with a field too many. -/
example : (["{\"base_denom\":\"b\",\"quote_denom\":\"q\"}", "{\"base_denom\":\"b\",\"quote_denom\":\"b\"}",
      "{\"base_denom\":\"b\",\"quote_denom\":\"q\",\"tick\":0}"].map fun t =>
      match instantiateText (Demo.ch.env 0) (fun _ => 1) t.toList with | .ok x => Except.ok x.2.attributes | .error e => .error (e.map String.ofList)) =
    [.ok [("method", "instantiate"), ("quote_denom", "q"), ("base_denom", "b")], .error (some "Base and quote denoms cannot be the same"),
      .error none] := by
  decide +kernel

end OB
