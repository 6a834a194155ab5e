import Verif.Proofs.Text
import Verif.Props.ConfLog
/- C75, C76: what the published texts say. -/
namespace OB
open Spec

theorem orderKey_eq {as : Attrs} {tick : Int} {id : Nat} (h1 : attr as "tick_id" = some (.ofList (intText tick)))
    (h2 : attr as "order_id" = some (.ofList (natText id))) : orderKey as = some (tick, id) := by
  simp [orderKey, h1, h2, String.toList_ofList, integer_intText, number_natText]

theorem side_text (d : Dir) : side d.text = some d := by cases d <;> rfl

theorem truth_text (b : Bool) : truth (boolText b) = some b := by cases b <;> rfl

theorem read_placed (l : Ledger) (owner : Addr) (tick : Int) (id : Nat) (dir : Dir) (q : Nat) (d1 d2 : Denom) :
    l.readPlaced (Event.placeLimit owner tick id dir q d1 d2).attrs = some (l.note (.placeLimit owner tick id dir q d1 d2)) := by
  have h1 : orderKey (Event.placeLimit owner tick id dir q d1 d2).attrs = some (tick, id) :=
    orderKey_eq (by simp [attr, Event.attrs, List.lookup]) (by simp [attr, Event.attrs, List.lookup])
  unfold Ledger.readPlaced
  rw [h1]
  simp [attr, Event.attrs, List.lookup, side_text, String.toList_ofList, number_natText, Ledger.note]
  rfl

theorem read_cancelled (l : Ledger) (owner : Addr) (tick : Int) (id q : Nat) (dir : Dir) (p : Nat) (d1 d2 : Denom) :
    l.readCancelled (Event.cancelLimit owner tick id q dir p d1 d2).attrs = some (l.note (.cancelLimit owner tick id q dir p d1 d2)) := by
  have h1 : orderKey (Event.cancelLimit owner tick id q dir p d1 d2).attrs = some (tick, id) :=
    orderKey_eq (by simp [attr, Event.attrs, List.lookup]) (by simp [attr, Event.attrs, List.lookup])
  unfold Ledger.readCancelled
  rw [h1]
  rfl

theorem read_claimed (l : Ledger) {e : Event} (he : e.isClaimed = true) : l.readClaimed e.attrs = some (l.note e) := by
  cases e with
  | limitClaimed sender tick id left owner dir amount placed full d1 d2 =>
    have h1 : orderKey (Event.limitClaimed sender tick id left owner dir amount placed full d1 d2).attrs = some (tick, id) :=
      orderKey_eq (by simp [attr, Event.attrs, List.lookup]) (by simp [attr, Event.attrs, List.lookup])
    unfold Ledger.readClaimed
    rw [h1]
    simp [attr, Event.attrs, List.lookup, side_text, truth_text, String.toList_ofList, number_natText, Ledger.note]
    rfl
  | _ => simp [Event.isClaimed] at he

/-- The announcements of configuration changes. -/
inductive ConfEvent : Event → Prop
  | transferAdmin (a : Addr) : ConfEvent (.method "transfer_admin" [("new_admin", .str a)])
  | cancelTransfer : ConfEvent (.method "cancel_transfer_admin" [])
  | rejectTransfer : ConfEvent (.method "reject_admin_transfer" [])
  | claimAdmin : ConfEvent (.method "claim_admin" [])
  | renounce : ConfEvent (.method "renounce_adminship" [])
  | offerModerator (a : Addr) : ConfEvent (.method "offer_moderator" [("new_moderator", .str a)])
  | rejectModerator : ConfEvent (.method "reject_moderator_offer" [])
  | claimModerator : ConfEvent (.method "claim_moderator" [])
  | setActive (b : Bool) : ConfEvent (.method "set_active" [("active", .bool b)])
  | setFee (f : Nat) : ConfEvent (.method "set_maker_fee" [("maker_fee", .dec f)])
  | setRecipient (a : Addr) : ConfEvent (.method "set_maker_fee_recipient" [("maker_fee_recipient", .str a)])
  | sudoTransfer (a : Addr) : ConfEvent (.method "sudo_transfer_admin" [("new_admin", .str a)])
  | sudoRemove : ConfEvent (.method "sudo_remove_admin" [])

/-- One of the book's denoms. -/
def BookDenom (s : Store) (d : Denom) : Prop := ∃ ob, s.orderbook = some ob ∧ (d = ob.quoteDenom ∨ d = ob.baseDenom)

/-- The shapes of the structured responses of accepted transactions; `P` holds of the denom paid into a swap. -/
inductive Shape (P : Denom → Prop) : List Event → Prop
  | none : Shape P []
  | place (a : Addr) (t : Int) (i : Nat) (d : Dir) (q : Nat) (d1 d2 : Denom) : Shape P [.placeLimit a t i d q d1 d2]
  | cancel (a : Addr) (t : Int) (i q : Nat) (d : Dir) (p : Nat) (d1 d2 : Denom) : Shape P [.cancelLimit a t i q d p d1 d2]
  | claim (e : Event) : e.isClaimed = true → Shape P [e]
  | batch (a : Addr) (es : List Event) : (∀ e ∈ es, e.isClaimed = true) → Shape P (.method "batchClaimLimit" [("sender", .str a)] :: es)
  | swap (a : Addr) (c : Coin) (out : Denom) (m o : Nat) : P c.denom → Shape P [.swapExactAmountIn a c out m o]
  | conf (e : Event) : ConfEvent e → Shape P [e]

theorem authDispatch_shape {P : Denom → Prop} {env : Env} {info : MessageInfo} {msg : AuthMsg} {s s' : Store} {resp : Response}
    (hok : authDispatch env info msg s = .ok resp s') : Shape P resp.events := by
  cases msg <;>
    simp only [authDispatch, EM.bind_eq_ok, EM.pure_eq_ok] at hok
  case transferAdmin => obtain ⟨_, _, -, _, _, -, rfl, -⟩ := hok; exact .conf _ (.transferAdmin _)
  case cancelAdminTransfer => obtain ⟨_, _, -, _, _, -, rfl, -⟩ := hok; exact .conf _ .cancelTransfer
  case rejectAdminTransfer => obtain ⟨_, _, -, _, _, -, _, _, -, rfl, -⟩ := hok; exact .conf _ .rejectTransfer
  case claimAdmin => obtain ⟨_, _, -, _, _, -, _, _, -, _, _, -, rfl, -⟩ := hok; exact .conf _ .claimAdmin
  case renounceAdminship => obtain ⟨_, _, -, _, _, -, rfl, -⟩ := hok; exact .conf _ .renounce
  case offerModerator => obtain ⟨_, _, -, _, _, -, rfl, -⟩ := hok; exact .conf _ (.offerModerator _)
  case rejectModeratorOffer => obtain ⟨_, _, -, _, _, -, _, _, -, rfl, -⟩ := hok; exact .conf _ .rejectModerator
  case claimModerator => obtain ⟨_, _, -, _, _, -, _, _, -, _, _, -, rfl, -⟩ := hok; exact .conf _ .claimModerator
  case setActive =>
    simp only [OB.setActive, EM.bind_eq_ok, EM.pure_eq_ok] at hok
    obtain ⟨_, _, -, _, _, -, rfl, -⟩ := hok; exact .conf _ (.setActive _)
  case setMakerFee => obtain ⟨_, _, -, _, _, -, rfl, -⟩ := hok; exact .conf _ (.setFee _)
  case setMakerFeeRecipient => obtain ⟨_, _, -, _, _, -, rfl, -⟩ := hok; exact .conf _ (.setRecipient _)

theorem sudo_shape {P : Denom → Prop} {env : Env} {msg : SudoMsg} {s s' : Store} {resp : Response} (hd : msg.deposit = none)
    (hok : «sudo» env msg s = .ok resp s') : Shape P resp.events := by
  unfold «sudo» at hok
  rw [EM.bind_eq_ok] at hok
  obtain ⟨u, s1, -, hok⟩ := hok
  cases msg with
  | swapExactAmountIn => simp [SudoMsg.deposit] at hd
  | swapToTick => simp [SudoMsg.deposit] at hd
  | swapExactAmountOut => simp at hok
  | transferAdmin a =>
    simp only [EM.bind_eq_ok, EM.pure_eq_ok] at hok
    obtain ⟨_, _, -, rfl, -⟩ := hok; exact .conf _ (.sudoTransfer _)
  | removeAdmin =>
    simp only [EM.bind_eq_ok, EM.pure_eq_ok] at hok
    obtain ⟨_, _, -, rfl, -⟩ := hok; exact .conf _ .sudoRemove
  | setActive a =>
    simp only [setActive, EM.bind_eq_ok, EM.modify_eq_ok, EM.pure_eq_ok] at hok
    obtain ⟨_, _, -, rfl, -⟩ := hok; exact .conf _ (.setActive _)

theorem ClaimRun.claimed {sender : Addr} {ob : Orderbook} {l : List (Int × Nat)} {s s' : Store} {b b' : Book} {ms : List SendMsg}
    {es : List Event} (h : ClaimRun sender ob l s b ms es s' b') : ∀ e ∈ es, e.isClaimed = true := by
  induction h with
  | nil => simp
  | ok _ _ _ ih =>
    intro e he
    rcases List.mem_cons.1 he with rfl | he
    · rfl
    · exact ih e he
  | skip _ _ _ ih => exact ih

theorem StoreStep.shape {ch : Chain} {op : Op} {s s' : Store} {b b' : Book} {resp : Response} (h : StoreStep ch op s b resp s' b')
    (hop : op.isConfig = false) : Shape (BookDenom s) resp.events := by
  cases h with
  | place => exact .place _ _ _ _ _ _ _
  | cancel => exact .cancel _ _ _ _ _ _ _ _
  | claim => exact .claim _ rfl
  | batch _ _ _ h => exact .batch _ _ h.claimed
  | swap _ hob _ _ hok =>
    refine .swap _ _ _ _ _ ⟨_, hob, ?_⟩
    rw [hok.denoms.1]
    unfold Orderbook.expectedDenom
    split <;> simp
  | config h => rw [hop] at h; simp at h

theorem step_shape {ch : Chain} {w w' : World} {op : Op} {resp : Response} (hw : Reachable ch w) (hs : step ch w op = .ok (w', resp)) :
    Shape (BookDenom w.store) resp.events := by
  obtain ⟨n, hn⟩ := hw
  obtain ⟨b, h⟩ := hn.traced
  have hst := h.step hs
  cases op with
  | execute a funds time msg =>
    cases msg with
    | auth m =>
      obtain ⟨-, -, bank, -, h2, -⟩ := step_execute_ok.1 hs
      rw [execute_auth] at h2
      exact authDispatch_shape h2
    | placeLimit => exact hst.shape rfl
    | cancelLimit => exact hst.shape rfl
    | claimLimit => exact hst.shape rfl
    | batchClaim => exact hst.shape rfl
  | «sudo» time msg =>
    cases hd : msg.deposit with
    | none => exact sudo_shape hd ((step_sudo_none hd).1 hs).2.1
    | some x =>
      cases msg with
      | swapExactAmountIn => exact hst.shape rfl
      | swapToTick => exact hst.shape rfl
      | swapExactAmountOut => simp [SudoMsg.deposit] at hd
      | transferAdmin a => simp [SudoMsg.deposit] at hd
      | removeAdmin => simp [SudoMsg.deposit] at hd
      | setActive a => simp [SudoMsg.deposit] at hd
  | migrate => obtain ⟨-, rfl⟩ := step_other_store hs (Or.inl rfl); exact .none
  | transfer src dst c => obtain ⟨-, rfl⟩ := step_other_store hs (Or.inr (Or.inl ⟨_, _, _, rfl⟩)); exact .none
  | mint dst c => obtain ⟨-, rfl⟩ := step_other_store hs (Or.inr (Or.inr ⟨_, _, rfl⟩)); exact .none

theorem read_claims (l : Ledger) {es : List Event} (h : ∀ e ∈ es, e.isClaimed = true) :
    ((es.filter Event.isClaimed).map fun e => (("limitClaimed", e.attrs) : String × Attrs)).foldl
      (fun l e => if e.1 = "limitClaimed" then (l.readClaimed e.2).getD l else l) l = es.foldl Ledger.note l := by
  induction es generalizing l with
  | nil => rfl
  | cons e es ih =>
    rw [List.filter_cons_of_pos (h e (by simp)), List.map_cons, List.foldl_cons, List.foldl_cons]
    simp only [if_true]
    rw [read_claimed l (h e (by simp))]
    exact ih _ fun e' he => h e' (by simp [he])

theorem attrs_method (name : String) (as : List (String × Attr)) : attr (Event.method name as).attrs "method" = some name := by
  simp [attr, Event.attrs, List.lookup]

/-- Reading the published text of a response is reading its structured form. -/
theorem Shape.read {P : Denom → Prop} {r : Response} (h : Shape P r.events) (l : Ledger) : l.read r.raw = r.events.foldl Ledger.note l := by
  obtain ⟨ms, es, data⟩ := r
  simp only at h ⊢
  cases h with
  | none => rfl
  | place a t i d q d1 d2 =>
    have e : l.read ⟨(Event.placeLimit a t i d q d1 d2).attrs, []⟩ = (l.readPlaced (Event.placeLimit a t i d q d1 d2).attrs).getD l := by
      unfold Ledger.read
      simp [attr, Event.attrs, List.lookup]
    show l.read ⟨(Event.placeLimit a t i d q d1 d2).attrs, []⟩ = _
    rw [e, read_placed]
    rfl
  | cancel a t i q d p d1 d2 =>
    have e : l.read ⟨(Event.cancelLimit a t i q d p d1 d2).attrs, []⟩ =
        (l.readCancelled (Event.cancelLimit a t i q d p d1 d2).attrs).getD l := by
      unfold Ledger.read
      simp [attr, Event.attrs, List.lookup]
    show l.read ⟨(Event.cancelLimit a t i q d p d1 d2).attrs, []⟩ = _
    rw [e, read_cancelled]
    rfl
  | claim e he =>
    have := read_claims l (es := [e]) (by simpa using he)
    rw [← this]
    unfold Response.raw Ledger.read
    simp [he, attr, List.lookup]
  | batch a es he =>
    have := read_claims l he
    show _ = es.foldl Ledger.note l
    rw [← this]
    unfold Response.raw Ledger.read
    simp [attr, List.lookup, Event.isClaimed, Event.attrs]
  | swap a c out m o => 
    unfold Response.raw Ledger.read
    simp [attr, List.lookup, Event.isClaimed, Event.attrs, Ledger.note]
  | conf e he =>
    cases he <;>
    · unfold Response.raw Ledger.read
      simp [attr, List.lookup, Event.isClaimed, Event.attrs, Ledger.note]

theorem decimal_floor (f : Nat) : (decimal (decText f)).map (fun q => ⌊q * 10 ^ 18⌋₊) = some f := by
  rw [decimal_decText]
  simp only [Option.map_some]
  congr 1
  rw [div_mul_cancel₀ _ (by norm_num)]
  exact Nat.floor_natCast f

theorem claims_roles (c : Roles) {es : List Event} (h : ∀ e ∈ es, e.isClaimed = true) : es.foldl Roles.note c = c := by
  induction es with
  | nil => rfl
  | cons e es ih =>
    have : c.note e = c := by
      have := h e (by simp)
      cases e <;> first | rfl | simp [Event.isClaimed] at this
    rw [List.foldl_cons, this]
    exact ih fun e' he => h e' (by simp [he])

theorem Shape.readRoles {P : Denom → Prop} {r : Response} (h : Shape P r.events) (c : Roles) : c.read r.raw = r.events.foldl Roles.note c := by
  obtain ⟨ms, es, data⟩ := r
  simp only at h ⊢
  cases h with
  | none => rfl
  | place a t i d q d1 d2 => unfold Response.raw Roles.read; simp [attr, List.lookup, Event.isClaimed, Event.attrs, Roles.note]
  | cancel a t i q d p d1 d2 => unfold Response.raw Roles.read; simp [attr, List.lookup, Event.isClaimed, Event.attrs, Roles.note]
  | claim e he =>
    rw [claims_roles c (by simpa using he)]
    unfold Response.raw Roles.read; simp [attr, List.lookup, he]
  | batch a es he =>
    show _ = es.foldl Roles.note c
    rw [claims_roles c he]
    unfold Response.raw Roles.read; simp [attr, List.lookup, Event.isClaimed, Event.attrs]
  | swap a c out m o => unfold Response.raw Roles.read; simp [attr, List.lookup, Event.isClaimed, Event.attrs, Roles.note]
  | conf e he =>
    cases he <;>
    · unfold Response.raw Roles.read
      simp [attr, List.lookup, Event.isClaimed, Event.attrs, Roles.note, Attr.text, String.toList_ofList, truth_text, decimal_floor]

/-! ### C75: the published texts are a complete record -/

theorem Reachable.published {ch : Chain} {w : World} (hw : Reachable ch w) (ops : List Op) (l : Ledger) (c : Roles) :
    (published ch w ops).foldl Ledger.read l = (log ch w ops).foldl Ledger.note l ∧
      (published ch w ops).foldl Roles.read c = (log ch w ops).foldl Roles.note c := by
  induction ops generalizing w l c with
  | nil => exact ⟨rfl, rfl⟩
  | cons op ops ih =>
    unfold log Spec.published
    cases hs : OB.step ch w op with
    | error e => exact ih hw l c
    | ok r =>
      obtain ⟨w', resp⟩ := r
      simp only [List.foldl_append, List.foldl_cons]
      rw [(step_shape hw hs).read, (step_shape hw hs).readRoles]
      exact ih (hw.step hs) _ _

/-- C75: a client that reads only the published texts of accepted transactions (attribute names and values as strings, numbers in
decimal notation), from instantiation on, knows at every moment exactly the live orders that the orders-by-tick query answers: owner,
direction, placed and unclaimed quantity. -/
theorem C75_orders {ch : Chain} {w0 : World} (hi : Initial ch w0) (ops : List Op) (tick : Int) (id : Nat) (x : Line) :
    (published ch w0 ops).foldl Ledger.read (fun _ => none) (tick, id) = some x ↔
      ∃ o ∈ ordersIn (answer (run ch w0 ops).store (.ordersByTick tick none none none)), o.orderId = id ∧ o.tickId = tick ∧ lineOf o = x := by
  rw [(hi.reachable.published ops _ (roles w0.store)).1]
  exact C51_replay hi ops tick id x

/-- C75: and it knows the configuration that the queries report, starting from that of a fresh book. -/
theorem C75_config {ch : Chain} {w0 : World} (hi : Initial ch w0) (ops : List Op) :
    roles (run ch w0 ops).store = (published ch w0 ops).foldl Roles.read
      ⟨some OSMOSIS_GOV_ADDR, none, some CIRCUIT_BREAKER_SUBDAO_ADDR, none, true, 0, some DEFAULT_MAKER_FEE_RECIPIENT⟩ := by
  rw [(hi.reachable.published ops (fun _ => none) _).2]
  exact C61_replay hi ops

/-- Non-vacuity: a history read as text: an attribute list, the lines of an open and of a partly claimed order, a cancelled one, the fee. -/
example :
    let t := published Demo.ch Demo.w0 (Demo.history ++ [Demo.claim "eve" 0 3])
    let l := t.foldl Ledger.read fun _ => none
    t[6]?.map RawResponse.attributes = some [("method", "placeLimit"), ("owner", "erin"), ("tick_id", "-5000000"), ("order_id", "4"),
      ("order_direction", "bid"), ("quantity", "500000"), ("order_denom", "q"), ("output_denom", "b")] ∧
    l (-5000000, 4) = some ⟨"erin", .bid, 500000, 500000⟩ ∧ l (0, 0) = none ∧ l (0, 3) = some ⟨"dave", .bid, 100000, 40000⟩ ∧
    (t.foldl Roles.read (roles Demo.w0.store)).fee = 2 * 10 ^ 16 := by
  decide +kernel

/-! ### C76: numbers through text -/

/-- C76: an amount of any size is published (and put into a bank message) as digits that denote exactly it; read back by the contract
as a 128-bit number it is unchanged, and an error if it does not fit. -/
theorem C76_amounts (n : Nat) : number (natText n) = some n ∧ readUint U128 (natText n) = if n < U128 then some n else none :=
  ⟨number_natText n, readUint_natText _ n⟩

/-- C76: ticks, too, with their sign. -/
theorem C76_ticks (t : Int) : integer (intText t) = some t := integer_intText t

/-- C76: a decimal with 18 digits of any size is published as a text that denotes exactly it; the conversion of the spot price, which
goes through this text, keeps the value, and is an error if it does not fit. -/
theorem C76_decimals (x : Nat) : decimal (decText x) = some ((x : ℚ) / 10 ^ 18) ∧
    readDecimal U128 (decText x) = if x < U128 then some x else none :=
  ⟨decimal_decText x, readDecimal_decText (by unfold U128; norm_num) x⟩

/-- C76: texts identify their numbers. -/
theorem C76_distinct : (∀ m n, natText m = natText n → m = n) ∧ (∀ t u, intText t = intText u → t = u) ∧
    (∀ x y, decText x = decText y → x = y) := by
  refine ⟨fun _ _ h => natText_inj h, fun t u h => ?_, fun _ _ h => decText_inj h⟩
  have := congrArg integer h
  rw [integer_intText, integer_intText] at this
  exact Option.some.inj this

theorem coinOf_coinText {c : Coin} (h : DenomText c.denom) : coinOf (coinText c) = some c := by
  have h1 : (coinText c).takeWhile Char.isDigit = natText c.amount ∧ (coinText c).dropWhile Char.isDigit = c.denom.toList := by
    unfold coinText
    rw [List.takeWhile_append_of_pos (List.all_eq_true.1 (natText_digits _)), List.dropWhile_append_of_pos (List.all_eq_true.1 (natText_digits _))]
    unfold DenomText at h
    cases hd : c.denom.toList with
    | nil => simp
    | cons x l =>
      rw [hd] at h
      have := h x (by simp)
      simp [this]
  unfold coinOf
  rw [List.span_eq_takeWhile_dropWhile, h1.1, h1.2]
  simp only [number_natText, Option.map_some, String.ofList_toList]

/-- C76: the text of an accepted swap names the sender, the token paid, the minimum and the output, which is the amount of the response
data and what is sent to the sender as output. -/
theorem C76_swap {ch : Chain} {w w' : World} {r : SwapReq} {time : Nat} {resp : Response} (hw : Reachable ch w)
    (hd : DenomText r.tokenIn.denom) (hs : step ch w (r.op time) = .ok (w', resp)) :
    let as := resp.raw.attributes
    attr as "method" = some "swapExactAmountIn" ∧ attr as "sender" = some r.sender ∧
      (attr as "token_in").bind (fun t => coinOf t.toList) = some r.tokenIn ∧ attr as "token_out_denom" = some r.outDenom ∧
      (attr as "token_out_min_amount").bind (fun t => number t.toList) = some r.minOut ∧
      ∃ out, (attr as "output_quantity").bind (fun t => number t.toList) = some out ∧ resp.data = some out ∧ r.minOut ≤ out ∧
        sent 5 resp.msgs = out := by
  obtain ⟨n, hn⟩ := hw
  obtain ⟨b, h⟩ := hn.traced
  obtain ⟨ob, hob, -⟩ := h.rel.ptr
  obtain ⟨dir, F, q', dust, lp, bank1, -, -, -, hok, rfl, -⟩ := h.swap_inv hs hob
  intro as
  have has : as = (Event.swapExactAmountIn r.sender r.tokenIn r.outDenom r.minOut (sumAmount F)).attrs := rfl
  rw [has]
  refine ⟨?_, ?_, ?_, ?_, ?_, sumAmount F, ?_, rfl, hok.minOut, ?_⟩
  · simp [attr, Event.attrs, List.lookup]
  · simp [attr, Event.attrs, List.lookup]
  · simp [attr, Event.attrs, List.lookup, String.toList_ofList, coinOf_coinText hd]
  · simp [attr, Event.attrs, List.lookup]
  · simp [attr, Event.attrs, List.lookup, String.toList_ofList, number_natText]
  · simp [attr, Event.attrs, List.lookup, String.toList_ofList, number_natText]
  · unfold swapResponse swapMsgs sent
    by_cases hq : q' = 0 <;> simp [hq, REPLY_ID_SUDO_SWAP_EXACT_IN, REPLY_ID_REFUND]

/-- C76: the two price constants, written as texts in the code, are the prices of the lowest and the highest tick, and every tick's
price lies between them. -/
theorem C76_price_range {t : Int} (h0 : MIN_TICK ≤ t) (h1 : t ≤ MAX_TICK) :
    ∃ lo hi p, minSpotPrice = some lo ∧ maxSpotPrice = some hi ∧ tickToPrice MIN_TICK = .ok lo ∧ tickToPrice MAX_TICK = .ok hi ∧
      tickToPrice t = .ok p ∧ lo ≤ p ∧ p ≤ hi := by
  have hm : MIN_TICK ≤ MAX_TICK := by decide
  refine ⟨priceNat MIN_TICK, priceNat MAX_TICK, priceNat t, by decide +kernel, by decide +kernel, tickToPrice_ok le_rfl hm, tickToPrice_ok hm le_rfl,
    tickToPrice_ok h0 h1, ?_, ?_⟩
  · rcases eq_or_lt_of_le h0 with rfl | h
    · exact le_rfl
    · exact (priceNat_strictMono le_rfl h).le
  · rcases eq_or_lt_of_le h1 with rfl | h
    · exact le_rfl
    · exact (priceNat_strictMono h0 h).le

/-- Non-vacuity: texts of a fee, a tick and a swapped token; the largest spot price that fits and the first that does not. -/
example : String.ofList (decText 20000000000000000) = "0.02" ∧ String.ofList (intText (-5)) = "-5" ∧
    readDecimal U128 (decText (U128 - 1)) = some (U128 - 1) ∧ readDecimal U128 (decText U128) = none ∧
    coinOf "60000b".toList = some ⟨"b", 60000⟩ ∧ DenomText "b" := by
  refine ⟨by decide +kernel, by decide +kernel, by decide +kernel, by decide +kernel, by decide +kernel, ?_⟩
  unfold DenomText
  decide +kernel

end OB
