import Verif.SpecErr
import Verif.SpecAdmin
import Verif.SpecFlow
import Mathlib.Data.Finset.Sort
/-
The reference exchange: a complete order book in terms of FIFO queues, checklists and exact rational prices. It has no accumulators, no
sumtrees, no synchronization and no overflow; a reader can take it as the definition of what the contract is supposed to do.
-/
namespace OB.Spec

/-- State of the reference exchange: the pair, the configuration, the next order id, the queues, the best-tick pointers and all bank
balances. -/
structure Ref where
  quote : Denom
  base : Denom
  conf : Roles
  nextId : Nat
  queues : Book
  best : Dir → Int
  bank : Bank

/-- A fresh exchange for the pair (quote, base). -/
def Ref.fresh (quote base : Denom) (bank : Bank) : Ref where
  quote := quote
  base := base
  conf := ⟨some "osmo10d07y265gmmuvt4z0w9aw880jnsr700jjeq4qp", none, some "osmo1peuxfjj66n2qt2v5jmqlvzz8neakjgduez7vttvemw58uug6546sr60ngl",
    none, true, 0, some "osmo1r9jc2234fljy93z80cevqjt3nmjycec8aj4cc6"⟩
  nextId := 0
  queues := Book.empty
  best := fun d => match d with
    | .bid => -108000000
    | .ask => 182402823
  bank := bank

/-! ### Money -/

/-- `a` owns the coins (none of which may be of amount zero). -/
def Owns (b : Bank) (a : Addr) (cs : List Coin) : Prop := (∀ c ∈ cs, c.amount ≠ 0) ∧ ∀ d, amountOf d cs ≤ b a d

/-- `src` pays the coins to `dst`. -/
def pay (b : Bank) (src dst : Addr) (cs : List Coin) : Bank :=
  fun a d => b a d - (if a = src then amountOf d cs else 0) + (if a = dst then amountOf d cs else 0)

/-- `src` makes the transfers. -/
def payOut (src : Addr) : Bank → List SendMsg → Bank
  | b, [] => b
  | b, m :: ms => payOut src (pay b src m.to [m.coin]) ms

/-! ### Orders -/

/-- The live order `id` at `tick`, with its side. -/
def Ref.order (r : Ref) (tick : Int) (id : Nat) : Option (Dir × Entry) :=
  match (r.queues tick .bid).find? fun x => decide (x.id = id ∧ x.Live) with
  | some x => some (.bid, x)
  | none => ((r.queues tick .ask).find? fun x => decide (x.id = id ∧ x.Live)).map fun x => (.ask, x)

/-- Change the order `id` of a queue. -/
def Ref.update (r : Ref) (tick : Int) (side : Dir) (id : Nat) (g : Entry → Entry) : Ref :=
  { r with queues := r.queues.set tick side (updQ id g (r.queues tick side)) }

/-- Append a new order to its queue; the pointer of its side moves if the price is better. -/
def Ref.place (r : Ref) (sender : Addr) (tick : Int) (side : Dir) (q : Nat) (bounty : Option Nat) (time : Nat) : Ref × Response :=
  ({ r with
      nextId := r.nextId + 1
      queues := r.queues.set tick side (r.queues tick side ++ [⟨r.nextId, sender, bounty, time, q, 0, 0, false⟩])
      best := fun d => if d = side then (match side with | .bid => max (r.best d) tick | .ask => min (r.best d) tick) else r.best d },
   { events := [.placeLimit sender tick r.nextId side q (denomIn r.quote r.base side) (denomOut r.quote r.base side)] })

/-- Cancel an order: the unfilled part is refunded. -/
def Ref.cancel (r : Ref) (tick : Int) (side : Dir) (x : Entry) : Ref × Response :=
  (r.update tick side x.id fun x => { x with cancelled := true },
   { msgs := [⟨x.owner, ⟨denomIn r.quote r.base side, x.placed - x.filled⟩, 1⟩],
     events := [.cancelLimit x.owner tick x.id (x.placed - x.filled) side x.placed (denomIn r.quote r.base side)
       (denomOut r.quote r.base side)] })

/-- Claim an order: its unclaimed fill is paid out at the tick price. -/
noncomputable def Ref.claim (r : Ref) (sender : Addr) (tick : Int) (side : Dir) (x : Entry) : Ref × List SendMsg × Event :=
  let out := denomOut r.quote r.base side
  let msgs := split sender x.owner (r.conf.recipient.getD "") out x.bounty r.conf.fee (payout side (x.filled - x.claimed) tick)
  (r.update tick side x.id fun x => { x with claimed := x.filled }, msgs,
   .limitClaimed sender tick x.id (x.placed - x.filled) x.owner side (sent 2 msgs) x.placed (decide (x.filled = x.placed))
     (denomIn r.quote r.base side) out)

/-- Claim orders one after the other, skipping those that have nothing to claim. -/
noncomputable def Ref.claims (sender : Addr) : Ref → List (Int × Nat) → Ref × List SendMsg × List Event
  | r, [] => (r, [], [])
  | r, (tick, id) :: rest =>
    match r.order tick id with
    | some (side, x) =>
      if x.claimed < x.filled then
        let (r1, ms, e) := r.claim sender tick side x
        let (r2, ms2, es) := Ref.claims sender r1 rest
        (r2, ms ++ ms2, e :: es)
      else Ref.claims sender r rest
    | none => Ref.claims sender r rest

/-! ### Swaps -/

/-- The price levels a request can use, best first. -/
noncomputable def Ref.levels (r : Ref) (s : SwapReq) (side : Dir) : List (Int × Nat) :=
  open Classical in
  let ticks := (Finset.Icc (-108000000) 182402823).filter fun t => openTotal (r.queues t side) ≠ 0 ∧ s.within side t
  (match side with
    | .ask => ticks.sort (· ≤ ·)
    | .bid => ticks.sort (· ≥ ·)).map fun t => (t, openTotal (r.queues t side))

/-- What a list of fills takes at a tick. -/
def filledAt (F : List (Int × Nat)) (t : Int) : Nat := ((F.filter fun x => decide (x.1 = t)).map Prod.snd).sum

/-- Carry out the fills `F`; `left` is the unused input. -/
def Ref.trade (r : Ref) (s : SwapReq) (side : Dir) (F : List (Int × Nat)) (left : Nat) : Ref × Response :=
  let out := (F.map Prod.snd).sum
  ({ r with
      queues := fun t d => if d = side then fillQ (filledAt F t) (r.queues t d) else r.queues t d
      best := fun d => if d = side then (F.getLast?.map Prod.fst).getD (r.best d) else r.best d },
   { msgs := ⟨s.sender, ⟨s.outDenom, out⟩, 5⟩ :: (if left = 0 then [] else [⟨s.sender, ⟨s.tokenIn.denom, left⟩, 1⟩])
     events := [.swapExactAmountIn s.sender s.tokenIn s.outDenom s.minOut out]
     data := some out })

/-! ### Messages -/

/-- Integers that fit the Rust types of the message. -/
def MsgFits : ExecuteMsg → Prop
  | .placeLimit tick _ q bounty => (-(2 ^ 63) ≤ tick ∧ tick < 2 ^ 63) ∧ q < 2 ^ 128 ∧ ∀ x, bounty = some x → x < 2 ^ 256
  | .cancelLimit tick id | .claimLimit tick id => (-(2 ^ 63) ≤ tick ∧ tick < 2 ^ 63) ∧ id < 2 ^ 64
  | .batchClaim l => ∀ k ∈ l, (-(2 ^ 63) ≤ k.1 ∧ k.1 < 2 ^ 63) ∧ k.2 < 2 ^ 64
  | .auth (.setMakerFee fee) => fee < 2 ^ 256
  | .auth _ => True

/-- What the event of a configuration message says. -/
def confEvent : AuthMsg → Event
  | .transferAdmin a => .method "transfer_admin" [("new_admin", .str a)]
  | .cancelAdminTransfer => .method "cancel_transfer_admin" []
  | .rejectAdminTransfer => .method "reject_admin_transfer" []
  | .claimAdmin => .method "claim_admin" []
  | .renounceAdminship => .method "renounce_adminship" []
  | .offerModerator a => .method "offer_moderator" [("new_moderator", .str a)]
  | .rejectModeratorOffer => .method "reject_moderator_offer" []
  | .claimModerator => .method "claim_moderator" []
  | .setActive x => .method "set_active" [("active", .bool x)]
  | .setMakerFee fee => .method "set_maker_fee" [("maker_fee", .dec fee)]
  | .setMakerFeeRecipient a => .method "set_maker_fee_recipient" [("maker_fee_recipient", .str a)]

/-- The checks before any message of a user. -/
def Ref.senderChecks (ch : Chain) (r : Ref) (sender : Addr) (funds : List Coin) (msg : ExecuteMsg) : List (Prop × Err) :=
  [(sender ≠ ch.contract, .std), (MsgFits msg, .decode), (Owns r.bank sender funds, .bank)]

/-- The checks of a message of a user. -/
def Ref.userChecks (ch : Chain) (r : Ref) (sender : Addr) (funds : List Coin) : ExecuteMsg → List (Prop × Err)
  | .placeLimit tick side q bounty =>
    [(r.conf.active = true, .inactive), (ValidTick tick, .invalidTickId tick), (0 < q, .invalidQuantity q),
     ((∀ x, bounty = some x → x ≤ 10 ^ 16), .invalidClaimBounty bounty)] ++
     fundsChecks (denomIn r.quote r.base side) funds q
  | .cancelLimit tick id =>
    [(r.conf.active = true, .inactive), (funds = [], .payment .nonPayable), (r.order tick id ≠ none, .orderNotFound tick id),
     ((∀ side x, r.order tick id = some (side, x) → x.owner = sender), .unauthorized),
     ((∀ side x, r.order tick id = some (side, x) → x.filled = x.claimed), .cancelFilledOrder)]
  | .claimLimit tick id =>
    [(r.conf.active = true, .inactive), (funds = [], .payment .nonPayable), ((∃ side, r.queues tick side ≠ []), .invalidTickId tick),
     (r.order tick id ≠ none, .orderNotFound tick id),
     ((∀ side x, r.order tick id = some (side, x) → x.claimed < x.filled), .zeroClaim)]
  | .batchClaim l => [(r.conf.active = true, .inactive), (funds = [], .payment .nonPayable), (l.length ≤ 100, .batchClaimLimitExceeded 100)]
  | .auth m => [(MayCall r.conf sender m, .unauthorized), (Sensible ch.addrValid sender m, badArgument m)]

/-- The effect of an accepted message of a user (money aside). -/
noncomputable def Ref.userEffect (r : Ref) (sender : Addr) (time : Nat) : ExecuteMsg → Ref × Response
  | .placeLimit tick side q bounty => r.place sender tick side q bounty time
  | .cancelLimit tick id =>
    match r.order tick id with
    | some (side, x) => r.cancel tick side x
    | none => (r, {})
  | .claimLimit tick id =>
    match r.order tick id with
    | some (side, x) => let (r', ms, e) := r.claim sender tick side x; (r', { msgs := ms, events := [e] })
    | none => (r, {})
  | .batchClaim l =>
    let (r', ms, es) := Ref.claims sender r l
    (r', { msgs := ms, events := .method "batchClaimLimit" [("sender", .str sender)] :: es })
  | .auth m => ({ r with conf := rolesAfter r.conf sender m }, { events := [confEvent m] })

/-- The checks of a swap. -/
noncomputable def Ref.swapChecks (ch : Chain) (r : Ref) (s : SwapReq) : List (Prop × Err) :=
  let side := s.side r.base
  let levels := r.levels s side
  let result := matchLevels side levels s.tokenIn.amount
  [(s.fits, .decode), (s.sender ≠ ch.contract, .std), (Owns r.bank s.sender [s.tokenIn], .bank), (r.conf.active = true, .inactive),
   (s.fee = 0, .invalidSwap (.fee s.fee)), (s.tokenIn.denom ≠ s.outDenom, .invalidSwap .sameDenoms),
   (s.pair r.quote r.base side, .invalidPair s.tokenIn.denom s.outDenom),
   (ch.addrValid s.sender = true, .std),
   ((∀ target, s.target = some target → ValidTick target ∧ ¬ Better side target (r.best side)), .invalidTickId (s.target.getD 0)),
   (matchError side levels s.tokenIn.amount = none, (matchError side levels s.tokenIn.amount).getD .std),
   ((s.mustFill side → ∀ F left dust, result = some (F, left, dust) → usedUp side F left), .insufficientLiquidity),
   ((∀ F left dust, result = some (F, left, dust) → s.minOut ≤ (F.map Prod.snd).sum), .invalidSwap (.minOut s.minOut (outputOf result))),
   ((∀ F left dust, result = some (F, left, dust) → (F.map Prod.snd).sum ≠ 0), .replyError 5)]

/-- The effect of an accepted swap (money aside). -/
noncomputable def Ref.swapEffect (r : Ref) (s : SwapReq) : Ref × Response :=
  match matchLevels (s.side r.base) (r.levels s (s.side r.base)) s.tokenIn.amount with
  | some (F, left, _) => r.trade s (s.side r.base) F left
  | none => (r, {})

/-- All checks of an operation, in order. -/
noncomputable def Ref.checks (ch : Chain) (r : Ref) : Op → List (Prop × Err)
  | .execute sender funds _ msg => r.senderChecks ch sender funds msg ++ r.userChecks ch sender funds msg
  | .sudo _ (.swapExactAmountIn sender c out minOut fee) => r.swapChecks ch ⟨sender, c, out, minOut, fee, none⟩
  | .sudo _ (.swapToTick sender c out minOut fee target) => r.swapChecks ch ⟨sender, c, out, minOut, fee, some target⟩
  | .sudo _ (.swapExactAmountOut _ _ maxIn c fee) =>
    [(c.amount < 2 ^ 128 ∧ maxIn < 2 ^ 128 ∧ fee < 2 ^ 128, .decode), (r.conf.active = true, .inactive), (False, .panic)]
  | .sudo _ (.transferAdmin a) => [(r.conf.active = true, .inactive), (ch.addrValid a = true, .std)]
  | .sudo _ .removeAdmin | .sudo _ (.setActive _) => [(r.conf.active = true, .inactive)]
  | .migrate | .mint .. => []
  | .transfer src _ c => [(src ≠ ch.contract, .std), (Owns r.bank src [c], .bank)]

/-- The effect of an accepted operation (money aside). -/
noncomputable def Ref.effect (r : Ref) : Op → Ref × Response
  | .execute sender _ time msg => r.userEffect sender time msg
  | .sudo _ (.swapExactAmountIn sender c out minOut fee) => r.swapEffect ⟨sender, c, out, minOut, fee, none⟩
  | .sudo _ (.swapToTick sender c out minOut fee target) => r.swapEffect ⟨sender, c, out, minOut, fee, some target⟩
  | .sudo _ (.transferAdmin a) =>
    ({ r with conf := { r.conf with admin := some a } }, { events := [.method "sudo_transfer_admin" [("new_admin", .str a)]] })
  | .sudo _ .removeAdmin => ({ r with conf := { r.conf with admin := none } }, { events := [.method "sudo_remove_admin" []] })
  | .sudo _ (.setActive x) => ({ r with conf := { r.conf with active := x } }, { events := [.method "set_active" [("active", .bool x)]] })
  | _ => (r, {})

/-- The balances after an accepted operation: first the payment that comes with it, then the transfers of the response. -/
def Ref.money (ch : Chain) (r : Ref) (op : Op) (msgs : List SendMsg) : Bank :=
  match op with
  | .mint dst c => fun a d => r.bank a d + (if a = dst ∧ d = c.denom then c.amount else 0)
  | _ =>
    match payment ch op with
    | some (src, dst, cs) => payOut ch.contract (pay r.bank src dst cs) msgs
    | none => payOut ch.contract r.bank msgs

/-- The error of the first condition that fails, if any. -/
noncomputable def verdict : List (Prop × Err) → Option Err
  | [] => none
  | (c, e) :: rest => open Classical in if c then verdict rest else some e

/-- One operation of the reference exchange. -/
noncomputable def Ref.step (ch : Chain) (r : Ref) (op : Op) : Except Err (Ref × Response) :=
  match verdict (r.checks ch op) with
  | some e => .error e
  | none => .ok ({ (r.effect op).1 with bank := r.money ch op (r.effect op).2.msgs }, (r.effect op).2)

/-- Runs a history on the reference: the final state and what each operation answered. -/
noncomputable def Ref.run (ch : Chain) : Ref → List Op → Ref × List (Except Err Response)
  | r, [] => (r, [])
  | r, op :: ops =>
    match r.step ch op with
    | .ok (r', resp) => ((Ref.run ch r' ops).1, .ok resp :: (Ref.run ch r' ops).2)
    | .error e => ((Ref.run ch r ops).1, .error e :: (Ref.run ch r ops).2)

/-- What each operation of a history answered on the chain. -/
def answers (ch : Chain) : World → List Op → List (Except Err Response)
  | _, [] => []
  | w, op :: ops =>
    match OB.step ch w op with
    | .ok (w', resp) => .ok resp :: answers ch w' ops
    | .error e => .error e :: answers ch w ops

end OB.Spec
