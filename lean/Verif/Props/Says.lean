import Verif.SpecSays
import Verif.Proofs.Text
import Verif.Props.Errors
import Verif.Props.AdminErrors
import Verif.Props.Setup
/- C92: the wording of rejections. -/
namespace OB
open Spec

theorem matches_plain (s : String) : Matches (plain s) (some s.toList) :=
  ⟨[s.toList], .cons rfl .nil, by simp⟩

/- Pieces one after the other; the words are variables here, so that no text is unfolded. -/

theorem matches_one {s : String} {t : Option (List Char)} (ht : t = some s.toList) : Matches (plain s) t := by
  subst ht
  exact matches_plain s

theorem matches_two {s : String} {p : Piece} {x : List Char} {t : Option (List Char)} (hp : p.Reads x) (ht : t = some (s.toList ++ x)) :
    Matches (some [.words s, p]) t :=
  ⟨[s.toList, x], .cons rfl (.cons hp .nil), by simpa using ht⟩

theorem matches_three {s s' : String} {p : Piece} {x : List Char} {t : Option (List Char)} (hp : p.Reads x)
    (ht : t = some (s.toList ++ (x ++ s'.toList))) : Matches (some [.words s, p, .words s']) t :=
  ⟨[s.toList, x, s'.toList], .cons rfl (.cons hp (.cons rfl .nil)), by simpa using ht⟩

theorem matches_four {s s' : String} {p p' : Piece} {x x' : List Char} {t : Option (List Char)} (hp : p.Reads x) (hp' : p'.Reads x')
    (ht : t = some (s.toList ++ (x ++ (s'.toList ++ x')))) : Matches (some [.words s, p, .words s', p']) t :=
  ⟨[s.toList, x, s'.toList, x'], .cons rfl (.cons hp (.cons rfl (.cons hp' .nil))), by simpa using ht⟩

theorem matches_five {s s' s'' : String} {p p' : Piece} {x x' : List Char} {t : Option (List Char)} (hp : p.Reads x) (hp' : p'.Reads x')
    (ht : t = some (s.toList ++ (x ++ (s'.toList ++ (x' ++ s''.toList))))) : Matches (some [.words s, p, .words s', p', .words s'']) t :=
  ⟨[s.toList, x, s'.toList, x', s''.toList], .cons rfl (.cons hp (.cons rfl (.cons hp' (.cons rfl .nil)))), by simpa using ht⟩

theorem glue_two {a b c x : List Char} (h : c = a ++ b) : some (a ++ (b ++ x)) = some (c ++ x) := by subst h; simp

theorem glue_three {a b c x d d' : List Char} (h : c = a ++ b) (hd : d' = d) : some (a ++ (b ++ x ++ d)) = some (c ++ (x ++ d')) := by
  subst h; subst hd; simp

theorem glue_four {a b c x m y : List Char} (h : c = a ++ b) : some (a ++ (b ++ x ++ m ++ y)) = some (c ++ (x ++ (m ++ y))) := by
  subst h; simp

theorem glue_five {a b c x d m n y d' : List Char} (h : c = a ++ b) (hm : n = d ++ (m ++ b)) (hd : d' = d) :
    some (a ++ (b ++ x ++ d) ++ m ++ (b ++ y ++ d)) = some (c ++ (x ++ (n ++ (y ++ d')))) := by
  subst h; subst hm; subst hd; simp

theorem glue_fee {a b e m c x : List Char} (h : c = a ++ (b ++ (e ++ m))) : some (a ++ (b ++ e ++ m ++ x)) = some (c ++ x) := by
  subst h; simp

theorem glue_bounty {a b b' c x d d' : List Char} (h : c = a ++ (b ++ b')) (hd : d' = d ++ d) :
    some (a ++ (b ++ (b' ++ x ++ d) ++ d)) = some (c ++ (x ++ d')) := by
  subst h; subst hd; simp

theorem flat_three {a b c : List Char} : some (a ++ b ++ c) = some (a ++ (b ++ c)) := by simp

theorem flat_four {a b c d : List Char} : some (a ++ b ++ c ++ d) = some (a ++ (b ++ (c ++ d))) := by simp

theorem flat_five {a b c d e : List Char} : some (a ++ b ++ c ++ d ++ e) = some (a ++ (b ++ (c ++ (d ++ e)))) := by simp

theorem reads_words (s : String) : (Piece.words s).Reads s.toList := rfl

theorem pieces_payment (p : PaymentErr) : Matches (Err.payment p).pieces (Err.payment p).text := by
  cases p with
  | missingDenom d => exact matches_three (reads_words d) flat_three
  | multipleDenoms => exact matches_plain _
  | noFunds => exact matches_plain _
  | nonPayable => exact matches_plain _

theorem pieces_swap (p : SwapErr) : Matches (Err.invalidSwap p).pieces (Err.invalidSwap p).text := by
  cases p with
  | zeroInput => exact matches_one (by decide +kernel)
  | zeroStep => exact matches_one (by decide +kernel)
  | sameDenoms => exact matches_one (by decide +kernel)
  | maxIn x y => exact matches_four (number_natText x) (number_natText y) (glue_four (by decide +kernel))
  | minOut x y => exact matches_four (number_natText x) (number_natText y) (glue_four (by decide +kernel))
  | fee x => exact matches_two (decimal_decText x) (glue_fee (by decide +kernel))

theorem pieces_bounty (b : Option Nat) : Matches (Err.invalidClaimBounty b).pieces (Err.invalidClaimBounty b).text := by
  cases b with
  | none => exact matches_one (by decide +kernel)
  | some x => exact matches_three (decimal_decText x) (glue_bounty (by decide +kernel) (by decide +kernel))

theorem maxFee_text : decimal (decText MAX_MAKER_FEE_PERCENTAGE) = some (5 / 100 : ℚ) := by
  rw [decimal_decText]
  norm_num [MAX_MAKER_FEE_PERCENTAGE, percent]

theorem pieces_fee : Matches Err.invalidMakerFee.pieces Err.invalidMakerFee.text :=
  matches_three (x := decText MAX_MAKER_FEE_PERCENTAGE) maxFee_text (glue_three (by decide +kernel) (by decide +kernel))

/-- Every text of the contract consists of the pieces above. -/
theorem text_pieces (e : Err) : Matches e.pieces e.text := by
  cases e with
  | payment p => exact pieces_payment p
  | invalidSwap p => exact pieces_swap p
  | invalidClaimBounty b => exact pieces_bounty b
  | invalidMakerFee => exact pieces_fee
  | invalidTickId t => exact matches_two (integer_intText t) rfl
  | tickOutOfBounds t => exact matches_two (integer_intText t) rfl
  | batchClaimLimitExceeded n => exact matches_two (number_natText n) rfl
  | invalidQuantity q => exact matches_three (number_natText q) (glue_three (by decide +kernel) (by decide +kernel))
  | insufficientFunds a b =>
    exact matches_five (number_natText a) (number_natText b) (glue_five (by decide +kernel) (by decide +kernel) (by decide +kernel))
  | invalidPair a b => exact matches_five (reads_words a) (reads_words b) flat_five
  | orderNotFound t id => exact matches_four (integer_intText t) (number_natText id) flat_four
  | unauthorized | invalidDenom | duplicateDenoms | invalidNodeType | childlessInternalNode | cancelFilledOrder | invalidTickSync | zeroClaim
  | nodeInsertionError | insufficientLiquidity | inactive | noMakerFeeRecipient | invalidMakerFeeRecipient => exact matches_plain _
  | std | overflow | conversionOverflow | checkedFromRatio | replyError | invalidPrefixSum | invalidSumtree | panic | diverge | decode | bank => rfl

/-- A checklist of errors says the wordings of the errors. -/
theorem says_of_fails {l : List (Prop × Err)} {e : Err} (h : Fails l e) : Says (l.map fun p => (p.1, p.2.pieces)) e.text := by
  induction l with
  | nil => exact h
  | cons x l ih =>
    obtain ⟨c, err⟩ := x
    rcases h with ⟨h, rfl⟩ | ⟨h, h'⟩
    · exact Or.inl ⟨h, text_pieces _⟩
    · exact Or.inr ⟨h, ih h'⟩

/-- C92: a rejected order says why: the text names the first condition that fails, with the numbers that matter. -/
theorem C92_place {ch : Chain} {w : World} (hw : Reachable ch w) (hn : w.HasRoom) {quote base : Denom} (hd : denoms w.store = .ok (quote, base))
    {sender : Addr} {funds : List Coin} {time : Nat} {tick : Int} {dir : Dir} {q : Nat} {bounty : Option Nat} {e : Err}
    (h : step ch w (.execute sender funds time (.placeLimit tick dir q bounty)) = .error e) :
    Says (userSays ch w sender funds (.placeLimit tick dir q bounty) ++
      ([(ValidTick tick, badTick tick), (0 < q, some [.words "Invalid quantity: Uint128(", .nat q, .words ")"]),
       ((∀ r, bounty = some r → r ≤ 10 ^ 16), some [.words "Claim bounty must be a value between 0 and 0.01 (1%). Received: Some(Decimal256(",
          .dec (bounty.getD 0 / 10 ^ 18), .words "))"])] ++ fundsSays (denomIn quote base dir) funds q)) e.text := by
  have := says_of_fails ((C49_place_errors hw hn hd sender funds time tick dir q bounty e).1 h)
  cases bounty with
  | some x => exact this
  | none =>
    simp only [userChecks, userSays, List.cons_append, List.nil_append, List.map_cons, Says] at this ⊢
    simp only [reduceCtorEq, false_implies, implies_true, not_true, false_and, false_or, true_and] at this ⊢
    exact this

/-- C92: a rejected cancellation says why. -/
theorem C92_cancel {ch : Chain} {n : Nat} {w : World} {b : Book} (ht : Traced ch n w b) (hn : w.HasRoom) {sender : Addr}
    {funds : List Coin} {time : Nat} {tick : Int} {id : Nat} {e : Err}
    (h : step ch w (.execute sender funds time (.cancelLimit tick id)) = .error e) :
    Says (userSays ch w sender funds (.cancelLimit tick id) ++
      [(funds = [], noFundsSays), (LiveOrder b tick id fun _ => True, noOrder tick id), (LiveOrder b tick id fun x => x.owner = sender, plain "Unauthorized"),
       (LiveOrder b tick id fun x => x.filled = x.claimed, plain "Cannot cancel an order that has partially or fully been filled")]) e.text :=
  says_of_fails ((C49_cancel_errors ht hn sender funds time tick id e).1 h)

/-- C92: a rejected claim says why. -/
theorem C92_claim {ch : Chain} {n : Nat} {w : World} {b : Book} (ht : Traced ch n w b) (hn : w.HasRoom) {sender : Addr}
    {funds : List Coin} {time : Nat} {tick : Int} {id : Nat} {e : Err}
    (h : step ch w (.execute sender funds time (.claimLimit tick id)) = .error e) :
    Says (userSays ch w sender funds (.claimLimit tick id) ++
      [(funds = [], noFundsSays), ((∃ dir, b tick dir ≠ []), badTick tick), (LiveOrder b tick id fun _ => True, noOrder tick id),
       (LiveOrder b tick id fun x => x.claimed < x.filled, plain "Zero Claim: Nothing to be claimed yet")]) e.text :=
  says_of_fails ((C49_claim_errors ht hn sender funds time tick id e).1 h)

/-- C92: a rejected batch says why. -/
theorem C92_batch {ch : Chain} {n : Nat} {w : World} {b : Book} (ht : Traced ch n w b) (hn : w.HasRoom) {sender : Addr}
    {funds : List Coin} {time : Nat} {l : List (Int × Nat)} {e : Err} (h : step ch w (.execute sender funds time (.batchClaim l)) = .error e) :
    Says (userSays ch w sender funds (.batchClaim l) ++ [(funds = [], noFundsSays),
      (l.length ≤ 100, some [.words "Exceeded the maximum number of claims in a batch. Maximum allowed: ", .nat 100])]) e.text :=
  says_of_fails ((C49_batch_errors ht hn sender funds time l e).1 h)

theorem matchError_says (side : Dir) (levels : List (Int × Nat)) (q : Nat) :
    ((matchError side levels q).getD .std).pieces = matchSays side levels q := by
  unfold matchSays
  have : matchError side levels q = none ∨ matchError side levels q = some .conversionOverflow ∨
      matchError side levels q = some (.invalidSwap .zeroStep) := by
    induction levels generalizing q with
    | nil => left; rfl
    | cons x l ih =>
      obtain ⟨t, liq⟩ := x
      unfold matchError
      simp only
      split
      · left; rfl
      split
      · right; left; rfl
      split
      · right; right; rfl
      · exact ih _
  rcases this with h | h | h <;> rw [h] <;> rfl

/-- C92: a rejected swap says why; if the output is too small, it says what it would have been. -/
theorem C92_swap {ch : Chain} {w : World} (hw : Reachable ch w) (hn : w.HasRoom) {ob : Orderbook} (hob : orderbookState w.store = .ok ob)
    {r : SwapReq} {levels : List (Int × Nat)} (hl : r.Levels w.store (r.side ob.baseDenom) levels) {time : Nat} {e : Err}
    (h : step ch w (r.op time) = .error e) :
    let side := r.side ob.baseDenom
    let result := matchLevels side levels r.tokenIn.amount
    Says [(r.fits, none), (r.sender ≠ ch.contract, none),
      (r.tokenIn.amount ≠ 0 ∧ r.tokenIn.amount ≤ w.bank r.sender r.tokenIn.denom, none), (isActive w.store = true, plain "Orderbook is inactive"),
      (r.fee = 0, some [.words "Invalid swap: Provided swap fee does not match: expected 0 received ", .dec (r.fee / 10 ^ 18)]),
      (r.tokenIn.denom ≠ r.outDenom, plain "Invalid swap: Input and output denoms cannot be the same"),
      (r.pair ob.quoteDenom ob.baseDenom side, some [.words "Invalid pair: (", .words r.tokenIn.denom, .words ", ", .words r.outDenom, .words ")"]),
      (ch.addrValid r.sender = true, none), (r.targetOk ob side, badTick (r.target.getD 0)),
      (matchError side levels r.tokenIn.amount = none, matchSays side levels r.tokenIn.amount),
      (r.mustFill side → ∀ F left dust, result = some (F, left, dust) → usedUp side F left,
        plain "Orderbook ran out of liquidity during market order"),
      (∀ F left dust, result = some (F, left, dust) → r.minOut ≤ (F.map Prod.snd).sum,
        some [.words "Invalid swap: Did not meet minimum swap amount: expected ", .nat r.minOut, .words " received ", .nat (outputOf result)]),
      (∀ F left dust, result = some (F, left, dust) → (F.map Prod.snd).sum ≠ 0, none)] e.text := by
  have := says_of_fails ((C50_swap_errors hw hn hob r hl time e).1 h)
  simp only [List.map_cons, List.map_nil, matchError_says] at this
  exact this

/-- C92: a rejected configuration message says why. -/
theorem C92_config {ch : Chain} {w : World} {sender : Addr} {funds : List Coin} {time : Nat} {m : AuthMsg} {e : Err}
    (h : step ch w (.execute sender funds time (.auth m)) = .error e) :
    Says [(sender ≠ ch.contract, none), (m.wellTyped = true, none), ((∃ bank, w.bank.sendAll sender ch.contract funds = .ok bank), none),
      (MayCall (roles w.store) sender m, plain "Unauthorized"), (Sensible ch.addrValid sender m, badArgumentSays m)] e.text := by
  have := says_of_fails ((C59_auth_errors ch w sender funds time m e).1 h)
  cases m <;> exact this

/-- C92: so does a rejected call of the chain's governance (a bad address is refused by the chain's own address check). -/
theorem C92_gov {ch : Chain} {w : World} {time : Nat} {m : SudoMsg} {argument : Bool} (hm : GovCall ch.addrValid m = some argument) {e : Err}
    (h : step ch w (.sudo time m) = .error e) : Says [(isActive w.store = true, plain "Orderbook is inactive"), (argument = true, none)] e.text :=
  says_of_fails ((C59_gov_errors ch w time m hm e).1 h)

/-- C92: a rejected instantiation says why (a denom without a supply is not named). -/
theorem C92_instantiate (env : Env) (supply : Denom → Nat) (quote base : Denom) (s : Store) (e : Err)
    (h : instantiate env supply quote base Store.empty = .err e s) :
    Says [(env.addrValid govAddr = true, none), (env.addrValid circuitBreakerAddr = true, none),
      (quote ≠ base, plain "Base and quote denoms cannot be the same"), (supply quote ≠ 0, plain "Invalid denom"),
      (supply base ≠ 0, plain "Invalid denom"), (env.addrValid feeAddr = true, plain "Invalid Maker Fee Recipient")] e.text := by
  have hfee : decide (DEFAULT_MAKER_FEE ≤ MAX_MAKER_FEE_PERCENTAGE) = true := by decide
  refine says_of_fails (l := [(env.addrValid govAddr = true, .std), (env.addrValid circuitBreakerAddr = true, .std), (quote ≠ base, .duplicateDenoms),
    (supply quote ≠ 0, .invalidDenom quote), (supply base ≠ 0, .invalidDenom base), (env.addrValid feeAddr = true, .invalidMakerFeeRecipient)]) ?_
  unfold instantiate createOrderbook setMakerFee setMakerFeeRecipient saveOrderbook at h
  rw [hfee] at h
  have e4 : env.addrValid govAddr = env.addrValid OSMOSIS_GOV_ADDR := rfl
  have e5 : env.addrValid circuitBreakerAddr = env.addrValid CIRCUIT_BREAKER_SUBDAO_ADDR := rfl
  have e6 : env.addrValid feeAddr = env.addrValid DEFAULT_MAKER_FEE_RECIPIENT := rfl
  rw [e4, e5, e6]
  simp only [Fails]
  by_cases c1 : env.addrValid OSMOSIS_GOV_ADDR = true
  swap
  · left
    rw [Bool.not_eq_true] at c1
    rw [c1] at h
    exact ⟨by simp [c1], by cases h; rfl⟩
  refine Or.inr ⟨c1, ?_⟩
  rw [c1] at h
  by_cases c2 : env.addrValid CIRCUIT_BREAKER_SUBDAO_ADDR = true
  swap
  · left
    rw [Bool.not_eq_true] at c2
    rw [c2] at h
    exact ⟨by simp [c2], by cases h; rfl⟩
  refine Or.inr ⟨c2, ?_⟩
  rw [c2] at h
  by_cases c3 : quote ≠ base
  swap
  · left
    rw [decide_eq_false c3] at h
    exact ⟨c3, by cases h; rfl⟩
  refine Or.inr ⟨c3, ?_⟩
  rw [decide_eq_true c3] at h
  by_cases c4 : supply quote ≠ 0
  swap
  · left
    rw [decide_eq_false c4] at h
    exact ⟨c4, by cases h; rfl⟩
  refine Or.inr ⟨c4, ?_⟩
  rw [decide_eq_true c4] at h
  by_cases c5 : supply base ≠ 0
  swap
  · left
    rw [decide_eq_false c5] at h
    exact ⟨c5, by cases h; rfl⟩
  refine Or.inr ⟨c5, ?_⟩
  rw [decide_eq_true c5] at h
  by_cases c6 : env.addrValid DEFAULT_MAKER_FEE_RECIPIENT = true
  swap
  · left
    rw [Bool.not_eq_true] at c6
    rw [c6] at h
    exact ⟨by simp [c6], by cases h; rfl⟩
  rw [c6] at h
  cases h

/-- The words a text begins with, for every kind of reason. -/
def openings : List (Err × String) :=
  [(.payment (.missingDenom ""), "Must send reserve token '"), (.payment .multipleDenoms, "Sent more than one denomination"),
   (.payment .noFunds, "No funds sent"), (.payment .nonPayable, "This message does no accept funds"), (.unauthorized, "Unauthorized"),
   (.invalidTickId 0, "Invalid tick ID: "), (.invalidQuantity 0, "Invalid quantity: Uint128("), (.insufficientFunds 0 0, "Insufficient funds. Sent: Uint128("),
   (.invalidPair "" "", "Invalid pair: ("), (.invalidSwap .zeroInput, "Invalid swap: Input amount cannot be zero"),
   (.invalidSwap .zeroStep, "Invalid swap: Input amount for a given swap step cannot be zero"),
   (.invalidSwap .sameDenoms, "Invalid swap: Input and output denoms cannot be the same"),
   (.invalidSwap (.maxIn 0 0), "Invalid swap: Exceeded max swap amount: expected "),
   (.invalidSwap (.minOut 0 0), "Invalid swap: Did not meet minimum swap amount: expected "),
   (.invalidSwap (.fee 0), "Invalid swap: Provided swap fee does not match: expected 0 received "), (.invalidDenom "", "Invalid denom"),
   (.duplicateDenoms, "Base and quote denoms cannot be the same"), (.orderNotFound 0 0, "Order not found: "), (.tickOutOfBounds 0, "Tick out of bounds: "),
   (.invalidNodeType, "Invalid Node Type"), (.childlessInternalNode, "Childless Internal Node"),
   (.cancelFilledOrder, "Cannot cancel an order that has partially or fully been filled"),
   (.invalidTickSync, "Invalid tick state: syncing tick pushed ETAS past CTT"), (.zeroClaim, "Zero Claim: Nothing to be claimed yet"),
   (.nodeInsertionError, "Node insertion error"), (.insufficientLiquidity, "Orderbook ran out of liquidity during market order"),
   (.invalidClaimBounty none, "Claim bounty must be a value between 0 and 0.01 (1%). Received: None"),
   (.invalidClaimBounty (some 0), "Claim bounty must be a value between 0 and 0.01 (1%). Received: Some(Decimal256("),
   (.batchClaimLimitExceeded 0, "Exceeded the maximum number of claims in a batch. Maximum allowed: "), (.inactive, "Orderbook is inactive"),
   (.noMakerFeeRecipient, "No maker fee recipient currently set"), (.invalidMakerFeeRecipient, "Invalid Maker Fee Recipient"),
   (.invalidMakerFee, "Invalid Maker Fee: provided fee must be less than or equal to Decimal256(")]

/-- No opening is the beginning of another one. -/
theorem openings_apart : ∀ x ∈ openings, ∀ y ∈ openings, (x.2.toList.isPrefixOf y.2.toList) = true → x.1 = y.1 := by decide +kernel

theorem opening_of {e : Err} {s : String} {rest : List Piece} (h : (kindOf e, s) ∈ openings) :
    ∃ x ∈ openings, x.1 = kindOf e ∧ ∃ r, Piece.words s :: rest = .words x.2 :: r := ⟨(kindOf e, s), h, rfl, rest, rfl⟩

/-- The first piece of the wording of a reason is the opening of its kind. -/
theorem pieces_opening (e : Err) {ps : List Piece} (h : e.pieces = some ps) : ∃ x ∈ openings, x.1 = kindOf e ∧ ∃ rest, ps = .words x.2 :: rest := by
  cases e
  all_goals first | (cases h; done) | skip
  case payment p => cases p <;> cases h <;> exact opening_of (by simp [openings, kindOf])
  case invalidSwap p => cases p <;> cases h <;> exact opening_of (by simp [openings, kindOf])
  case invalidClaimBounty p => cases p <;> cases h <;> exact opening_of (by simp [openings, kindOf])
  all_goals cases h; exact opening_of (by simp [openings, kindOf])

/-- C92: two reasons of different kinds never have the same text. -/
theorem C92_kinds {e e' : Err} {t : List Char} (h : e.text = some t) (h' : e'.text = some t) : kindOf e = kindOf e' := by
  have key : ∀ e : Err, e.text = some t → ∃ x ∈ openings, x.1 = kindOf e ∧ x.2.toList <+: t := by
    intro e h
    have hm := text_pieces e
    rw [h] at hm
    cases hp : e.pieces with
    | none => rw [hp] at hm; cases hm
    | some ps =>
      rw [hp] at hm
      obtain ⟨x, hx, hk, rest, rfl⟩ := pieces_opening e hp
      obtain ⟨ts, hts, ht⟩ := hm
      cases hts with
      | cons h1 _ => exact ⟨x, hx, hk, by cases ht; cases h1; exact ⟨_, rfl⟩⟩
  obtain ⟨x, hx, hk, hp⟩ := key e h
  obtain ⟨y, hy, hk', hp'⟩ := key e' h'
  rw [← hk, ← hk']
  rcases List.prefix_or_prefix_of_prefix hp hp' with hq | hq
  · exact openings_apart x hx y hy (List.isPrefixOf_iff_prefix.2 hq)
  · exact (openings_apart y hy x hx (List.isPrefixOf_iff_prefix.2 hq)).symm

/-- What a rejection says, for the examples. -/
def said (ch : Chain) (w : World) (op : Op) : Option (List Char) := (reason ch w op).bind Err.text

/-- Non-vacuity: what rejected messages say on the demo book. -/
example : said Demo.ch Demo.after (Demo.place "zed" 200000000 .bid 5 none) = some "Invalid tick ID: 200000000".toList ∧
    said Demo.ch Demo.after (Demo.place "zed" 1 .bid 5 (some (10 ^ 16 + 1))) =
      some "Claim bounty must be a value between 0 and 0.01 (1%). Received: Some(Decimal256(0.010000000000000001))".toList ∧
    said Demo.ch Demo.after (.execute "zed" [⟨"b", 5⟩] 7 (.placeLimit 1 .bid 5 none)) = some "Must send reserve token 'q'".toList ∧
    said Demo.ch Demo.after (.execute "zed" [⟨"q", 6⟩] 7 (.placeLimit 1 .bid 5 none)) =
      some "Insufficient funds. Sent: Uint128(6), Required: Uint128(5)".toList ∧
    said Demo.ch Demo.after (Demo.cancel "dave" 0 77) = some "Order not found: 0, 77".toList ∧
    said Demo.ch Demo.after (Demo.claim "zed" (-99) 0) = some "Invalid tick ID: -99".toList ∧
    said Demo.ch Demo.after (.execute "zed" [] 7 (.batchClaim (List.replicate 101 (0, 3)))) =
      some "Exceeded the maximum number of claims in a batch. Maximum allowed: 100".toList ∧
    said Demo.ch Demo.after (Demo.sell "zed" 300000 170001) =
      some "Invalid swap: Did not meet minimum swap amount: expected 170001 received 170000".toList ∧
    said Demo.ch Demo.after (.sudo 7 (.swapExactAmountIn "zed" ⟨"b", 5⟩ "x" 0 0)) = some "Invalid pair: (b, x)".toList ∧
    said Demo.ch Demo.after (.sudo 7 (.swapExactAmountIn "zed" ⟨"b", 5⟩ "q" 0 1)) =
      some "Invalid swap: Provided swap fee does not match: expected 0 received 0.000000000000000001".toList ∧
    said Demo.ch Demo.after (.execute Demo.gov [] 0 (.auth (.setMakerFee (6 * 10 ^ 16)))) =
      some "Invalid Maker Fee: provided fee must be less than or equal to Decimal256(0.05)".toList := by
  refine ⟨?_, ?_, ?_, ?_, ?_, ?_, ?_, ?_, ?_, ?_, ?_⟩ <;> decide +kernel

/-- Non-vacuity: an instantiation with equal denoms. -/
example : (match instantiate (Demo.ch.env 0) (fun _ => 1) "q" "q" Store.empty with | .err e _ => e.text | .ok _ _ => none) =
    some "Base and quote denoms cannot be the same".toList := by decide +kernel

end OB
