import Verif.Proofs.Demo
import Verif.SpecQuery
/-
tests/e2e: the end-to-end tests, on the model of the contract inside its chain (`Model/World.lean`).

The helper functions of tests/e2e/utils.rs and test_env.rs are transcribed as functions of the queries' answers and the balances; the tests of
cases/test_orders.rs are run with them. `test_decrementing_market_value` places orders on 900 ticks per direction, and the fuzz tests of
cases/test_fuzz.rs run for 30 seconds on random numbers of Rust's `StdRng`: here they run on a few ticks and with a short sequence of
pseudo-random numbers. What they assert is proved for all histories in C103 and C104. No property of MANIFEST.json rests on this file.
-/
namespace OB.E2E
open Spec

def BASE : Denom := "base"
def QUOTE : Denom := "quote"

def ch : Chain := ⟨"contract", fun a => decide (a ≠ "")⟩

/-- `setup!` (utils.rs:3-71); the accounts of `add_account` are rich from the start. -/
def setup : Option World :=
  let bank : Bank := fun a d => if a = "contract" then 0 else if a = "maker_fee_recipient" then 0
    else if a = "user1" ∨ a = "user2" then (if d = BASE ∨ d = QUOTE then 2000 else 0) else 10 ^ 24
  match instantiate (ch.env 0) (fun d => if d = BASE ∨ d = QUOTE then 10 else 0) QUOTE BASE Store.empty with
  | .err _ _ => none
  | .ok _ s =>
    if answer s .denoms = some (.denoms QUOTE BASE) ∧ answer s .getTotalPoolLiquidity = some (.coins [⟨BASE, 0⟩, ⟨QUOTE, 0⟩]) ∧
      answer s .isActive = some (.bool true) then some ⟨s, bank⟩ else none

def balance (w : World) (a : Addr) (d : Denom) : Nat := w.bank a d

/-- utils.rs:92-119 `pool_liquidity` -/
def poolLiquidity (w : World) (base quote : Nat) : Bool :=
  decide (answer w.store .getTotalPoolLiquidity = some (.coins [⟨BASE, base⟩, ⟨QUOTE, quote⟩]))

/-- utils.rs:122-145 `pool_balance` -/
def poolBalance (w : World) (base quote : Nat) : Bool := decide (balance w "contract" BASE = base ∧ balance w "contract" QUOTE = quote)

/-- utils.rs:148-176 `spot_price`; `Decimal256::inv` rounds down. -/
def spotPriceIs (w : World) (bid ask : Int) : Bool :=
  match tickToPrice bid, tickToPrice ask with
  | .ok b, .ok a => decide (answer w.store (.spotPrice QUOTE BASE) = some (.decimal b) ∧ answer w.store (.spotPrice BASE QUOTE) = some (.decimal (D * D / a)))
  | _, _ => false

/-- test_env.rs:241-258 `get_directional_liquidity`: base for bids, quote for asks (sic). -/
def directionalLiquidity (w : World) (d : Dir) : Nat :=
  match answer w.store .getTotalPoolLiquidity with
  | some (.coins cs) => ((cs.filter fun c => decide (c.denom = (match d with | .bid => BASE | .ask => QUOTE))).map Coin.amount).sum
  | _ => 0

/-- utils.rs:180-201 `has_liquidity` -/
def hasLiquidity (w : World) : Bool :=
  decide (directionalLiquidity w .bid ≤ balance w "contract" BASE ∧ directionalLiquidity w .ask ≤ balance w "contract" QUOTE)

/-- test_env.rs:279-300 `collect_all_ticks` (the page of 300 is never full here) -/
def allTicksOf (w : World) : List (Int × TickState) :=
  match answer w.store (.allTicks (some MIN_TICK) (some MAX_TICK) (some 300)) with
  | some (.ticks l) => l
  | _ => []

def valuesOf (t : TickState) : Dir → TickValues
  | .ask => t.askValues
  | .bid => t.bidValues

/-- utils.rs:204-237 `has_fillable_liqudity` -/
def fillable (d : Dir) (t : Int × TickState) : Bool :=
  match tickToPrice t.1 with
  | .ok p => match amountToValue d ((valuesOf t.2 d).tal / D) p .down with | .ok x => decide (x ≠ 0) | .error _ => false
  | .error _ => false

/-- utils.rs:245-296 `tick_invariants` -/
def tickInvariants (w : World) : Bool :=
  match answer w.store .orderbookState with
  | some (.book ob) =>
    let ticks := allTicksOf w
    [Dir.bid, .ask].all fun d =>
      (ticks.all fun t => decide ((valuesOf t.2 d).etas ≤ (valuesOf t.2 d).ctv)) &&
      ((ticks.filter (fillable d)).all fun t => match d with | .bid => decide (t.1 ≤ ob.nextBidTick) | .ask => decide (ob.nextAskTick ≤ t.1))
  | _ => false

/-- test_env.rs:218-239 `get_out_given_in` -/
def outGivenIn (w : World) (d : Dir) (n : Nat) : Option Coin :=
  let (i, o) := match d with | .bid => (QUOTE, BASE) | .ask => (BASE, QUOTE)
  match answer w.store (.calcOutAmountGivenIn ⟨i, n⟩ o 0) with
  | some (.coin c) => some c
  | _ => none

/-- test_env.rs:358-390 `get_max_market_amount` -/
def maxMarket (w : World) (d : Dir) : Nat :=
  ((allTicksOf w).map fun t =>
    match tickToPrice t.1 with
    | .ok p => match amountToValue d.opposite ((valuesOf t.2 d.opposite).tal / D) p .down with | .ok x => x | .error _ => 0
    | .error _ => 0).sum

/-- test_env.rs:260-277 `get_order` -/
def getOrder (w : World) (a : Addr) (t : Int) (id : Nat) : Option LimitOrder :=
  match answer w.store (.ordersByOwner a (some (t, id)) none (some 1)) with
  | some (.orders _ l) => l.head?
  | _ => none

/-- test_env.rs:396-440 `get_order_claimable_amount` -/
def claimable (w : World) (o : LimitOrder) : Nat :=
  match answer w.store (.allTicks (some o.tickId) none (some 1)), answer w.store (.getUnrealizedCancels [o.tickId]) with
  | some (.ticks ((_, t) :: _)), some (.unrealized ((_, ask, bid) :: _)) =>
    min (((valuesOf t o.dir).etas + (match o.dir with | .ask => ask | .bid => bid) - o.etas) / D) o.quantity
  | _, _ => 0

/-- test_env.rs:302-321 `collect_all_orders` -/
def allOrdersOf (w : World) : List LimitOrder :=
  (allTicksOf w).flatMap fun t => match answer w.store (.ordersByTick t.1 none none none) with | some (.orders _ l) => l | _ => []

/-- utils.rs:318-369 `clean_ticks` -/
def cleanTicks (w : World) : Bool :=
  (allTicksOf w).all fun t =>
    match answer w.store (.getUnrealizedCancels [t.1]) with
    | some (.unrealized ((_, ask, bid) :: _)) => [(Dir.ask, ask), (.bid, bid)].all fun x =>
        decide ((valuesOf t.2 x.1).tal = 0 ∧ (valuesOf t.2 x.1).etas + x.2 = (valuesOf t.2 x.1).ctv)
    | _ => false

def denomFor : Dir → Denom
  | .bid => QUOTE
  | .ask => BASE

def run (w : World) (op : Op) : Option World :=
  match step ch w op with
  | .ok r => some r.1
  | .error _ => none

def errOf (w : World) (op : Op) : Option Err :=
  match step ch w op with
  | .ok _ => none
  | .error e => some e

/-- utils.rs:462-492 `place_limit` -/
def placeOp (t : Int) (d : Dir) (q : Nat) (bounty : Option Nat) (a : Addr) : Op := .execute a [⟨denomFor d, q⟩] 5 (.placeLimit t d q bounty)

/-- utils.rs:494-528 `place_market` -/
def marketOp (d : Dir) (q : Nat) (a : Addr) : Op := .sudo 5 (.swapExactAmountIn a ⟨denomFor d, q⟩ (denomFor d.opposite) 1 0)

/-- utils.rs:399-446 `balance_changes`: every listed account gained exactly that much. -/
def changes (w w' : World) (l : List (Addr × Denom × Nat)) : Bool := l.all fun x => decide (balance w' x.1 x.2.1 - balance w x.1 x.2.1 = x.2.2)

/-- utils.rs:531-563 `place_market_and_assert_balance` -/
def market (w : World) (d : Dir) (q : Nat) (a : Addr) : Option World := do
  let c ← outGivenIn w d q
  let w' ← run w (marketOp d q a)
  if changes w w' [(a, c.denom, c.amount)] then some w' else none

/-- utils.rs:582-668 `claim_and_assert_balance` -/
def claimChecked (w : World) (sender owner : Addr) (t : Int) (id : Nat) : Option World := do
  let o ← getOrder w owner t id
  let p ← (tickToPrice o.tickId).toOption
  let value ← (amountToValue o.dir (claimable w o) p .down).toOption
  let fee ← match answer w.store .getMakerFee with | some (.decimal x) => some x | _ => none
  let bounty := if o.owner ≠ sender then (match o.claimBounty with | some b => value * b / D | none => 0) else 0
  let makerFee := value * fee / D
  let d := denomFor o.dir.opposite
  let w' ← run w (.execute sender [] 5 (.claimLimit t id))
  if changes w w' ([(o.owner, d, value - bounty - makerFee), (sender, d, bounty), ("maker_fee_recipient", d, makerFee)].filter fun x => decide (x.2.2 ≠ 0))
  then some w' else none

/-- utils.rs:685-716 `cancel_limit_and_assert_balance` -/
def cancelChecked (w : World) (a : Addr) (t : Int) (id : Nat) : Option World := do
  let o ← getOrder w a t id
  let w' ← run w (.execute a [] 5 (.cancelLimit t id))
  if changes w w' [(a, denomFor o.dir, o.quantity)] then some w' else none

def check (b : Bool) : Option Unit := if b then some () else none

/-- test_orders.rs:13-21 -/
structure BasicCase where
  placed : Nat
  filled : Nat
  tick : Int
  bounty : Option Nat
  dir : Dir
  claimer : Addr

/-- test_orders.rs:24-76 -/
def basicCases : List BasicCase := [
  ⟨10, 10, 0, none, .ask, "user1"⟩,
  ⟨10, 10, 0, none, .bid, "user1"⟩,
  ⟨10, 5, 0, none, .ask, "user1"⟩,
  ⟨10, 5, 0, none, .bid, "user1"⟩,
  ⟨100, 100, 0, some (D / 100), .ask, "user1"⟩,
  ⟨100, 100, 0, some (D / 100), .ask, "user2"⟩]

/-- test_orders.rs:77-156 -/
def BasicCase.run (c : BasicCase) : Option Unit := do
  let w ← setup
  let (bid, ask) := match c.dir with | .ask => (MIN_TICK, c.tick) | .bid => (c.tick, MAX_TICK)
  let w ← E2E.run w (placeOp c.tick c.dir c.placed c.bounty "user1")
  check <| match c.dir with
    | .ask => poolLiquidity w c.placed 0 && poolBalance w c.placed 0
    | .bid => poolLiquidity w 0 c.placed && poolBalance w 0 c.placed
  check (spotPriceIs w bid ask)
  let w ← market w c.dir.opposite c.filled "user2"
  check <| match c.dir with
    | .ask => poolLiquidity w (c.placed - c.filled) 0 && poolBalance w (c.placed - c.filled) c.filled
    | .bid => poolLiquidity w 0 (c.placed - c.filled) && poolBalance w c.filled (c.placed - c.filled)
  check (spotPriceIs w bid ask)
  let w ← claimChecked w c.claimer "user1" 0 0
  check <| match c.dir with
    | .ask => poolLiquidity w (c.placed - c.filled) 0 && poolBalance w (c.placed - c.filled) 0
    | .bid => poolLiquidity w 0 (c.placed - c.filled) && poolBalance w 0 (c.placed - c.filled)
  check (spotPriceIs w bid ask)

/-- test_orders.rs:23-157 test_basic_order -/
theorem basic_order_pass : basicCases.all (fun c => c.run.isSome) = true := by decide +kernel

/-- test_orders.rs:159-214 test_cancelled_orders -/
def cancelledOrders : Option Unit := do
  let w ← setup
  let w ← (List.range 3).foldlM (fun w i => do
    let w ← run w (placeOp 0 .ask 100 none "user1")
    cancelChecked w "user1" 0 i) w
  check (poolLiquidity w 0 0 && poolBalance w 0 0 && tickInvariants w)
  let w ← run w (placeOp 0 .ask 100 none "user1")
  check (poolLiquidity w 100 0 && poolBalance w 100 0 && tickInvariants w)
  let w ← market w .bid 100 "user1"
  check (poolLiquidity w 0 0 && poolBalance w 0 100 && tickInvariants w)
  let w ← run w (.execute "user1" [] 5 (.claimLimit 0 3))
  check (tickInvariants w)

theorem cancelled_orders_pass : cancelledOrders.isSome = true := by decide +kernel

/-- utils.rs:299-322 `decrementing_market_order_output` -/
def decrementing (w : World) (prev n : Nat) (d : Dir) : Option Nat :=
  let out := ((outGivenIn w d n).map Coin.amount).getD 0
  if out ≤ prev then some out else none

/-- test_orders.rs:252-266: place market orders while they are accepted; the number of orders. -/
def drain (d : Dir) (n : Nat) : Nat → World → Nat → Option (World × Nat)
  | 0, w, _ => some (w, 0)
  | k + 1, w, prev =>
    match run w (marketOp d n "user1") with
    | none => some (w, 0)
    | some w' => do
      let prev' ← decrementing w' prev n d
      check (tickInvariants w')
      let (w'', c) ← drain d n k w' prev'
      some (w'', c + 1)

/-- test_orders.rs:216-273 test_decrementing_market_value, on five ticks with smaller market orders. -/
def decrementingMarketValue : Option Unit := do
  let w ← setup
  let w ← [Dir.ask, .bid].foldlM (fun w d => do
    let w ← [-4500000, -2250000, 0, 2250000, 4490000].foldlM (fun w t => run w (placeOp t d 10 none "maker")) w
    let n := 7
    let prev ← decrementing w (U128 - 1) n d.opposite
    check (decide (prev ≠ 0))
    let (w, c) ← drain d.opposite n 30 w prev
    check (decide (0 < c))
    some w) w
  check (tickInvariants w)

theorem decrementing_market_value_pass : decrementingMarketValue.isSome = true := by decide +kernel

/-- A pseudo-random number generator in the place of `StdRng`. -/
def next (seed : Nat) : Nat := (seed * 6364136223846793005 + 1442695040888963407) % 2 ^ 64
/-- A number below `n` from a seed. -/
def pick (seed n : Nat) : Nat := seed / 2 ^ 24 % n

structure FuzzState where
  w : World
  orders : List (Nat × Addr × Int)
  count : Nat
  /-- How often each of the four operations succeeded. -/
  used : Nat × Nat × Nat × Nat

/-- test_fuzz.rs:296-437 `MixedFuzzOperation::run`; `none` if an assertion fails. An operation that cannot be run is skipped. -/
def FuzzState.op (s : FuzzState) (lo : Int) (span : Nat) (seed : Nat) (i : Nat) : Option FuzzState := do
  let s1 := next seed
  let s2 := next s1
  let s3 := next s2
  let s4 := next s3
  let a := "user_" ++ toString i
  let x := pick s1 101
  if x < 25 then
    let d := if pick s2 2 = 0 then Dir.bid else .ask
    let t : Int := lo + pick s3 span
    let bounty := if pick s4 5 < 4 then some (pick (next s4) 2 * (D / 100)) else none
    let w ← run s.w (placeOp t d (s4 + 1) bounty a)
    some { s with w := w, orders := s.orders ++ [(s.count, a, t)], count := s.count + 1, used := (s.used.1 + 1, s.used.2) }
  else if x < 50 then
    let d := if directionalLiquidity s.w .bid = 0 then Dir.ask else if directionalLiquidity s.w .ask = 0 then .bid else if pick s2 2 = 0 then .bid else .ask
    let n := pick s3 (maxMarket s.w d + 1)
    match outGivenIn s.w d n with
    | none => some s
    | some c =>
      if c.amount = 0 then some s else do
      let w ← market s.w d n a
      some { s with w := w, used := (s.used.1, s.used.2.1 + 1, s.used.2.2) }
  else
    match s.orders[pick s2 s.orders.length]? with
    | none => some s
    | some (id, owner, t) => do
      let o ← getOrder s.w owner t id
      if x < 75 then
        if 0 < claimable s.w o then
          check (decide (errOf s.w (.execute owner [] 5 (.cancelLimit t id)) = some .cancelFilledOrder))
          some s
        else
          let w ← cancelChecked s.w owner t id
          some { s with w := w, orders := s.orders.filter fun e => decide (e.1 ≠ id), used := (s.used.1, s.used.2.1, s.used.2.2.1 + 1, s.used.2.2.2) }
      else if claimable s.w o = 0 then
        check (decide (errOf s.w (.execute owner [] 5 (.claimLimit t id)) = some .zeroClaim))
        some s
      else
        let claimant := if o.claimBounty.isSome then "claimant" else owner
        let w ← claimChecked s.w claimant owner t id
        let gone := decide ((getOrder w owner t id).map (fun o => o.orderId) ≠ some id)
        some { s with w := w, orders := s.orders.filter fun e => decide (e.1 ≠ id ∨ gone = false),
                      used := (s.used.1, s.used.2.1, s.used.2.2.1, s.used.2.2.2 + 1) }

/-- test_fuzz.rs:466-520: the operations, each followed by the invariants -/
def FuzzState.loop (lo : Int) (span : Nat) : Nat → Nat → FuzzState → Option FuzzState
  | 0, _, s => some s
  | n + 1, seed, s => do
    let s' ← s.op lo span seed n
    check (tickInvariants s'.w && hasLiquidity s'.w)
    loop lo span n (next (seed + 12345)) s'

/-- test_fuzz.rs:657-716 `clear_remaining_orders` -/
def clear (w : World) (orders : List (Nat × Addr × Int)) : Option World :=
  orders.foldlM (fun w (id, a, t) => do
    let here := fun w => decide ((getOrder w a t id).map (fun o => o.orderId) = some id)
    let w := (claimChecked w a a t id).getD w
    if here w then
      let w := (cancelChecked w a t id).getD w
      check (!here w)
      some w
    else some w) w

/-- test_fuzz.rs:447-534 `run_fuzz_mixed` -/
def fuzzMixed (n : Nat) (lo : Int) (span seed : Nat) : Option (Nat × Nat × Nat × Nat) := do
  let w ← setup
  let s ← FuzzState.loop lo span n seed ⟨w, [], 0, (0, 0, 0, 0)⟩
  let w ← clear s.w s.orders.reverse
  check (decide ((allOrdersOf w).length = 0) && cleanTicks w)
  some s.used

/-- test_fuzz.rs:124-130, 132-139, 142-149, 151-158, 160-167, with 60 operations: every operation succeeds at least once, and the assertions hold. -/
theorem fuzz_mixed_pass : [((-20 : Int), 41, 123456789), (0, 1, 123456789), (-4500000, 11, 1234567), (4499990, 11, 1234567), (-108000000, 11, 1234567)].all
    (fun x => match fuzzMixed 60 x.1 x.2.1 x.2.2 with | some (a, b, c, d) => decide (0 < a ∧ 0 < b ∧ 0 < c ∧ 0 < d) | none => false) = true := by
  decide +kernel

end OB.E2E
