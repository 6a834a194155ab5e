import Verif.Model.Query
/- contract.rs entry points, and the chain around the contract: bank balances, message dispatch, transactions. -/
namespace OB

/-- msg.rs:14-34 -/
inductive ExecuteMsg where
  | placeLimit (tick : Int) (dir : Dir) (quantity : Nat) (claimBounty : Option Nat)
  | cancelLimit (tick : Int) (orderId : Nat)
  | claimLimit (tick : Int) (orderId : Nat)
  | batchClaim (orders : List (Int × Nat))
  | auth (msg : AuthMsg)
  deriving DecidableEq, Repr

/-- contract.rs:26-49 `instantiate` (contract version metadata is not modelled) -/
def instantiate (env : Env) (supply : Denom → Nat) (quote base : Denom) : M Response := do
  EM.ensure (env.addrValid OSMOSIS_GOV_ADDR) .std
  EM.modify fun s => { s with admin := some OSMOSIS_GOV_ADDR }
  EM.ensure (env.addrValid CIRCUIT_BREAKER_SUBDAO_ADDR) .std
  EM.modify fun s => { s with moderator := some CIRCUIT_BREAKER_SUBDAO_ADDR }
  createOrderbook env supply quote base
  pure { events := [.method "instantiate" [("quote_denom", .str quote), ("base_denom", .str base)]] }

/-- contract.rs:52-54 `migrate` -/
def migrate : M Response := pure {}

/-- contract.rs:63-67: the active check, skipped for `Auth` messages -/
def activeGate : ExecuteMsg → M Unit
  | .auth _ => pure ()
  | _ => ensureIsActive

/-- contract.rs:57-101 `execute` -/
def execute (env : Env) (info : MessageInfo) (msg : ExecuteMsg) : M Response := do
  activeGate msg
  match msg with
  | .placeLimit tick dir quantity bounty => placeLimit env info tick dir quantity bounty
  | .cancelLimit tick id => cancelLimit env info tick id
  | .claimLimit tick id => claimLimit env info tick id
  | .batchClaim orders => batchClaimLimits info env orders
  | .auth m => authDispatch env info m

/-- contract.rs:180-189 `reply`: called on the error of a submessage (`reply_on_error`); always fails then. -/
def reply (id : Nat) (resultOk : Bool) : M Response := do
  EM.ensure resultOk (.replyError id)
  pure {}

/-- Integers that serde accepts for an `i64` (tick ids, msg.rs:17-31). -/
def i64Ok (t : Int) : Bool := decide (-(2 ^ 63 : Int) ≤ t ∧ t < 2 ^ 63)

/-- Integers that serde accepts for the fields of msg.rs:36-55 (`Decimal256`). -/
def AuthMsg.wellTyped : AuthMsg → Bool
  | .setMakerFee fee => decide (fee < U256)
  | _ => true

/-- Integers that serde accepts for the fields of msg.rs:14-34 (`i64`, `u64`, `Uint128`, `Decimal256`). -/
def ExecuteMsg.wellTyped : ExecuteMsg → Bool
  | .placeLimit tick _ q b => i64Ok tick && decide (q < U128) && (match b with | none => true | some b => decide (b < U256))
  | .cancelLimit tick id => i64Ok tick && decide (id < U64)
  | .claimLimit tick id => i64Ok tick && decide (id < U64)
  | .batchClaim orders => orders.all fun p => i64Ok p.1 && decide (p.2 < U64)
  | .auth m => m.wellTyped

/-- Integers that serde accepts for the fields of `SudoMsg` (msg.rs:226-270; `Uint128`, `Decimal`, `i64`). -/
def SudoMsg.wellTyped : SudoMsg → Bool
  | .swapExactAmountIn _ c _ m f => decide (c.amount < U128) && decide (m < U128) && decide (f < U128)
  | .swapToTick _ c _ m f t => decide (c.amount < U128) && decide (m < U128) && decide (f < U128) && i64Ok t
  | .swapExactAmountOut _ _ m c f => decide (c.amount < U128) && decide (m < U128) && decide (f < U128)
  | _ => true

/-! ### Bank and transactions (environment of the contract, see the trusted base) -/

/-- Bank balances (environment: the chain's bank module, no code in /repo). -/
abbrev Bank := Addr → Denom → Nat

/-- Environment (no code in /repo): `x/bank` send of one coin, as requested at order.rs:206-211, 735-763 and sudo.rs:150-171: rejects zero amounts and insufficient balances. -/
def Bank.send (b : Bank) (src dst : Addr) (c : Coin) : Except Err Bank :=
  if c.amount = 0 then .error .bank
  else if b src c.denom < c.amount then .error .bank
  else
    let b1 : Bank := fun a d => if a = src ∧ d = c.denom then b a d - c.amount else b a d
    .ok fun a d => if a = dst ∧ d = c.denom then b1 a d + c.amount else b1 a d

/-- Environment (no code in /repo): attach funds to a call (`info.funds`, contract.rs:60). -/
def Bank.sendAll (b : Bank) (src dst : Addr) : List Coin → Except Err Bank
  | [] => .ok b
  | c :: cs => do
    let b ← b.send src dst c
    b.sendAll src dst cs

/-- Environment (no code in /repo): the chain's state as seen by the contract. -/
structure World where
  store : Store
  bank : Bank

/-- Environment (no code in /repo): fixed parameters of the chain: the contract's address and address validation. -/
structure Chain where
  contract : Addr
  addrValid : Addr → Bool

/-- The `Env` of a call (contract.rs:59). -/
def Chain.env (ch : Chain) (time : Nat) : Env := ⟨ch.contract, time, ch.addrValid⟩

/-- Environment: transactions, through the entry points contract.rs:52-101 and sudo.rs:20-98. `transfer`/`mint` stand for anything other accounts do with the bank. -/
inductive Op where
  | execute (sender : Addr) (funds : List Coin) (time : Nat) (msg : ExecuteMsg)
  | sudo (time : Nat) (msg : SudoMsg)
  | migrate
  | transfer (src dst : Addr) (coin : Coin)
  | mint (dst : Addr) (coin : Coin)
  deriving DecidableEq, Repr

/-- The funds that the chain's pool module moves from the swap's sender to the contract before calling `sudo`
("CONTRACT: The caller must ensure that the necessary input funds were actually supplied", order.rs:435). -/
def SudoMsg.deposit : SudoMsg → Option (Addr × Coin)
  | .swapExactAmountIn sender c _ _ _ => some (sender, c)
  | .swapToTick sender c _ _ _ _ => some (sender, c)
  | _ => none

/-- The chain runs the submessages of a response in order. All of them are `reply_on_error` bank sends: after a failing one the
chain undoes its effects and calls the contract's `reply` (contract.rs:180-189) with the error; if `reply` succeeded the transaction
would go on with the next one, if it fails the transaction fails. (The response of `reply` carries no submessages.) -/
def runSubMsgs (ch : Chain) : World → List SendMsg → Except Err World
  | w, [] => .ok w
  | w, m :: ms =>
    match w.bank.send ch.contract m.to m.coin with
    | .ok bank => runSubMsgs ch ⟨w.store, bank⟩ ms
    | .error _ =>
      match reply m.replyId false w.store with
      | .err e _ => .error e
      | .ok _ s => runSubMsgs ch ⟨s, w.bank⟩ ms

/-- Environment (no code in /repo): run a handler on the store and dispatch the messages of its response. -/
def runTx (ch : Chain) (w : World) (bank : Bank) (x : M Response) : Except Err (World × Response) :=
  match x w.store with
  | .err e _ => .error e
  | .ok resp s =>
    match runSubMsgs ch ⟨s, bank⟩ resp.msgs with
    | .error e => .error e
    | .ok w' => .ok (w', resp)

/-- Environment: one transaction, through the entry points contract.rs:52-101 and sudo.rs:20-98. An error means the transaction is rolled back. The contract itself never sends messages to
contracts, so it is never the sender. -/
def step (ch : Chain) (w : World) : Op → Except Err (World × Response)
  | .execute sender funds time msg => do
    if sender = ch.contract then .error .std
    else if !msg.wellTyped then .error .decode
    else do
      let bank ← w.bank.sendAll sender ch.contract funds
      runTx ch w bank (execute (ch.env time) ⟨sender, funds⟩ msg)
  | .sudo time msg =>
    if !msg.wellTyped then .error .decode
    else match msg.deposit with
      | none => runTx ch w w.bank (sudo (ch.env time) msg)
      | some (sender, c) => do
        if sender = ch.contract then .error .std
        else do
          let bank ← w.bank.send sender ch.contract c
          runTx ch w bank (sudo (ch.env time) msg)
  | .migrate => runTx ch w w.bank migrate
  | .transfer src dst c =>
    if src = ch.contract then .error .std
    else do
      let bank ← w.bank.send src dst c
      pure (⟨w.store, bank⟩, {})
  | .mint dst c =>
    .ok (⟨w.store, fun a d => if a = dst ∧ d = c.denom then w.bank a d + c.amount else w.bank a d⟩, {})

/-- Environment (no code in /repo): effect of one operation: a failed one changes nothing. -/
def apply (ch : Chain) (w : World) (op : Op) : World :=
  match step ch w op with
  | .ok (w', _) => w'
  | .error _ => w

/-- Environment (no code in /repo): run a history. -/
def run (ch : Chain) (w : World) (ops : List Op) : World := ops.foldl (apply ch) w

/-- Worlds right after a successful instantiation (contract.rs:26-49; any bank state). -/
def Initial (ch : Chain) (w : World) : Prop :=
  ∃ time supply quote base resp,
    instantiate (ch.env time) supply quote base Store.empty = .ok resp w.store

/-- `w` is reached after `n` operations from an initial world (no code in /repo). -/
def ReachableIn (ch : Chain) (n : Nat) (w : World) : Prop :=
  ∃ w0 ops, Initial ch w0 ∧ ops.length = n ∧ w = run ch w0 ops

/-- `w` is reachable (no code in /repo). -/
def Reachable (ch : Chain) (w : World) : Prop := ∃ n, ReachableIn ch n w

end OB
