import Verif.Model.World
/- The chain around the contract with a bank that may refuse transfers for reasons of its own: blocked accounts, disabled denoms,
send hooks of token-factory denoms. `Model/World.lean` is the case without such refusals. -/
namespace OB

/-- Environment (no code in /repo): which transfers (source, destination, coin) the bank refuses although they are covered. -/
abbrev Refusals := Addr → Addr → Coin → Bool

/-- Environment (no code in /repo): `Bank.send` of a bank with refusals, as requested at order.rs:206-211, 735-763 and sudo.rs:150-171. -/
def Bank.sendR (rf : Refusals) (b : Bank) (src dst : Addr) (c : Coin) : Except Err Bank :=
  if rf src dst c then .error .bank else b.send src dst c

/-- Environment (no code in /repo): attach funds to a call (`info.funds`, contract.rs:60). -/
def Bank.sendAllR (rf : Refusals) (b : Bank) (src dst : Addr) : List Coin → Except Err Bank
  | [] => .ok b
  | c :: cs => do
    let b ← b.sendR rf src dst c
    b.sendAllR rf src dst cs

/-- As `runSubMsgs`: submessages are run in order, and the contract's `reply` (contract.rs:180-189) is called for one that fails. -/
def runSubMsgsR (ch : Chain) (rf : Refusals) : World → List SendMsg → Except Err World
  | w, [] => .ok w
  | w, m :: ms =>
    match w.bank.sendR rf ch.contract m.to m.coin with
    | .ok bank => runSubMsgsR ch rf ⟨w.store, bank⟩ ms
    | .error _ =>
      match reply m.replyId false w.store with
      | .err e _ => .error e
      | .ok _ s => runSubMsgsR ch rf ⟨s, w.bank⟩ ms

/-- Environment (no code in /repo): as `runTx`. -/
def runTxR (ch : Chain) (rf : Refusals) (w : World) (bank : Bank) (x : M Response) : Except Err (World × Response) :=
  match x w.store with
  | .err e _ => .error e
  | .ok resp s =>
    match runSubMsgsR ch rf ⟨s, bank⟩ resp.msgs with
    | .error e => .error e
    | .ok w' => .ok (w', resp)

/-- Environment: as `step`, through the entry points contract.rs:52-101 and sudo.rs:20-98. -/
def stepR (ch : Chain) (rf : Refusals) (w : World) : Op → Except Err (World × Response)
  | .execute sender funds time msg => do
    if sender = ch.contract then .error .std
    else if !msg.wellTyped then .error .decode
    else do
      let bank ← w.bank.sendAllR rf sender ch.contract funds
      runTxR ch rf w bank (execute (ch.env time) ⟨sender, funds⟩ msg)
  | .sudo time msg =>
    if !msg.wellTyped then .error .decode
    else match msg.deposit with
      | none => runTxR ch rf w w.bank (sudo (ch.env time) msg)
      | some (sender, c) => do
        if sender = ch.contract then .error .std
        else do
          let bank ← w.bank.sendR rf sender ch.contract c
          runTxR ch rf w bank (sudo (ch.env time) msg)
  | .migrate => runTxR ch rf w w.bank migrate
  | .transfer src dst c =>
    if src = ch.contract then .error .std
    else do
      let bank ← w.bank.sendR rf src dst c
      pure (⟨w.store, bank⟩, {})
  | .mint dst c =>
    .ok (⟨w.store, fun a d => if a = dst ∧ d = c.denom then w.bank a d + c.amount else w.bank a d⟩, {})

/-- Environment (no code in /repo): effect of one operation: a failed one changes nothing. -/
def applyR (ch : Chain) (w : World) (x : Refusals × Op) : World :=
  match stepR ch x.1 w x.2 with
  | .ok (w', _) => w'
  | .error _ => w

/-- Environment (no code in /repo): run a history, in which the bank may refuse other transfers at each operation. -/
def runR (ch : Chain) (w : World) (xs : List (Refusals × Op)) : World := xs.foldl (applyR ch) w

end OB
