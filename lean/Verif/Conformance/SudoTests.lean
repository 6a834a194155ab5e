import Verif.Conformance.Harness
/- The loops of tests/test_sudo.rs -/
namespace OB.Conf

/-- test_sudo.rs:31-38 -/
structure ValidateCase where
  maxIn : Nat
  minOut : Nat
  input : Coin
  output : Coin
  err : Option Err

/-- test_sudo.rs:93-110 -/
def ValidateCase.run (c : ValidateCase) : Bool :=
  expect (validateOutputAmount c.maxIn c.minOut c.input c.output) () c.err

/-- test_sudo.rs:113-126 -/
structure SwapCase where
  ops : List TOp
  tokenIn : Coin
  out : Denom
  min : Nat
  fee : Nat
  target : Option Int
  output : Coin
  numMsgs : Nat
  refund : Option SendMsg
  err : Option Err

/-- test_sudo.rs:352-433 -/
def SwapCase.run (c : SwapCase) : Bool :=
  onOk (setup "sender" c.ops Store.empty) fun _ s =>
    let r := dispatchSwapExactAmountIn env "sender" c.tokenIn c.out c.min c.fee c.target s
    match c.err with
    | some e => onErr r e fun _ => true
    | none => onOk r fun resp _ =>
        decide (resp.msgs.length = c.numMsgs) &&
        decide (resp.msgs.head? = some ⟨"sender", c.output, REPLY_ID_SUDO_SWAP_EXACT_IN⟩) &&
        (match c.refund with
          | some m => decide (resp.msgs[1]? = some m)
          | none => true) &&
        decide (resp.data = some c.output.amount)

/-- `if let Some(active) = test.active_status { set_active(deps.as_mut(), active).unwrap(); }` -/
def setActiveOpt : Option Bool → M Unit
  | none => pure ()
  | some b => do
    let _ ← setActive b
    pure ()

/-- test_sudo.rs:497-501 -/
structure ActiveCase where
  active : Option Bool
  err : Option Err

/-- test_sudo.rs:523-551 -/
def ActiveCase.run (c : ActiveCase) : Bool :=
  onOk (setActiveOpt c.active Store.empty) fun _ s =>
    match c.err with
    | some e => onErr (ensureIsActive s) e fun _ => true
    | none => onOk (ensureIsActive s) fun _ s => decide (s.isActive = c.active)

/-- test_sudo.rs:554-559 -/
structure ActiveExecCase where
  msg : ExecuteMsg
  active : Option Bool
  err : Option Err

/-- test_sudo.rs:623-661 -/
def ActiveExecCase.run (c : ActiveExecCase) : Bool :=
  onOk (setup "sender" [] Store.empty) fun _ s =>
  onOk (setActiveOpt c.active { s with admin := some "sender" }) fun _ s =>
    let r := execute env ⟨"sender", [⟨BASE, 100⟩]⟩ c.msg s
    match c.err with
    | some e => onErr r e fun _ => true
    | none => onOk r fun _ _ => true

/-- test_sudo.rs:664-670 -/
structure ActiveSudoCase where
  ops : List TOp
  msg : SudoMsg
  active : Option Bool
  err : Option Err

/-- test_sudo.rs:721-764 -/
def ActiveSudoCase.run (c : ActiveSudoCase) : Bool :=
  onOk (setup "sender" c.ops Store.empty) fun _ s =>
  onOk (setActiveOpt c.active { s with admin := some "sender" }) fun _ s =>
    let r := OB.sudo env c.msg s
    match c.err with
    | some e => onErr r e fun _ => true
    | none => onOk r fun _ _ => true

/-- test_sudo.rs:436-471 test_sudo_transfer_admin -/
theorem sudo_transfer_admin_pass :
    onOk (OB.sudo env (.transferAdmin "newadmin") Store.empty) (fun _ s =>
      decide (s.admin = some "newadmin") && onErr (OB.sudo env (.transferAdmin "ab") s) .std fun _ => true) = true := by
  decide +kernel

/-- test_sudo.rs:474-494 test_sudo_remove_admin -/
theorem sudo_remove_admin_pass :
    onOk (OB.sudo env .removeAdmin { Store.empty with admin := some "admin" }) (fun _ s => s.admin.isNone) = true := by
  decide +kernel

end OB.Conf
