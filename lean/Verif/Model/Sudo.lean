import Verif.Model.Auth
/- sudo.rs -/
namespace OB

/-- msg.rs:225-270 -/
inductive SudoMsg where
  | swapExactAmountIn (sender : Addr) (tokenIn : Coin) (tokenOutDenom : Denom) (tokenOutMin swapFee : Nat)
  | swapToTick (sender : Addr) (tokenIn : Coin) (tokenOutDenom : Denom) (tokenOutMin swapFee : Nat) (targetTick : Int)
  | swapExactAmountOut (sender : Addr) (tokenInDenom : Denom) (tokenInMax : Nat) (tokenOut : Coin) (swapFee : Nat)
  | transferAdmin (newAdmin : Addr)
  | removeAdmin
  | setActive (active : Bool)
  deriving DecidableEq, Repr

/-- sudo.rs:272-278 -/
def ensureIsActive : M Unit := do
  let s ← EM.get
  EM.ensure (s.isActive.getD true) .inactive

/-- sudo.rs:243-253 -/
def ensureSwapFee (fee : Nat) : Except Err Unit :=
  if fee = EXPECTED_SWAP_FEE then .ok () else .error (.invalidSwap (.fee fee))

/-- sudo.rs:205-240 -/
def validateOutputAmount (maxIn minOut : Nat) (input output : Coin) : Except Err Unit :=
  if ¬ input.amount ≤ maxIn then .error (.invalidSwap (.maxIn maxIn input.amount))
  else if ¬ output.amount ≥ minOut then .error (.invalidSwap (.minOut minOut output.amount))
  else if ¬ output.denom ≠ input.denom then .error (.invalidSwap .sameDenoms)
  else .ok ()

/-- sudo.rs:138-141 -/
def defaultBound : Dir → Int
  | .bid => MAX_TICK
  | .ask => MIN_TICK

/-- sudo.rs:101-187 `dispatch_swap_exact_amount_in` -/
def dispatchSwapExactAmountIn (env : Env) (sender : Addr) (tokenIn : Coin) (tokenOutDenom : Denom)
    (tokenOutMin swapFee : Nat) (targetTick : Option Int) : M Response := do
  EM.lift (ensureSwapFee swapFee)
  EM.ensure (decide (tokenIn.denom ≠ tokenOutDenom)) (.invalidSwap .sameDenoms)
  let orderbook ← loadOrderbook
  let dir ← EM.lift (orderbook.directionFromPair tokenIn.denom tokenOutDenom)
  EM.ensure (env.addrValid sender) .std
  let order : MarketOrder := ⟨tokenIn.amount, dir, sender⟩
  let tickBound := targetTick.getD (defaultBound dir)
  let (output, quantity) ← runMarketOrder order tickBound
  EM.lift (validateOutputAmount tokenIn.amount tokenOutMin ⟨tokenIn.denom, tokenIn.amount⟩ output)
  let payout : SendMsg := ⟨order.owner, output, REPLY_ID_SUDO_SWAP_EXACT_IN⟩
  let refunds : List SendMsg :=
    if quantity = 0 then [] else [⟨order.owner, ⟨tokenIn.denom, quantity⟩, REPLY_ID_REFUND⟩]
  pure { msgs := payout :: refunds,
         events := [.swapExactAmountIn sender tokenIn tokenOutDenom tokenOutMin output.amount],
         data := some output.amount }

/-- sudo.rs:21-93 `sudo`. `SwapExactAmountOut` is `unimplemented!()` (sudo.rs:190-199): a panic. -/
def sudo (env : Env) (msg : SudoMsg) : M Response := do
  ensureIsActive
  match msg with
  | .swapExactAmountIn sender tokenIn out min fee =>
    dispatchSwapExactAmountIn env sender tokenIn out min fee none
  | .swapToTick sender tokenIn out min fee target =>
    dispatchSwapExactAmountIn env sender tokenIn out min fee (some target)
  | .swapExactAmountOut .. => EM.fail .panic
  | .transferAdmin a => do
    updateAdmin env a
    pure { events := [.method "sudo_transfer_admin" [("new_admin", .str a)]] }
  | .removeAdmin => do
    removeAdmin
    pure { events := [.method "sudo_remove_admin" []] }
  | .setActive active => setActive active

end OB
