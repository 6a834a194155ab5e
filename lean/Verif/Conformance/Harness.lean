import Verif.Model.World
import Verif.Model.Delete
/-
Conformance of the model with the repository's own tests: the setup code shared by them.

The modules of this directory replay the table-driven tests of /repo/contracts/sumtree-orderbook/src/tests and
src/sumtree/test on the model. The case tables (`*Cases.lean`) are translated from the Rust sources by
/verif/tools/gen_conformance.py; the test loops below are transcribed by hand from the Rust loops cited beside them.
These are tests of the model (evidence that it computes what the authors of the code expect), not proofs of properties:
no property of MANIFEST.json rests on them.
-/
namespace OB.Conf

/-- tests/test_constants.rs:1 -/
def BASE : Denom := "base"
/-- tests/test_constants.rs:2 -/
def QUOTE : Denom := "quote"

/-- `mock_env()`; `MockApi::addr_validate` rejects addresses shorter than three bytes -/
def env : Env := ⟨"cosmos2contract", 1571797419879305533, fun a => decide (3 ≤ a.length)⟩

/-- tests/mock_querier.rs:43-66: both denoms exist, every other one has no supply -/
def supply (d : Denom) : Nat := if d = BASE then 1000000000000 else if d = QUOTE then 1000000000000 else 0

/-- tests/test_utils.rs:19-25 `OrderOperation` -/
inductive TOp where
  | runMarket (o : MarketOrder)
  | placeMulti (ticks : List Int) (perTick quantity : Nat) (dir : Dir)
  | place (tick : Int) (dir : Dir) (owner : Addr) (quantity : Nat) (bounty : Option Nat)
  | claim (tick : Int) (id : Nat)
  | cancel (tick : Int) (id : Nat)

/-- the denom sent with a placement (tests/test_utils.rs:53-59) -/
def denomOf : Dir → Denom
  | .ask => BASE
  | .bid => QUOTE

/-- one placement with its funds (tests/test_utils.rs:52-73) -/
def place (owner : Addr) (tick : Int) (dir : Dir) (q : Nat) (bounty : Option Nat) : M Unit := do
  let _ ← placeLimit env ⟨owner, [⟨denomOf dir, q⟩]⟩ tick dir q bounty
  pure ()

/-- `place_multiple_limit_orders` (tests/test_utils.rs:122-151) -/
def placeAll (owner : Addr) (dir : Dir) (q : Nat) : List Int → M Unit
  | [] => pure ()
  | t :: ts => do
    place owner t dir q none
    placeAll owner dir q ts

/-- `generate_limit_orders` (tests/test_utils.rs:95-119): the ticks of the generated orders -/
def repeatTicks (ticks : List Int) (n : Nat) : List Int := ticks.flatMap fun t => List.replicate n t

/-- `generate_tick_ids` (tests/test_utils.rs:158-160) -/
def ticksUpTo (n : Nat) : List Int := (List.range n).map Int.ofNat

/-- `n` copies of a value (a compact way to print the expected lists) -/
def rep {α : Type} (p : Nat × α) : List α := List.replicate p.1 p.2

/-- `OrderOperation::run` (tests/test_utils.rs:28-88) -/
def TOp.run (sender : Addr) : TOp → M Unit
  | .runMarket o => do
    let _ ← runMarketOrder o (defaultBound o.dir)
    pure ()
  | .placeMulti ts n q d => Conf.placeAll sender d q (repeatTicks ts n)
  | .place t d o q b => Conf.place o t d q b
  | .claim t i => do
    let _ ← claimLimit env ⟨sender, []⟩ t i
    pure ()
  | .cancel t i => do
    let s ← EM.get
    match s.orders.get? (t, i) with
    | none => EM.fail .panic
    | some o => do
      let _ ← cancelLimit env ⟨o.owner, []⟩ t i
      pure ()

/-- `for op in ops { op.run(..).unwrap(); }` -/
def runOps (sender : Addr) : List TOp → M Unit
  | [] => pure ()
  | o :: os => do
    o.run sender
    runOps sender os

/-- `create_orderbook(.., QUOTE_DENOM, BASE_DENOM).unwrap()` followed by the operations -/
def setup (sender : Addr) (ops : List TOp) : M Unit := do
  createOrderbook env supply QUOTE BASE
  runOps sender ops

/-- `f(..).unwrap()` and the rest of the test -/
def onOk {σ α : Type} : Res σ α → (α → σ → Bool) → Bool
  | .ok a s, k => k a s
  | .err _ _, _ => false

/-- `f(..).unwrap_err() == e` and the rest of the test -/
def onErr {σ α : Type} : Res σ α → Err → (σ → Bool) → Bool
  | .err e s, e', k => decide (e = e') && k s
  | .ok _ _, _, _ => false

/-- a pure function is expected to return `x`, or the error if one is given -/
def expect {α : Type} [DecidableEq α] (r : Except Err α) (x : α) : Option Err → Bool
  | none => match r with
    | .ok y => decide (y = x)
    | .error _ => false
  | some e => match r with
    | .ok _ => false
    | .error e' => decide (e' = e)

/-- `o.with_placed_at(env.block.time)` -/
def placedNow (o : LimitOrder) : LimitOrder := { o with placedAt := env.time }

/-- a `TickState` or its default -/
def tickOf (s : Store) (t : Int) : TickState := (s.ticks.get? t).getD .default

end OB.Conf
