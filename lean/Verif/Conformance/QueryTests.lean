import Verif.Conformance.Harness
/- The loops of tests/test_query.rs -/
namespace OB.Conf

/-- test_query.rs:26-33 -/
structure SpotCase where
  ops : List TOp
  base : Denom
  quote : Denom
  price : Nat
  err : Option Err

/-- test_query.rs:385-424 -/
def SpotCase.run (c : SpotCase) : Bool :=
  onOk (setup "sender" c.ops Store.empty) fun _ s => expect (spotPrice s c.quote c.base) c.price c.err

/-- test_query.rs:427-435 -/
structure CalcCase where
  ops : List TOp
  tokenIn : Coin
  out : Denom
  fee : Nat
  output : Coin
  err : Option Err

/-- test_query.rs:662-708 -/
def CalcCase.run (c : CalcCase) : Bool :=
  onOk (setup "sender" c.ops Store.empty) fun _ s =>
    expect (calcOutAmountGivenIn s c.tokenIn c.out c.fee) c.output c.err

/-- test_query.rs:711-716 -/
structure TotalCase where
  ops : List TOp
  output : List Coin
  err : Option Err

/-- test_query.rs:779-820 -/
def TotalCase.run (c : TotalCase) : Bool :=
  onOk (setup "sender" c.ops Store.empty) fun _ s => expect (totalPoolLiquidity s) c.output c.err

/-- test_query.rs:1245-1255 -/
structure ByOwnerCase where
  ops : List TOp
  output : List LimitOrder
  count : Nat
  owner : Addr
  start : Option (Int × Nat)
  stop : Option (Int × Nat)
  limit : Option Nat
  err : Option Err

/-- test_query.rs:1494-1552; the query has no error of its own, so a case expecting one would fail -/
def ByOwnerCase.run (c : ByOwnerCase) : Bool :=
  onOk (setup c.owner c.ops Store.empty) fun _ s =>
    decide (c.err = none) &&
      decide (ordersByOwner s c.owner c.start c.stop c.limit = (c.count, c.output.map placedNow))

/-- test_query.rs:1555-1565 -/
structure ByTickCase where
  ops : List TOp
  output : List LimitOrder
  count : Nat
  tick : Int
  start : Option Nat
  stop : Option Nat
  limit : Option Nat
  err : Option Err

/-- test_query.rs:1823-1881 -/
def ByTickCase.run (c : ByTickCase) : Bool :=
  onOk (setup "sender" c.ops Store.empty) fun _ s =>
    decide (c.err = none) &&
      decide (ordersByTick s c.tick c.start c.stop c.limit = (c.count, c.output.map placedNow))

/-- test_query.rs:1884-1890 -/
structure TicksByIdCase where
  ops : List TOp
  output : List TickState
  ids : List Int
  err : Option Err

/-- test_query.rs:2061-2108 -/
def TicksByIdCase.run (c : TicksByIdCase) : Bool :=
  onOk (setup "sender" c.ops Store.empty) fun _ s =>
    expect ((ticksById s c.ids).map fun l => l.map Prod.snd) c.output c.err

/-- test_query.rs:2111-2116 -/
structure UnrealizedCase where
  ops : List TOp
  output : List (Int × (Dir × Nat))
  ids : List Int

/-- test_query.rs:2193-2243 -/
def UnrealizedCase.run (c : UnrealizedCase) : Bool :=
  onOk (setup "sender" c.ops Store.empty) fun _ s =>
    match ticksUnrealizedCancels s c.ids with
    | .error _ => false
    | .ok l => decide (l.length = c.ids.length) &&
        decide ((l.flatMap fun t => [(t.1, (Dir.bid, t.2.2)), (t.1, (Dir.ask, t.2.1))]).filter
          (fun x => decide (x.2.2 ≠ 0)) = c.output)

/-- test_query.rs:822-829 -/
structure AllTicksCase where
  ops : List TOp
  output : List TickState
  start : Option Int
  stop : Option Int
  limit : Option Nat

/-- test_query.rs:1161-1198 -/
def AllTicksCase.run (c : AllTicksCase) : Bool :=
  onOk (setup "sender" c.ops Store.empty) fun _ s =>
    decide ((allTicks s c.start c.stop c.limit).map Prod.snd = c.output)

/-- test_query.rs:1201-1204 -/
structure IsActiveCase where
  active : Option Bool

/-- test_query.rs:1223-1242 -/
def IsActiveCase.run (c : IsActiveCase) : Bool :=
  decide (isActive { Store.empty with isActive := c.active } = c.active.getD true)

end OB.Conf
