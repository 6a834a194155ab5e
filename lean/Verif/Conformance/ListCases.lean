import Verif.Conformance.QueryTests
/- tests/test_query.rs: orders and ticks
Generated by /verif/tools/gen_conformance.py from the Rust test sources; do not edit. -/
namespace OB.Conf

/-- test_query.rs:1258-1492 test_orders_by_owner -/
def byOwnerCases : List ByOwnerCase := [
  -- no orders
  { ops := [], output := [], count := 0, owner := "sender", start := none, stop := none, limit := none, err := none },
  -- single order
  { ops := [.place 0 .bid "sender" 100 none], output := [⟨0, 0, .bid, "sender", 100, 0, none, 100, 0⟩], count := 1, owner := "sender", start := none, stop := none, limit := none, err := none },
  -- multiple orders, pagination limit
  { ops := [.place 0 .ask "sender" 50 none, .place 1 .bid "sender" 150 none], output := [⟨0, 0, .ask, "sender", 50, 0, none, 50, 0⟩], count := 2, owner := "sender", start := none, stop := none, limit := (some 1), err := none },
  -- multiple orders, start_from
  { ops := [.place 0 .ask "sender" 50 none, .place 1 .bid "sender" 150 none], output := [⟨1, 1, .bid, "sender", 150, 0, none, 150, 0⟩], count := 2, owner := "sender", start := (some (0, 1)), stop := none, limit := none, err := none },
  -- multiple orders, end_at
  { ops := [.place 0 .ask "sender" 50 none, .place 1 .bid "sender" 150 none], output := [⟨0, 0, .ask, "sender", 50, 0, none, 50, 0⟩], count := 2, owner := "sender", start := none, stop := (some (0, 0)), limit := none, err := none },
  -- multiple orders, ordering by tick maintained
  { ops := [.place 0 .ask "sender" 50 none, .place 1 .bid "sender" 150 none, .place 1 .bid "sender" 150 none, .place 0 .ask "sender" 150 none, .cancel 1 1], output := [⟨0, 0, .ask, "sender", 50, 0, none, 50, 0⟩, ⟨0, 3, .ask, "sender", 150, 50 * D, none, 150, 0⟩, ⟨1, 2, .bid, "sender", 150, 150 * D, none, 150, 0⟩], count := 3, owner := "sender", start := none, stop := none, limit := none, err := none }
]

/-- the model passes them -/
theorem byOwnerCases_pass : byOwnerCases.all ByOwnerCase.run = true := by decide +kernel

/-- test_query.rs:1569-1821 test_orders_by_ticks -/
def byTickCases : List ByTickCase := [
  -- no orders
  { ops := [], output := [], count := 0, tick := 0, start := none, stop := none, limit := none, err := none },
  -- single order
  { ops := [.place 0 .bid "sender" 100 none], output := [⟨0, 0, .bid, "sender", 100, 0, none, 100, 0⟩], count := 1, tick := 0, start := none, stop := none, limit := none, err := none },
  -- multiple orders
  { ops := [.place 1 .bid "owner" 100 none, .place 1 .ask "owner" 200 none], output := [⟨1, 0, .bid, "owner", 100, 0, none, 100, 0⟩, ⟨1, 1, .ask, "owner", 200, 0, none, 200, 0⟩], count := 2, tick := 1, start := none, stop := none, limit := none, err := none },
  -- multiple orders w/ limit
  { ops := [.place 1 .bid "owner" 100 none, .place 1 .ask "owner" 200 none, .place 1 .bid "owner" 100 none], output := [⟨1, 0, .bid, "owner", 100, 0, none, 100, 0⟩, ⟨1, 1, .ask, "owner", 200, 0, none, 200, 0⟩], count := 3, tick := 1, start := none, stop := none, limit := (some 2), err := none },
  -- multiple orders w/ limit + start from
  { ops := [.place 1 .bid "owner" 100 none, .place 1 .ask "owner" 200 none, .place 1 .bid "owner" 100 none], output := [⟨1, 1, .ask, "owner", 200, 0, none, 200, 0⟩, ⟨1, 2, .bid, "owner", 100, 100 * D, none, 100, 0⟩], count := 2, tick := 1, start := (some 1), stop := none, limit := (some 2), err := none },
  -- multiple orders w/ limit + end at
  { ops := [.place 1 .bid "owner" 100 none, .place 1 .ask "owner" 200 none, .place 1 .bid "owner" 100 none], output := [⟨1, 0, .bid, "owner", 100, 0, none, 100, 0⟩], count := 1, tick := 1, start := none, stop := (some 0), limit := (some 2), err := none }
]

/-- the model passes them -/
theorem byTickCases_pass : byTickCases.all ByTickCase.run = true := by decide +kernel

/-- test_query.rs:1894-2059 test_ticks_by_id -/
def ticksByIdCases : List TicksByIdCase := [
  -- no orders
  { ops := [], output := [], ids := [], err := none },
  -- single order
  { ops := [.place 1 .bid "trader1" 500 none], output := [⟨⟨0, 0, 0, 0, 0⟩, ⟨500 * D, 500 * D, 0, 0, 0⟩⟩], ids := [1], err := none },
  -- multiple orders, multiple ticks
  { ops := [.place 1 .bid "trader1" 300 none, .place 2 .ask "trader2" 400 none], output := [⟨⟨0, 0, 0, 0, 0⟩, ⟨300 * D, 300 * D, 0, 0, 0⟩⟩, ⟨⟨400 * D, 400 * D, 0, 0, 0⟩, ⟨0, 0, 0, 0, 0⟩⟩], ids := [1, 2], err := none },
  -- Single order (cancelled + unrealized), single tick
  { ops := [.place 0 .ask "sender" 1 none, .cancel 0 0], output := [⟨⟨0, D, 0, 0, 0⟩, ⟨0, 0, 0, 0, 0⟩⟩], ids := [0], err := none },
  -- Single order (cancelled + realized), single tick
  { ops := [.place 0 .ask "sender" 1 none, .cancel 0 0, .place 0 .ask "sender" 1 none, .runMarket ⟨1, .bid, "sender"⟩, .claim 0 1], output := [⟨⟨0, 2 * D, 2 * D, D, D⟩, ⟨0, 0, 0, 0, 0⟩⟩], ids := [0], err := none },
  -- error: invalid tick id
  { ops := [.place 1 .bid "trader1" 500 none], output := [], ids := [1, 2], err := (some (.invalidTickId 2)) }
]

/-- the model passes them -/
theorem ticksByIdCases_pass : ticksByIdCases.all TicksByIdCase.run = true := by decide +kernel

/-- test_query.rs:2119-2191 test_tick_unrealized_cancels_by_id -/
def unrealizedCases : List UnrealizedCase := [
  -- no orders
  { ops := [], output := [], ids := [] },
  -- single order not cancelled
  { ops := [.place 0 .bid "sender" 1 none], output := [], ids := [0] },
  -- single order cancelled and unrealized
  { ops := [.place 0 .bid "sender" 1 none, .cancel 0 0], output := [(0, (.bid, D))], ids := [0] },
  -- single order cancelled and realized
  { ops := [.place 0 .bid "sender" 1 none, .cancel 0 0, .place 0 .bid "sender" 1 none, .runMarket ⟨1, .ask, "sender"⟩, .claim 0 1], output := [], ids := [0] }
]

/-- the model passes them -/
theorem unrealizedCases_pass : unrealizedCases.all UnrealizedCase.run = true := by decide +kernel

/-- test_query.rs:832-1159 test_all_ticks (the orders of a `placeMulti` tick merged; without the case of 1010 ticks) -/
def allTicksCases1 : List AllTicksCase := [
  -- Test all ticks
  { ops := [], output := [].flatMap rep, start := none, stop := none, limit := none }
]

/-- the model passes them -/
theorem allTicksCases1_pass : allTicksCases1.all AllTicksCase.run = true := by decide +kernel

/-- test_query.rs:832-1159 test_all_ticks (the orders of a `placeMulti` tick merged; without the case of 1010 ticks) -/
def allTicksCases2 : List AllTicksCase := [
  -- Single order, single tick
  { ops := [.place 0 .ask "sender" 1 none], output := [(1, ⟨⟨D, D, 0, 0, 0⟩, ⟨0, 0, 0, 0, 0⟩⟩)].flatMap rep, start := none, stop := none, limit := none }
]

/-- the model passes them -/
theorem allTicksCases2_pass : allTicksCases2.all AllTicksCase.run = true := by decide +kernel

/-- test_query.rs:832-1159 test_all_ticks (the orders of a `placeMulti` tick merged; without the case of 1010 ticks) -/
def allTicksCases3 : List AllTicksCase := [
  -- Multiple directions, single tick
  { ops := [.place 0 .ask "sender" 1 none, .place 0 .bid "sender" 1 none], output := [(1, ⟨⟨D, D, 0, 0, 0⟩, ⟨D, D, 0, 0, 0⟩⟩)].flatMap rep, start := none, stop := none, limit := none }
]

/-- the model passes them -/
theorem allTicksCases3_pass : allTicksCases3.all AllTicksCase.run = true := by decide +kernel

/-- test_query.rs:832-1159 test_all_ticks (the orders of a `placeMulti` tick merged; without the case of 1010 ticks) -/
def allTicksCases4 : List AllTicksCase := [
  -- Multiple directions, many ticks
  { ops := [.placeMulti (ticksUpTo 100) 1 100 .ask, .placeMulti (ticksUpTo 100) 1 1000 .bid], output := [(100, ⟨⟨100 * D, 100 * D, 0, 0, 0⟩, ⟨1000 * D, 1000 * D, 0, 0, 0⟩⟩)].flatMap rep, start := none, stop := none, limit := none }
]

/-- the model passes them -/
theorem allTicksCases4_pass : allTicksCases4.all AllTicksCase.run = true := by decide +kernel

/-- test_query.rs:832-1159 test_all_ticks (the orders of a `placeMulti` tick merged; without the case of 1010 ticks) -/
def allTicksCases5 : List AllTicksCase := [
  -- Multiple directions, many ticks w/ limit
  { ops := [.placeMulti (ticksUpTo 100) 1 100 .ask, .placeMulti (ticksUpTo 100) 1 1000 .bid], output := [(50, ⟨⟨100 * D, 100 * D, 0, 0, 0⟩, ⟨1000 * D, 1000 * D, 0, 0, 0⟩⟩)].flatMap rep, start := none, stop := none, limit := (some 50) }
]

/-- the model passes them -/
theorem allTicksCases5_pass : allTicksCases5.all AllTicksCase.run = true := by decide +kernel

/-- test_query.rs:832-1159 test_all_ticks (the orders of a `placeMulti` tick merged; without the case of 1010 ticks) -/
def allTicksCases6 : List AllTicksCase := [
  -- Multiple directions, many ticks w/ start after
  { ops := [.placeMulti (ticksUpTo 100) 1 100 .ask, .placeMulti (ticksUpTo 100) 1 1000 .bid], output := [(10, ⟨⟨100 * D, 100 * D, 0, 0, 0⟩, ⟨1000 * D, 1000 * D, 0, 0, 0⟩⟩)].flatMap rep, start := (some 90), stop := none, limit := none }
]

/-- the model passes them -/
theorem allTicksCases6_pass : allTicksCases6.all AllTicksCase.run = true := by decide +kernel

/-- test_query.rs:832-1159 test_all_ticks (the orders of a `placeMulti` tick merged; without the case of 1010 ticks) -/
def allTicksCases7 : List AllTicksCase := [
  -- Multiple directions, many ticks w/ end at
  { ops := [.placeMulti (ticksUpTo 100) 1 100 .ask, .placeMulti (ticksUpTo 100) 1 1000 .bid], output := [(45, ⟨⟨100 * D, 100 * D, 0, 0, 0⟩, ⟨1000 * D, 1000 * D, 0, 0, 0⟩⟩)].flatMap rep, start := none, stop := (some 44), limit := none }
]

/-- the model passes them -/
theorem allTicksCases7_pass : allTicksCases7.all AllTicksCase.run = true := by decide +kernel

/-- test_query.rs:832-1159 test_all_ticks (the orders of a `placeMulti` tick merged; without the case of 1010 ticks) -/
def allTicksCases8 : List AllTicksCase := [
  -- Multiple directions, many ticks w/ start after & end at
  { ops := [.placeMulti (ticksUpTo 100) 1 100 .ask, .placeMulti (ticksUpTo 100) 1 1000 .bid], output := [(24, ⟨⟨100 * D, 100 * D, 0, 0, 0⟩, ⟨1000 * D, 1000 * D, 0, 0, 0⟩⟩)].flatMap rep, start := (some 21), stop := (some 44), limit := none }
]

/-- the model passes them -/
theorem allTicksCases8_pass : allTicksCases8.all AllTicksCase.run = true := by decide +kernel

/-- test_query.rs:832-1159 test_all_ticks (the orders of a `placeMulti` tick merged; without the case of 1010 ticks) -/
def allTicksCases9 : List AllTicksCase := [
  -- single tick paginated
  { ops := [.placeMulti (ticksUpTo 200) 1 1000 .bid], output := [(1, ⟨⟨0, 0, 0, 0, 0⟩, ⟨1000 * D, 1000 * D, 0, 0, 0⟩⟩)].flatMap rep, start := (some 11), stop := (some 11), limit := none }
]

/-- the model passes them -/
theorem allTicksCases9_pass : allTicksCases9.all AllTicksCase.run = true := by decide +kernel

/-- test_query.rs:1207-1221 test_is_active -/
def isActiveCases : List IsActiveCase := [
  -- active status
  { active := (some true) },
  -- inactive status
  { active := (some false) },
  -- no active status (active)
  { active := none }
]

/-- the model passes them -/
theorem isActiveCases_pass : isActiveCases.all IsActiveCase.run = true := by decide +kernel


end OB.Conf
