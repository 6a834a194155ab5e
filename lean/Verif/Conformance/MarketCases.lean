import Verif.Conformance.OrderTests
/- tests/test_order.rs: market orders
Generated by /verif/tools/gen_conformance.py from the Rust test sources; do not edit. -/
namespace OB.Conf

/-- test_order.rs:642-890 test_run_market_order -/
def marketCases1 : List MarketCase := [
  -- happy path bid at negative tick
  { order := ⟨1000, .bid, "sender"⟩, bound := 182402823, orders := [(-1500000, .ask, 100), (-1500000, .ask, 100), (-1500000, .ask, 100), (-1500000, .ask, 100), (-1500000, .ask, 100), (-1500000, .ask, 100), (-1500000, .ask, 100), (-1500000, .ask, 100), (-1500000, .ask, 100), (-1500000, .ask, 100), (-1500000, .ask, 100), (-1500000, .ask, 100)], output := 1176, etas := [(-1500000, 1176 * D)], pointers := [(.ask, -1500000)], err := none },
  -- happy path bid at positive tick
  { order := ⟨100000, .bid, "sender"⟩, bound := 182402823, orders := [(40000000, .ask, 1), (40000000, .ask, 1)], output := 2, etas := [(40000000, 2 * D)], pointers := [(.ask, 40000000)], err := none },
  -- bid at very small negative tick
  { order := ⟨1000, .bid, "sender"⟩, bound := 182402823, orders := [(-17765433, .ask, 20250), (-17765433, .ask, 20250), (-17765433, .ask, 20250), (-17765433, .ask, 20250)], output := 81000, etas := [(-17765433, 81000 * D)], pointers := [(.ask, -17765433)], err := none },
  -- bid across multiple ticks
  { order := ⟨513, .bid, "sender"⟩, bound := 182402823, orders := [(-1500000, .ask, 100), (-1500000, .ask, 100), (-1500000, .ask, 100), (-1500000, .ask, 100), (-1500000, .ask, 100), (-1500000, .ask, 100), (1500000, .ask, 100), (1500000, .ask, 100), (1500000, .ask, 100), (1500000, .ask, 100), (1500000, .ask, 100), (1500000, .ask, 100)], output := 601, etas := [(-1500000, 600 * D), (1500000, D)], pointers := [(.ask, 1500000)], err := none },
  -- happy path ask at positive tick
  { order := ⟨100, .ask, "sender"⟩, bound := -108000000, orders := [(40000000, .bid, 1000000), (40000000, .bid, 1000000), (40000000, .bid, 1000000), (40000000, .bid, 1000000), (40000000, .bid, 1000000)], output := 5000000, etas := [(40000000, 5000000 * D)], pointers := [(.bid, 40000000)], err := none },
  -- ask at negative tick
  { order := ⟨1000, .ask, "sender"⟩, bound := -108000000, orders := [(-17765433, .bid, 10), (-17765433, .bid, 10)], output := 12, etas := [(-17765433, 12 * D)], pointers := [(.bid, -17765433)], err := none },
  -- invalid tick bound for bid
  { order := ⟨1000, .bid, "sender"⟩, bound := -108000001, orders := [(10, .ask, 10), (10, .ask, 10), (10, .ask, 10), (10, .ask, 10), (10, .ask, 10), (10, .ask, 10), (10, .ask, 10), (10, .ask, 10), (10, .ask, 10), (10, .ask, 10)], output := 0, etas := [(10, 0)], pointers := [(.ask, 10)], err := (some (.invalidTickId (-108000001))) },
  -- invalid tick bound for ask
  { order := ⟨1000, .ask, "sender"⟩, bound := 182402824, orders := [(10, .bid, 10), (10, .bid, 10), (10, .bid, 10), (10, .bid, 10), (10, .bid, 10), (10, .bid, 10), (10, .bid, 10), (10, .bid, 10), (10, .bid, 10), (10, .bid, 10)], output := 0, etas := [(10, 0)], pointers := [(.bid, -108000000)], err := (some (.invalidTickId 182402824)) }
]

/-- the model passes them -/
theorem marketCases1_pass : marketCases1.all MarketCase.run = true := by decide +kernel

/-- test_order.rs:642-890 test_run_market_order -/
def marketCases2 : List MarketCase := [
  -- invalid tick bound due to bid direction
  { order := ⟨1000, .bid, "sender"⟩, bound := -108000000, orders := [(-1500000, .ask, 100), (-1500000, .ask, 100), (-1500000, .ask, 100), (-1500000, .ask, 100), (-1500000, .ask, 100), (-1500000, .ask, 100), (-1500000, .ask, 100), (-1500000, .ask, 100), (-1500000, .ask, 100), (-1500000, .ask, 100)], output := 0, etas := [(-1500000, 0)], pointers := [(.ask, -1500000)], err := (some (.invalidTickId (-108000000))) },
  -- insufficient liquidity on orderbook
  { order := ⟨1000, .bid, "sender"⟩, bound := 182402823, orders := [(1500000, .ask, 3), (1500000, .ask, 3), (1500000, .ask, 3), (1500000, .ask, 3)], output := 0, etas := [], pointers := [], err := (some .insufficientLiquidity) }
]

/-- the model passes them -/
theorem marketCases2_pass : marketCases2.all MarketCase.run = true := by decide +kernel

/-- test_order.rs:1017-1545 test_run_market_order_moving_tick -/
def movingCases : List MovingCase := [
  -- positive tick movement on filled market bid
  { ops := [.place 0 .ask "sender" 10 none, .place 1 .ask "sender" 10 none, .place 2 .ask "sender" 10 none, .runMarket ⟨16, .bid, "buyer"⟩, .place 0 .bid "sender" 10 none], values := [((0, .ask), ⟨0, 10 * D, 10 * D, 0, 0⟩), ((1, .ask), ⟨5 * D, 10 * D, 5 * D, 0, 0⟩), ((0, .bid), ⟨10 * D, 10 * D, 0, 0, 0⟩)], pointers := (0, 1) },
  -- no tick movement on filled market bid
  { ops := [.place 0 .ask "sender" 10 none, .place 1 .ask "sender" 10 none, .runMarket ⟨5, .bid, "buyer"⟩, .place 0 .bid "sender" 10 none], values := [((0, .ask), ⟨5 * D, 10 * D, 5 * D, 0, 0⟩), ((1, .ask), ⟨10 * D, 10 * D, 0, 0, 0⟩), ((0, .bid), ⟨10 * D, 10 * D, 0, 0, 0⟩)], pointers := (0, 0) },
  -- no tick movement on filled market ask
  { ops := [.place 0 .bid "sender" 10 none, .place (-1) .bid "sender" 10 none, .runMarket ⟨5, .ask, "buyer"⟩, .place 0 .ask "sender" 10 none], values := [((0, .bid), ⟨5 * D, 10 * D, 5 * D, 0, 0⟩), ((-1, .bid), ⟨10 * D, 10 * D, 0, 0, 0⟩), ((0, .ask), ⟨10 * D, 10 * D, 0, 0, 0⟩)], pointers := (0, 0) },
  -- negative tick movement on filled market ask
  { ops := [.place 0 .bid "sender" 10 none, .place (-1) .bid "sender" 10 none, .place (-2) .bid "sender" 10 none, .runMarket ⟨16, .ask, "buyer"⟩, .place 0 .ask "sender" 10 none], values := [((0, .bid), ⟨0, 10 * D, 10 * D, 0, 0⟩), ((-1, .bid), ⟨5 * D, 10 * D, 5 * D, 0, 0⟩), ((0, .ask), ⟨10 * D, 10 * D, 0, 0, 0⟩)], pointers := (-1, 0) },
  -- negative tick movement followed by positive movement
  { ops := [.place 0 .bid "sender" 10 none, .place (-1) .bid "sender" 10 none, .runMarket ⟨16, .ask, "buyer"⟩, .place 0 .ask "sender" 10 none, .runMarket ⟨10, .bid, "buyer"⟩, .place 0 .bid "sender" 12 none], values := [((0, .bid), ⟨12 * D, 22 * D, 10 * D, 0, 0⟩), ((-1, .bid), ⟨5 * D, 10 * D, 5 * D, 0, 0⟩), ((0, .ask), ⟨0, 10 * D, 10 * D, 0, 0⟩)], pointers := (0, 0) },
  -- positive tick movement followed by negative movement
  { ops := [.place 0 .ask "sender" 10 none, .place 1 .ask "sender" 10 none, .runMarket ⟨16, .bid, "buyer"⟩, .place 0 .bid "sender" 10 none, .runMarket ⟨10, .ask, "buyer"⟩, .place 0 .ask "sender" 12 none], values := [((0, .ask), ⟨12 * D, 22 * D, 10 * D, 0, 0⟩), ((1, .ask), ⟨5 * D, 10 * D, 5 * D, 0, 0⟩), ((0, .bid), ⟨0, 10 * D, 10 * D, 0, 0⟩)], pointers := (0, 0) }
]

/-- the model passes them -/
theorem movingCases_pass : movingCases.all MovingCase.run = true := by decide +kernel


end OB.Conf
