import Verif.SpecCost
import Verif.SpecSwap
/- Vocabulary for the price levels a swap looks at. -/
namespace OB.Spec

/-- The best-price pointer of a side. -/
def Orderbook.pointer (ob : Orderbook) : Dir → Int
  | .bid => ob.nextBidTick
  | .ask => ob.nextAskTick

/-- A price level with liquidity on `side`, within reach of the request, that the swap from `s` to `s'` left alone. -/
def SwapReq.Spared (r : SwapReq) (side : Dir) (s s' : Store) (t : Int) : Prop :=
  r.within side t ∧ tickLiquidity s t side ≠ 0 ∧ tickLiquidity s' t side = tickLiquidity s t side

/-- The cells that matter for a swap from `s` to `s'` that takes from `side`: the switch, the prices and denoms, the total of the side, and the
price levels from the pointer on that are within reach of the request and not behind a spared one. -/
def SwapReq.scanned (r : SwapReq) (side : Dir) (pointer : Int) (s s' : Store) : Cell → Prop
  | .isActive | .orderbook => True
  | .dirLiq d => d = side
  | .tick t => ¬ Better side t pointer ∧ r.within side t ∧ ∀ T, r.Spared side s s' T → ¬ Better side T t
  | _ => False

end OB.Spec
