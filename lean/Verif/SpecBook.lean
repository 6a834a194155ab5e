import Verif.SpecSwap
/- Vocabulary for the statements about the state of the book. -/
namespace OB.Spec

/-- The five accumulators of a tick side as the tick queries report them (zero for an unknown tick); 18-decimal fixed point. -/
def tickValues (s : Store) (t : Int) (d : Dir) : TickValues := ((s.ticks.get? t).getD .default).getValues d

/-- Total quantity of all orders ever placed in a queue. -/
def placedTotal (q : List Entry) : Nat := (q.map fun x => x.placed).sum

/-- Total quantity filled in a queue. -/
def filledTotal (q : List Entry) : Nat := (q.map fun x => x.filled).sum

/-- Total quantity refunded by cancels of a queue. -/
def cancelledTotal (q : List Entry) : Nat := (q.map fun x => if x.cancelled then x.placed - x.filled else 0).sum

/-- Open interest of a queue: what the live orders still have to sell. -/
def openTotal (q : List Entry) : Nat := ((q.filter fun x => decide x.Live).map fun x => x.placed - x.filled).sum

end OB.Spec

namespace OB.Spec

/-- What is owed to the orders of a queue for fills not claimed yet, each at the tick price rounded down. -/
noncomputable def owedTotal (d : Dir) (t : Int) (q : List Entry) : Nat := (q.map fun x => payout d (x.filled - x.claimed) t).sum

/-- The coins an operation brings to the contract: attached funds, or the input of a swap. -/
def deposit : Op → List Coin
  | .execute _ funds _ _ => funds
  | .sudo _ (.swapExactAmountIn _ tokenIn _ _ _) => [tokenIn]
  | .sudo _ (.swapToTick _ tokenIn _ _ _ _) => [tokenIn]
  | _ => []

/-- Total of one denom in a list of coins. -/
def amountOf (d : Denom) (cs : List Coin) : Nat := (cs.map fun c => if c.denom = d then c.amount else 0).sum

/-- The legitimate reasons for a transfer out of the contract, in a world `w` with queues `b`, by an operation leading to the store `s'`. -/
inductive Justified (w : World) (b : Book) (quote base : Denom) (s' : Store) : Op → SendMsg → Prop
  /-- the owner cancels an order: its unfilled quantity is refunded to the owner -/
  | refund {tick dir x time} : x ∈ b tick dir → x.Live → x.filled = x.claimed →
      Justified w b quote base s' (.execute x.owner [] time (.cancelLimit tick x.id))
        ⟨x.owner, ⟨denomIn quote base dir, x.placed - x.filled⟩, 1⟩
  /-- somebody claims an order's unclaimed fill: its share for owner, caller or fee recipient -/
  | claim {sender tick dir x time recipient m} : x ∈ b tick dir → x.Live → x.claimed < x.filled → w.store.makerFeeRecipient = some recipient →
      m ∈ split sender x.owner recipient (denomOut quote base dir) x.bounty (getMakerFee w.store) (payout dir (x.filled - x.claimed) tick) →
      Justified w b quote base s' (.execute sender [] time (.claimLimit tick x.id)) m
  /-- the same in a batch -/
  | batch {sender tick dir x time l recipient m} : (tick, x.id) ∈ l → x ∈ b tick dir → x.Live → x.claimed < x.filled →
      w.store.makerFeeRecipient = some recipient →
      m ∈ split sender x.owner recipient (denomOut quote base dir) x.bounty (getMakerFee w.store) (payout dir (x.filled - x.claimed) tick) →
      Justified w b quote base s' (.execute sender [] time (.batchClaim l)) m
  /-- the output of a swap: what it took from the opposite side -/
  | output {r : SwapReq} {time side} : r.pair quote base side →
      Justified w b quote base s' (r.op time) ⟨r.sender, ⟨r.outDenom, overTicks fun t => taken w.store s' t side⟩, 5⟩
  /-- unused input of a swap: what the ticks it took from do not charge -/
  | change {r : SwapReq} {time side left} : r.pair quote base side →
      left + overTicks (fun t => charge side (taken w.store s' t side) t) ≤ r.tokenIn.amount →
      Justified w b quote base s' (r.op time) ⟨r.sender, ⟨r.tokenIn.denom, left⟩, 1⟩

end OB.Spec
