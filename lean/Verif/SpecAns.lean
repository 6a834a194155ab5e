import Verif.SpecRef
import Verif.SpecSync
/-
The queries of the reference exchange. All of them are answered from the queues, the pointers and the configuration, except that the tick
queries also show two bookkeeping numbers per tick side: how much cancelled quantity has been realized, and the running total at the last
sync. These two are kept here as `Mark`s, next to the exchange; nothing the exchange does depends on them.
-/
namespace OB.Spec

/-- The two bookkeeping numbers of a tick side, in whole units. -/
structure Mark where
  realized : Nat
  synced : Nat

abbrev Marks := Int → Dir → Mark

/-- The running total of a tick side: what was filled, plus the cancelled quantity realized so far. -/
def Ref.running (r : Ref) (m : Marks) (t : Int) (d : Dir) : Nat := filledTotal (r.queues t d) + (m t d).realized

/-- A sync of a tick: on each side that has moved since the last sync, the cancels whose turn has come are realized. -/
def Ref.sync (r : Ref) (m : Marks) (tick : Int) : Marks := fun t d =>
  if t = tick ∧ (m t d).synced ≠ r.running m t d then ⟨dueTotal (r.queues t d), r.running m t d⟩ else m t d

/-- Claims of a batch sync the ticks of those orders that are still live at their turn. -/
noncomputable def Ref.claimMarks (sender : Addr) : Ref → Marks → List (Int × Nat) → Marks
  | _, m, [] => m
  | r, m, (tick, id) :: rest =>
    match r.order tick id with
    | some (side, x) =>
      if x.claimed < x.filled then Ref.claimMarks sender (r.claim sender tick side x).1 (r.sync m tick) rest
      else Ref.claimMarks sender r (r.sync m tick) rest
    | none => Ref.claimMarks sender r m rest

/-- The marks after an accepted operation: only cancels and claims sync. -/
noncomputable def Ref.marksAfter (r : Ref) (m : Marks) : Op → Marks
  | .execute _ _ _ (.cancelLimit tick _) | .execute _ _ _ (.claimLimit tick _) => r.sync m tick
  | .execute sender _ _ (.batchClaim l) => r.claimMarks sender m l
  | _ => m

/-- Runs a history on the exchange and its marks. -/
noncomputable def Ref.runMarks (ch : Chain) : Ref → Marks → List Op → Ref × Marks
  | r, m, [] => (r, m)
  | r, m, op :: ops =>
    match r.step ch op with
    | .ok (r', _) => Ref.runMarks ch r' (r.marksAfter m op) ops
    | .error _ => Ref.runMarks ch r m ops

/-! ### What queries show -/

/-- How a tick side is shown. -/
def Ref.values (r : Ref) (m : Marks) (t : Int) (d : Dir) : TickValues where
  tal := 10 ^ 18 * openTotal (r.queues t d)
  ctv := 10 ^ 18 * placedTotal (r.queues t d)
  etas := 10 ^ 18 * r.running m t d
  crc := 10 ^ 18 * (m t d).realized
  lastSync := 10 ^ 18 * (m t d).synced

/-- How a tick is shown. -/
def Ref.tick (r : Ref) (m : Marks) (t : Int) : Int × TickState := (t, ⟨r.values m t .ask, r.values m t .bid⟩)

/-- The ticks on which an order was ever placed, ascending. -/
noncomputable def Ref.usedTicks (r : Ref) : List Int :=
  open Classical in ((Finset.Icc (-108000000) 182402823).filter (Used r.queues)).sort (· ≤ ·)

/-- The live orders of a queue as they are shown; `before` was placed before the queue. -/
def shownQ (tick : Int) (dir : Dir) : Nat → List Entry → List LimitOrder
  | _, [] => []
  | before, x :: q =>
    if x.Live then shown tick dir before x :: shownQ tick dir (before + x.placed) q else shownQ tick dir (before + x.placed) q

/-- All live orders, ascending by tick and id. -/
noncomputable def Ref.listing (r : Ref) : List LimitOrder :=
  (r.usedTicks.flatMap fun t => shownQ t .bid 0 (r.queues t .bid) ++ shownQ t .ask 0 (r.queues t .ask)).mergeSort
    fun o o' => decide (o.tickId < o'.tickId ∨ o.tickId = o'.tickId ∧ o.orderId ≤ o'.orderId)

/-- The quote for a swap. -/
noncomputable def Ref.quoteFor (r : Ref) (s : SwapReq) : Option Coin :=
  open Classical in
  let side := s.side r.base
  match matchLevels side (r.levels s side) s.tokenIn.amount with
  | some (F, left, _) =>
    if s.fee = 0 ∧ s.tokenIn.amount ≠ 0 ∧ s.pair r.quote r.base side ∧ usedUp side F left ∧ (F.map Prod.snd).sum < 2 ^ 128 then
      some ⟨s.outDenom, (F.map Prod.snd).sum⟩
    else none
  | none => none

/-- The answer to each query; `none`: an error. -/
noncomputable def Ref.answer (r : Ref) (m : Marks) : QueryMsg → Option Answer
  | .spotPrice quote base =>
    if quote = r.quote ∧ base = r.base then some (.decimal ⌊price (r.best .bid) * 10 ^ 18⌋₊)
    else if quote = r.base ∧ base = r.quote then some (.decimal ⌊10 ^ 18 / price (r.best .ask)⌋₊)
    else none
  | .calcOutAmountGivenIn c out fee | .calcOutAmtGivenIn c out fee => (r.quoteFor ⟨"", c, out, 0, fee, none⟩).map .coin
  | .getTotalPoolLiquidity =>
    let sum (d : Dir) := overTicks fun t => openTotal (r.queues t d)
    if sum .ask < 2 ^ 128 ∧ sum .bid < 2 ^ 128 then some (.coins [⟨r.base, sum .ask⟩, ⟨r.quote, sum .bid⟩]) else none
  | .calcInAmtGivenOut => none
  | .allTicks lo hi limit =>
    let l := (r.usedTicks.filter fun t => (lo.all fun a => decide (a ≤ t)) && (hi.all fun a => decide (t ≤ a))).map (r.tick m)
    some (.ticks (l.take (limit.getD l.length)))
  | .isActive => some (.bool r.conf.active)
  | .getSwapFee => some (.decimal 0)
  | .ordersByOwner owner lo hi limit =>
    let l := r.listing.filter fun o => decide (o.owner = owner)
    some (.orders l.length ((l.filter (within lo hi)).take (limit.getD 100 % 2 ^ 32)))
  | .orderbookState => some (.book ⟨r.quote, r.base, 0, r.best .bid, r.best .ask⟩)
  | .ticksById ids => open Classical in if ∀ t ∈ ids, Used r.queues t then some (.ticks (ids.map (r.tick m))) else none
  | .ordersByTick tick lo hi limit =>
    let l := r.listing.filter fun o => decide (o.tickId = tick) && withinIds lo hi o
    some (.orders l.length (l.take ((limit.map (· % 2 ^ 32)).getD l.length)))
  | .denoms => some (.denoms r.quote r.base)
  | .getMakerFee => some (.decimal r.conf.fee)
  | .getUnrealizedCancels ids =>
    let due (t : Int) (d : Dir) := 10 ^ 18 * (dueTotal (r.queues t d) - (m t d).realized)
    open Classical in if ∀ t ∈ ids, Used r.queues t then some (.unrealized (ids.map fun t => (t, due t .ask, due t .bid))) else none
  | .auth .admin => some (.addr r.conf.admin)
  | .auth .adminOffer => some (.addr r.conf.adminOffer)
  | .auth .moderator => some (.addr r.conf.moderator)
  | .auth .moderatorOffer => some (.addr r.conf.moderatorOffer)

/-- A query whose amounts fit 128 bits. -/
def QueryFits : QueryMsg → Prop
  | .calcOutAmountGivenIn c _ _ | .calcOutAmtGivenIn c _ _ => c.amount < 2 ^ 128
  | _ => True

end OB.Spec
