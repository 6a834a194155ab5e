import Verif.Proofs.Fill
/- run_market_order and the sudo swap entry points -/
namespace OB

theorem Dir.opposite_opposite (d : Dir) : d.opposite.opposite = d := by cases d <;> rfl

theorem SwapRun.fillsOk {s : Store} {b : Book} (h : Rel s b) {ob : Orderbook} (hob : s.orderbook = some ob) {dir : Dir} {bound : Int}
    {q : Nat} {F : List Fill} {q' dust lp : Nat} (hr : SwapRun s b ob dir bound q F q' dust lp) : FillsOk b F dir.opposite := by
  have hsort := sweepTicks_sorted h.ticksSorted (ob := ob) (dir := dir) (bound := bound)
  have hnd := hr.sweep.nodup hsort
  have hfl := hr.sweep.fills
  refine ⟨hnd, fun f hf => (hfl f hf).1, fun f hf => (hfl f hf).2.1, ?_⟩
  intro f hf t hw hl
  rw [Dir.opposite_opposite] at hw
  have hft : f.tick ∈ sweepTicks s ob dir bound := hr.sweep.sublist.subset (List.mem_map_of_mem hf)
  have hre := (mem_sweepTicks.1 hft).2
  have ht : t ∈ sweepTicks s ob dir bound := by
    rw [mem_sweepTicks]
    refine ⟨leftAt_known h hl, ?_⟩
    obtain ⟨ob', h1, h2⟩ := h.ptr
    have : ob' = ob := by rw [hob] at h1; exact (Option.some.inj h1).symm
    subst this
    cases dir
    · have := h2.ask t hl
      simp only [InReach, WorseThan] at *; omega
    · have := h2.bid t hl
      simp only [InReach, WorseThan] at *; omega
  obtain ⟨g, hg, rfl, hga⟩ := hr.sweep.bestFirst (sweepTicks_range h) hsort f hf t ht hw hl
  rw [fillAt_mem hnd hg, hga]

theorem Rel.orderbook_unique {s : Store} {b : Book} (h : Rel s b) : ∃ ob, s.orderbook = some ob ∧ PtrOk ob b := h.ptr

theorem subtractLiq_ok {d : Dir} {x : Nat} {s : Store} (h : x ≤ getDirectionalLiquidity s d) :
    subtractDirectionalLiquidity d x s =
      .ok () { s with dirLiq := fun d' => if d' = d then some (getDirectionalLiquidity s d - x) else s.dirLiq d' } := by
  unfold subtractDirectionalLiquidity
  rw [EM.get_bind, checkedSub_ok h, EM.lift_ok_bind]
  rfl

/-- Saving the result of a market order never fails. -/
theorem runMarketOrder_of_internal {s : Store} {b : Book} (h : Rel s b) {ob : Orderbook} (hob : s.orderbook = some ob)
    {order : MarketOrder} {bound : Int} (hq : order.quantity < U128) {post : PostMarketOrder}
    (hok : runMarketOrderInternal s order bound = .ok post) :
    ∃ F q' dust lp, SwapRun s b ob order.dir bound order.quantity F q' dust lp ∧
      post.output = ⟨ob.oppositeDenom order.dir, sumAmount F⟩ ∧
      runMarketOrder order bound s = .ok (⟨ob.oppositeDenom order.dir, sumAmount F⟩, q')
        (swappedStore s order.dir.opposite F ob) := by
  obtain ⟨F, q', dust, lp, hr, rfl⟩ := runMarketOrderInternal_spec h hob hq hok
  have hF := hr.fillsOk h hob
  have hle := hF.amount_le h
  have hlt := h.liqLt order.dir.opposite
  refine ⟨F, q', dust, lp, hr, rfl, ?_⟩
  unfold runMarketOrder
  simp only [EM.get_bind, hok, EM.lift_ok_bind]
  rw [EM.bind_ok_of (saveTicks_ok _ _)]
  rw [fromRatio_one_lt (lt_of_le_of_lt hle hlt)]
  rw [EM.lift_ok_bind]
  have e : getDirectionalLiquidity { s with ticks := insertAll s.ticks (F.map fun f => (f.tick, filledTick s order.dir.opposite f)) }
      order.dir.opposite = getDirectionalLiquidity s order.dir.opposite := rfl
  rw [EM.bind_ok_of (subtractLiq_ok (by rw [e]; exact hle)), e]
  unfold saveOrderbook swappedStore
  rw [EM.modify_bind, EM.pure_apply]

theorem runMarketOrder_eq_ok {s : Store} {b : Book} (h : Rel s b) {ob : Orderbook} (hob : s.orderbook = some ob)
    {order : MarketOrder} {bound : Int} (hq : order.quantity < U128) {out : Coin} {q' : Nat} {s' : Store}
    (hok : runMarketOrder order bound s = .ok (out, q') s') :
    ∃ F dust lp, SwapRun s b ob order.dir bound order.quantity F q' dust lp ∧
      out = ⟨ob.oppositeDenom order.dir, sumAmount F⟩ ∧ s' = swappedStore s order.dir.opposite F ob := by
  have hok0 := hok
  unfold runMarketOrder at hok
  simp only [EM.get_bind] at hok
  rw [EM.bind_eq_ok] at hok
  obtain ⟨post, s1, h1, -⟩ := hok
  rw [EM.lift_eq_ok] at h1
  obtain ⟨F, q'', dust, lp, hr, -, h2⟩ := runMarketOrder_of_internal h hob hq h1.1
  rw [h2] at hok0
  simp only [Res.ok.injEq, Prod.mk.injEq] at hok0
  obtain ⟨⟨rfl, rfl⟩, rfl⟩ := hok0
  exact ⟨F, dust, lp, hr, rfl, rfl⟩

/-- Conditions under which a swap message is accepted, and its effect. -/
structure SwapOk (env : Env) (s : Store) (b : Book) (ob : Orderbook) (sender : Addr) (tokenIn : Coin) (tokenOutDenom : Denom)
    (tokenOutMin swapFee : Nat) (target : Option Int) (dir : Dir) (F : List Fill) (q' dust lp : Nat) : Prop where
  fee : swapFee = 0
  denoms : tokenIn.denom = ob.expectedDenom dir ∧ tokenOutDenom = ob.oppositeDenom dir
  sender : env.addrValid sender = true
  run : SwapRun s b ob dir (target.getD (defaultBound dir)) tokenIn.amount F q' dust lp
  minOut : tokenOutMin ≤ sumAmount F

def swapMsgs (sender : Addr) (tokenIn : Coin) (tokenOutDenom : Denom) (out q' : Nat) : List SendMsg :=
  ⟨sender, ⟨tokenOutDenom, out⟩, REPLY_ID_SUDO_SWAP_EXACT_IN⟩ ::
    (if q' = 0 then [] else [⟨sender, ⟨tokenIn.denom, q'⟩, REPLY_ID_REFUND⟩])

def swapResponse (sender : Addr) (tokenIn : Coin) (tokenOutDenom : Denom) (tokenOutMin out q' : Nat) : Response :=
  { msgs := swapMsgs sender tokenIn tokenOutDenom out q',
    events := [.swapExactAmountIn sender tokenIn tokenOutDenom tokenOutMin out], data := some out }

theorem directionFromPair_eq_ok {ob : Orderbook} {i o : Denom} {dir : Dir} (hne : ob.quoteDenom ≠ ob.baseDenom) :
    ob.directionFromPair i o = .ok dir ↔ i = ob.expectedDenom dir ∧ o = ob.oppositeDenom dir := by
  unfold Orderbook.directionFromPair
  cases dir <;> simp only [Orderbook.expectedDenom, Orderbook.oppositeDenom] <;> split
  · rename_i h1
    obtain ⟨h1, h2⟩ := h1
    simp only [Except.ok.injEq, reduceCtorEq, false_iff, not_and]
    intro h3 h4; exact hne (by rw [h1, ← h3])
  · split
    · rename_i h1; simp [h1.1, h1.2]
    · rename_i h1
      simp only [reduceCtorEq, false_iff]
      rintro ⟨rfl, rfl⟩; exact h1 ⟨rfl, rfl⟩
  · rename_i h1; simp [h1.1, h1.2]
  · rename_i h0
    split
    · rename_i h1
      simp only [Except.ok.injEq, reduceCtorEq, false_iff]
      rintro ⟨rfl, rfl⟩; exact h0 ⟨rfl, rfl⟩
    · simp only [reduceCtorEq, false_iff]
      rintro ⟨rfl, rfl⟩; exact h0 ⟨rfl, rfl⟩

theorem dispatchSwap_eq_ok {env : Env} {s : Store} {b : Book} (h : Rel s b) {ob : Orderbook} (hob : s.orderbook = some ob)
    {sender : Addr} {tokenIn : Coin} {tokenOutDenom : Denom} {tokenOutMin swapFee : Nat} {target : Option Int}
    (hq : tokenIn.amount < U128) {resp : Response} {s' : Store}
    (hok : dispatchSwapExactAmountIn env sender tokenIn tokenOutDenom tokenOutMin swapFee target s = .ok resp s') :
    ∃ dir F q' dust lp, SwapOk env s b ob sender tokenIn tokenOutDenom tokenOutMin swapFee target dir F q' dust lp ∧
      resp = swapResponse sender tokenIn tokenOutDenom tokenOutMin (sumAmount F) q' ∧
      s' = swappedStore s dir.opposite F ob := by
  have hne : ob.quoteDenom ≠ ob.baseDenom := by
    obtain ⟨ob', h1, h2⟩ := h.ptr
    have : ob' = ob := by rw [hob] at h1; exact (Option.some.inj h1).symm
    subst this; exact h2.denoms
  unfold dispatchSwapExactAmountIn at hok
  rw [EM.bind_eq_ok] at hok
  obtain ⟨u, s1, h1, hok⟩ := hok
  rw [EM.lift_eq_ok] at h1
  obtain ⟨h1, rfl⟩ := h1
  rw [EM.bind_eq_ok] at hok
  obtain ⟨u2, s2, h2, hok⟩ := hok
  rw [EM.ensure_eq_ok] at h2
  obtain ⟨h2, rfl⟩ := h2
  rw [EM.bind_ok_of (loadOrderbook_some hob)] at hok
  rw [EM.bind_eq_ok] at hok
  obtain ⟨dir, s3, h3, hok⟩ := hok
  rw [EM.lift_eq_ok] at h3
  obtain ⟨h3, rfl⟩ := h3
  rw [EM.bind_eq_ok] at hok
  obtain ⟨u4, s4, h4, hok⟩ := hok
  rw [EM.ensure_eq_ok] at h4
  obtain ⟨h4, rfl⟩ := h4
  rw [EM.bind_eq_ok] at hok
  obtain ⟨⟨out, q'⟩, s5, h5, hok⟩ := hok
  obtain ⟨F, dust, lp, hr, rfl, rfl⟩ := runMarketOrder_eq_ok h hob (by exact hq) h5
  simp only at hok hr
  rw [EM.bind_eq_ok] at hok
  obtain ⟨u6, s6, h6, hok⟩ := hok
  rw [EM.lift_eq_ok] at h6
  obtain ⟨h6, rfl⟩ := h6
  rw [EM.pure_eq_ok] at hok
  obtain ⟨hresp, rfl⟩ := hok
  have hd := (directionFromPair_eq_ok hne).1 h3
  refine ⟨dir, F, q', dust, lp, ⟨?_, hd, h4, hr, ?_⟩, ?_, rfl⟩
  · unfold ensureSwapFee at h1
    split at h1
    · assumption
    · simp at h1
  · unfold validateOutputAmount at h6
    split at h6
    · simp at h6
    · split at h6
      · simp at h6
      · rename_i h7; simpa using h7
  · rw [hresp, hd.2]; rfl

end OB
