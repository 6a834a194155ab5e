import Verif.Proofs.Scan
import Verif.Props.Cost
import Verif.Props.Local
/- C94: which price levels a swap looks at. -/
namespace OB
open Spec

theorem inReach_iff {ob : Orderbook} {dir : Dir} {bound t : Int} :
    InReach ob dir bound t ↔ ¬ Better dir.opposite t (Orderbook.pointer ob dir.opposite) ∧ ¬ Better dir.opposite bound t := by
  cases dir <;> simp only [InReach, Better, Orderbook.pointer, Dir.opposite] <;> omega

theorem better_worse {dir : Dir} {t t' : Int} : Better dir.opposite t t' ↔ WorseThan dir t t' := by
  cases dir <;> simp only [Better, Dir.opposite, WorseThan]

/-- Among the spared levels that are stored there is a best one, or there is none. -/
theorem best_of {dir : Dir} {l : List Int} (hl : l.Pairwise (WorseThan dir)) (P : Int → Prop) :
    (∀ t ∈ l, ¬ P t) ∨ ∃ M ∈ l, P M ∧ ∀ t ∈ l, P t → ¬ WorseThan dir t M := by
  have asym : ∀ a b, WorseThan dir a b → WorseThan dir b a → False := by
    intro a b; cases dir <;> simp only [WorseThan] <;> omega
  induction l with
  | nil => exact .inl (by simp)
  | cons x l ih =>
    rw [List.pairwise_cons] at hl
    by_cases hx : P x
    · refine .inr ⟨x, List.mem_cons_self .., hx, fun t ht _ hw => ?_⟩
      rcases List.mem_cons.1 ht with rfl | ht
      · exact asym _ _ hw hw
      · exact asym _ _ hw (hl.1 t ht)
    · rcases ih hl.2 with h | ⟨M, h1, h2, h3⟩
      · refine .inl fun t ht => ?_
        rcases List.mem_cons.1 ht with rfl | ht
        · exact hx
        · exact h t ht
      · refine .inr ⟨M, List.mem_cons_of_mem _ h1, h2, fun t ht hp => ?_⟩
        rcases List.mem_cons.1 ht with rfl | ht
        · exact absurd hp hx
        · exact h3 t ht hp

theorem pair_side {ob : Orderbook} (hne : ob.quoteDenom ≠ ob.baseDenom) {r : SwapReq} {side dir : Dir} (hp : r.pair ob.quoteDenom ob.baseDenom side)
    (hd : r.tokenIn.denom = ob.expectedDenom dir ∧ r.outDenom = ob.oppositeDenom dir) : side = dir.opposite := by
  obtain ⟨h1, h2⟩ := hp
  obtain ⟨h3, h4⟩ := hd
  rw [h1] at h3
  cases side <;> cases dir <;> simp only [denomOut, Orderbook.expectedDenom, Dir.opposite] at * <;>
    first | rfl | exact absurd h3 hne | exact absurd h3.symm hne

/-- C94 (upper bound): an accepted swap looks at, and writes, no other cells than the switch, the prices and denoms, the total of the side it takes
from, and the price levels from the pointer on, within reach of the request, that are not behind a level with liquidity which it leaves alone. -/
theorem C94_upper {ch : Chain} {n : Nat} {w : World} {b : Book} (h : Traced ch n w b) {ob : Orderbook} (hob : w.store.orderbook = some ob)
    {r : SwapReq} {side : Dir} (hp : r.pair ob.quoteDenom ob.baseDenom side) {time : Nat} {w' : World} {resp : Response}
    (hok : step ch w (r.op time) = .ok (w', resp)) :
    Touches ch w (r.op time) (r.scanned side (Orderbook.pointer ob side) w.store w'.store) := by
  obtain ⟨ob', hob2, hptr⟩ := h.rel.ptr
  obtain rfl : ob' = ob := by rw [hob] at hob2; exact (Option.some.inj hob2).symm
  obtain ⟨hq, -, bank1, -, hact, hdis, -⟩ := step_swap_ok.1 hok
  obtain ⟨msg, e1, e2, -⟩ := swapReq_op_eq r time
  obtain ⟨dir, F, q', dust, lp, g1, -, g3⟩ := dispatchSwap_eq_ok h.rel hob hq.1 hdis
  obtain rfl : side = dir.opposite := pair_side hptr.denoms hp g1.denoms
  have hF := g1.run.fillsOk h.rel hob
  generalize hS : r.scanned dir.opposite (Orderbook.pointer ob' dir.opposite) w.store w'.store = S
  have c1 : S .isActive := by rw [← hS]; trivial
  have c2 : S .orderbook := by rw [← hS]; trivial
  have c3 : S (.dirLiq dir.opposite) := by rw [← hS]; exact rfl
  have hsim : OB.sudo (ch.env time) msg =
      (ensureIsActive >>= fun _ => dispatchSwapExactAmountIn (ch.env time) r.sender r.tokenIn r.outDenom r.minOut r.fee r.target) := by
    unfold OB.sudo
    cases msg <;> simp [SudoMsg.swapArgs] at e2 <;> obtain ⟨rfl, rfl, rfl, rfl, rfl, e⟩ := e2 <;> rw [← e]
  rw [e1]
  refine sudo_touches ?_
  rw [hsim]
  refine .reads (a := ()) (ensureIsActive_eq_ok.2 ⟨hact, rfl⟩) (fun s' ha => ensureIsActive_eq_ok.2 ⟨?_, rfl⟩) ?_
  · unfold isActive at hact ⊢
    rw [active_of_view (ha _ c1)]
    exact hact
  unfold dispatchSwapExactAmountIn at hdis ⊢
  rw [EM.bind_eq_ok] at hdis
  obtain ⟨u, s1, h1, hdis⟩ := hdis
  rw [EM.lift_eq_ok] at h1
  obtain ⟨h1, rfl⟩ := h1
  refine .reads (a := u) (by rw [EM.lift_eq_ok]; exact ⟨h1, rfl⟩) (fun s' _ => by rw [EM.lift_eq_ok]; exact ⟨h1, rfl⟩) ?_
  rw [EM.bind_eq_ok] at hdis
  obtain ⟨u2, s2, h2, hdis⟩ := hdis
  rw [EM.ensure_eq_ok] at h2
  obtain ⟨h2, rfl⟩ := h2
  refine .reads (a := ()) (by rw [EM.ensure_eq_ok]; exact ⟨h2, rfl⟩) (fun s' _ => by rw [EM.ensure_eq_ok]; exact ⟨h2, rfl⟩) ?_
  rw [EM.bind_ok_of (loadOrderbook_some hob)] at hdis
  refine .reads (a := ob') (loadOrderbook_some hob) (fun s' ha => loadOrderbook_some (by rw [book_of_view (ha _ c2)]; exact hob)) ?_
  rw [EM.bind_eq_ok] at hdis
  obtain ⟨dir', s3, h3, hdis⟩ := hdis
  rw [EM.lift_eq_ok] at h3
  obtain ⟨h3, rfl⟩ := h3
  obtain rfl : dir' = dir := by
    have := (directionFromPair_eq_ok hptr.denoms).2 g1.denoms
    rw [h3] at this
    exact Except.ok.inj this
  refine .reads (a := dir') (by rw [EM.lift_eq_ok]; exact ⟨h3, rfl⟩) (fun s' _ => by rw [EM.lift_eq_ok]; exact ⟨h3, rfl⟩) ?_
  rw [EM.bind_eq_ok] at hdis
  obtain ⟨u4, s4, h4, hdis⟩ := hdis
  rw [EM.ensure_eq_ok] at h4
  obtain ⟨h4, rfl⟩ := h4
  refine .reads (a := ()) (by rw [EM.ensure_eq_ok]; exact ⟨h4, rfl⟩) (fun s' _ => by rw [EM.ensure_eq_ok]; exact ⟨h4, rfl⟩) ?_
  rw [EM.bind_eq_ok] at hdis
  obtain ⟨⟨out, q2⟩, s5, h5, hdis⟩ := hdis
  simp only at *
  generalize hbound : r.target.getD (defaultBound dir') = bound at *
  generalize ho : (⟨r.tokenIn.amount, dir', r.sender⟩ : MarketOrder) = o at *
  have hod : o.dir = dir' := by rw [← ho]
  have hoq : o.quantity = r.tokenIn.amount := by rw [← ho]
  unfold runMarketOrder at h5 ⊢
  rw [EM.get_bind, EM.bind_eq_ok] at h5
  obtain ⟨post, s6, h6, h5⟩ := h5
  rw [EM.lift_eq_ok] at h6
  obtain ⟨h6, rfl⟩ := h6
  obtain ⟨st, hst, hup⟩ := internal_loop hob h6
  obtain ⟨F2, q3, dust2, lp2, hrun, hpost⟩ := runMarketOrderInternal_spec h.rel hob (by rw [hoq]; exact hq.1) h6
  have hupd : st.tickUpdates.map Prod.fst = F2.map Fill.tick := by
    rw [← hup, hpost]
    simp
  rw [EM.bind_ok_of (saveTicks_ok _ _), EM.bind_eq_ok] at h5
  obtain ⟨outDec, s7, h7, h5⟩ := h5
  rw [EM.lift_eq_ok] at h7
  obtain ⟨h7, rfl⟩ := h7
  rw [EM.bind_eq_ok] at h5
  obtain ⟨u8, s8, h8, h5⟩ := h5
  have hticks : w'.store.ticks = insertAll w.store.ticks post.tickUpdates := by
    unfold subtractDirectionalLiquidity saveDirLiq at h8
    unfold saveOrderbook at h5
    simp only [EM.get_bind, EM.bind_eq_ok, EM.lift_eq_ok, EM.modify_eq_ok, EM.pure_eq_ok] at h8 h5 hdis
    obtain ⟨_, _, ⟨-, rfl⟩, rfl⟩ := h8
    obtain ⟨_, _, rfl, -, rfl⟩ := h5
    obtain ⟨_, _, ⟨-, rfl⟩, -, e⟩ := hdis
    rw [e]
  -- the levels it fills
  have hsort := sweepTicks_sorted (ob := ob') (dir := o.dir) (bound := bound) h.rel.ticksSorted
  have hn : (F2.map Fill.tick).Nodup := hrun.sweep.nodup hsort
  have hfill := hrun.sweep.fills
  have hliq : ∀ t, tickLiquidity w.store t o.dir.opposite = leftAt b o.dir.opposite t := by
    intro t
    show toUintFloor (tv w.store t o.dir.opposite).tal = _
    rw [h.rel.tal_eq]
    exact Nat.mul_div_cancel_left _ D_pos
  have hw : ∀ t, (tv w'.store t o.dir.opposite).tal = (tv w.store t o.dir.opposite).tal - D * fillAt F2 t := by
    intro t
    have e : w'.store.ticks = (swappedStore w.store o.dir.opposite F2 ob').ticks := by
      rw [hticks, hpost]
      rfl
    have e2 : tv w'.store t o.dir.opposite = tv (swappedStore w.store o.dir.opposite F2 ob') t o.dir.opposite := tv_congr (by rw [e]) _
    rw [e2, swapped_tv hn]
  have hliq' : ∀ t, tickLiquidity w'.store t o.dir.opposite = leftAt b o.dir.opposite t - fillAt F2 t := by
    intro t
    show toUintFloor (tv w'.store t o.dir.opposite).tal = _
    rw [hw, h.rel.tal_eq, ← Nat.mul_sub]
    exact Nat.mul_div_cancel_left _ D_pos
  have hsp : ∀ T, r.Spared o.dir.opposite w.store w'.store T → T ∈ sweepTicks w.store ob' o.dir bound ∧ T ∉ F2.map Fill.tick ∧
      leftAt b o.dir.opposite T ≠ 0 := by
    rintro T ⟨k1, k2, k3⟩
    rw [hliq] at k2
    have hk := leftAt_known h.rel k2
    refine ⟨mem_sweepTicks.2 ⟨hk, inReach_iff.2 ⟨?_, ?_⟩⟩, fun hm => ?_, k2⟩
    · have hb := hptr.bid T
      have ha := hptr.ask T
      revert k2
      cases o.dir <;> simp only [leftAt, Better, Orderbook.pointer, Dir.opposite] <;> intro k2
      · have := ha k2; omega
      · have := hb k2; omega
    · cases htg : r.target with
      | some tg =>
        rw [htg] at hbound
        have : tg = bound := hbound
        rw [← this]
        exact k1 tg htg
      | none =>
        rw [htg] at hbound
        have hb : defaultBound dir' = bound := hbound
        have := h.rel.known_range hk
        rw [← hb, ← hod]
        cases o.dir <;> simp only [Better, defaultBound, Dir.opposite] <;> omega
    · obtain ⟨f, hf, rfl⟩ := List.mem_map.1 hm
      have := hfill f hf
      rw [hliq, hliq', fillAt_mem hn hf] at k3
      omega
  -- cells
  have hcell : ∀ t, InReach ob' o.dir bound t → (∀ T, r.Spared o.dir.opposite w.store w'.store T → ¬ Better o.dir.opposite T t) → S (.tick t) := by
    intro t ht hT
    rw [← hS, ← hod]
    obtain ⟨k1, k2⟩ := inReach_iff.1 ht
    refine ⟨k1, fun tg htg => ?_, hT⟩
    rw [htg] at hbound
    have : tg = bound := hbound
    rw [this]
    exact k2
  have hread : ∀ s', Proper s' → (∀ c, S c → sview s' c = sview w.store c) → runMarketOrderInternal s' o bound = .ok post := by
    intro s' hp' ha
    rw [← h6]
    refine internal_congr hob (by rw [book_of_view (ha _ c2)]; exact hob) ?_
    have hsort' := sweepTicks_sorted (ob := ob') (dir := o.dir) (bound := bound) hp'.1
    rcases best_of hsort (r.Spared o.dir.opposite w.store w'.store) with hno | ⟨M, m1, m2, m3⟩
    · have hall : ∀ t, InReach ob' o.dir bound t → s'.ticks.get? t = w.store.ticks.get? t := fun t ht =>
        tick_of_view (ha _ (hcell t ht fun T hT => absurd hT (hno T (hsp T hT).1)))
      have asym : ∀ a b, WorseThan o.dir a b → WorseThan o.dir b a → False := by
        intro a b; cases o.dir <;> simp only [WorseThan] <;> omega
      have : Std.Irrefl (WorseThan o.dir) := ⟨fun a h1 => asym a a h1 h1⟩
      have : Std.Antisymm (WorseThan o.dir) := ⟨fun a b h1 h2 => (asym a b h1 h2).elim⟩
      have e : sweepTicks s' ob' o.dir bound = sweepTicks w.store ob' o.dir bound := List.Pairwise.eq_of_mem_iff hsort' hsort fun t => by
        rw [mem_sweepTicks, mem_sweepTicks]
        exact ⟨fun k => ⟨by rw [← hall t k.2]; exact k.1, k.2⟩, fun k => ⟨by rw [hall t k.2]; exact k.1, k.2⟩⟩
      rw [e]
      exact loop_agree (fun t ht => hall t (mem_sweepTicks.1 ht).2) _
    · have hMr := (mem_sweepTicks.1 m1).2
      have hbetter : ∀ t, InReach ob' o.dir bound t → ¬ WorseThan o.dir M t → s'.ticks.get? t = w.store.ticks.get? t := by
        intro t ht hM
        refine tick_of_view (ha _ (hcell t ht fun T hT hTt => ?_))
        have k := m3 T (hsp T hT).1 hT
        rw [better_worse] at hTt
        revert k hTt hM
        cases o.dir <;> simp only [WorseThan] <;> omega
      have irr : ∀ t, ¬ WorseThan o.dir t t := by intro t; cases o.dir <;> simp only [WorseThan] <;> omega
      have asym : ∀ a b, WorseThan o.dir a b → ¬ WorseThan o.dir b a := by
        intro a b; cases o.dir <;> simp only [WorseThan] <;> omega
      have hM := hbetter M hMr (irr M)
      obtain ⟨A, R, R', e1, e2, hA⟩ := sorted_split hsort hsort' (M := M) m1 (mem_sweepTicks.2 ⟨by rw [hM]; exact (mem_sweepTicks.1 m1).1, hMr⟩)
        fun t ht => by
          rw [mem_sweepTicks, mem_sweepTicks]
          exact ⟨fun k => ⟨by rw [hbetter t k.2 (asym _ _ ht)]; exact k.1, k.2⟩, fun k => ⟨by rw [← hbetter t k.2 (asym _ _ ht)]; exact k.1, k.2⟩⟩
      rw [e1] at hst ⊢
      rw [e2, hst]
      refine loop_cut hst (fun t ht => ?_) hM ?_ ?_
      · have hm : t ∈ sweepTicks w.store ob' o.dir bound := by rw [e1]; exact List.mem_append_left _ ht
        exact hbetter t (mem_sweepTicks.1 hm).2 (asym _ _ (hA t ht))
      · rw [h.rel.tal_eq]
        exact Nat.mul_ne_zero D_pos.ne' (hsp M m2).2.2
      · rw [hupd]
        exact (hsp M m2).2.1
  have hwrite : ∀ x ∈ post.tickUpdates, S (.tick x.1) := by
    intro x hx
    have hx1 : x.1 ∈ F2.map Fill.tick := by rw [← hupd, ← hup]; exact List.mem_map_of_mem hx
    obtain ⟨f, hf, hfx⟩ := List.mem_map.1 hx1
    rw [← hfx]
    have hm := hrun.sweep.sublist.subset (List.mem_map_of_mem hf)
    refine hcell _ (mem_sweepTicks.1 hm).2 fun T hT hb => ?_
    obtain ⟨k1, k2, k3⟩ := hsp T hT
    obtain ⟨g, hg, rfl, -⟩ := hrun.sweep.bestFirst (sweepTicks_range h.rel) hsort f hf T k1 (better_worse.1 hb) k3
    exact k2 (List.mem_map_of_mem hg)
  refine .bindOn (.readOn h6 hread ?_) fun a t _ => .bind (.lift _ _) fun _ _ _ => .pure _ _
  refine .bind (saveTicks_on _ hwrite _) fun _ _ _ => .bind (.lift _ _) fun _ _ _ => ?_
  refine .bind ((subLiq_on (S0 := [.dirLiq o.dir.opposite]) _ _ (by simp)).mono fun c hc => ?_) fun _ _ _ =>
    .bind ((saveOrderbook_on (S0 := [.orderbook]) _ (by simp)).mono fun c hc => ?_) fun _ _ _ => .pure _ _
  · rw [List.mem_singleton] at hc
    subst hc
    rw [hod]
    exact c3
  · rw [List.mem_singleton] at hc
    subst hc
    exact c2

/-- C94 (lower bound): and every level from the pointer to the last one it takes from matters, whether there is anything on it or not: a set of
cells that the swap does not look beyond contains them all. -/
theorem C94_lower {ch : Chain} {n : Nat} {w : World} {b : Book} (h : Traced ch n w b) {ob : Orderbook} (hob : w.store.orderbook = some ob)
    {r : SwapReq} {side : Dir} (hp : r.pair ob.quoteDenom ob.baseDenom side) {time : Nat} {w' : World} {resp : Response}
    (hok : step ch w (r.op time) = .ok (w', resp)) {S : Cell → Prop} (hS : Touches ch w (r.op time) S) {t f : Int}
    (hf : taken w.store w'.store f side ≠ 0) (ht : ¬ Better side t (Orderbook.pointer ob side)) (htf : ¬ Better side f t) : S (.tick t) := by
  obtain ⟨ob', hob2, hptr⟩ := h.rel.ptr
  obtain rfl : ob' = ob := by rw [hob] at hob2; exact (Option.some.inj hob2).symm
  by_contra hc
  -- it does not write the level
  have hsame : w'.store.ticks.get? t = w.store.ticks.get? t := by
    have h1 := hS w ⟨h.rel.ticksSorted, h.rel.ordersSorted⟩ rfl fun _ _ => rfl
    rw [hok] at h1
    exact tick_of_view (h1.2.2.2 _ hc).1
  obtain ⟨dir, F, q', dust, lp, bank1, hact, hne, hq, g1, -, g3, -, -, hF, hFr, hft, -⟩ := h.swap_inv hok hob
  obtain rfl : side = dir.opposite := pair_side hptr.denoms hp g1.denoms
  have htf' : t ≠ f := by
    rintro rfl
    apply hf
    unfold taken tickLiquidity
    rw [hsame, Nat.sub_self]
  obtain ⟨-, -, _, -, -, hdis, -⟩ := step_swap_ok.1 hok
  obtain ⟨dir', post, k1, k2, k3⟩ := dispatch_raw hob hdis
  obtain rfl : dir' = dir := by
    have := (directionFromPair_eq_ok hptr.denoms).2 g1.denoms
    rw [k1] at this
    exact Except.ok.inj this
  obtain ⟨st, hst, hup⟩ := internal_loop hob k2
  simp only at hst
  generalize hbound : r.target.getD (defaultBound dir') = bound at *
  have hsort := sweepTicks_sorted (ob := ob') (dir := dir') (bound := bound) h.rel.ticksSorted
  -- the filled level
  have hfu : f ∈ post.tickUpdates.map Prod.fst := by
    by_contra hn
    apply hf
    unfold taken tickLiquidity
    rw [k3, insertAll_get_notin hn, Nat.sub_self]
  have hfl : f ∈ sweepTicks w.store ob' dir' bound := by
    obtain ⟨l, e1, e2⟩ := loop_keys hst
    rw [hup, e1] at hfu
    exact e2.subset (by simpa using hfu)
  have hfr := (mem_sweepTicks.1 hfl).2
  have hfM := sweepTicks_range h.rel f hfl
  have hptr2 : MIN_TICK ≤ Orderbook.pointer ob' dir'.opposite ∧ Orderbook.pointer ob' dir'.opposite ≤ MAX_TICK := by
    have := hptr.bidLo
    have := hptr.bidHi
    have := hptr.askLo
    have := hptr.askHi
    cases dir' <;> simp only [Orderbook.pointer, Dir.opposite] <;> constructor <;> assumption
  have htM : MIN_TICK ≤ t ∧ t ≤ MAX_TICK := by
    revert ht htf hptr2
    cases dir' <;> simp only [Better, Dir.opposite] <;> omega
  have htr : InReach ob' dir' bound t := by
    rw [inReach_iff] at hfr ⊢
    refine ⟨ht, ?_⟩
    have := hfr.2
    revert this htf
    cases dir' <;> simp only [Better, Dir.opposite] <;> omega
  -- another world
  let cur : TickState := ((w.store.ticks.get? t).getD .default).setValues dir'.opposite ⟨D, 0, 0, 0, 0⟩
  let s2 : Store := { w.store with ticks := w.store.ticks.insert t cur }
  have hcur : s2.ticks.get? t = some cur := by show (SMap.insert _ _ _).get? t = _; rw [SMap.get?_insert, if_pos rfl]
  have hother : ∀ x, x ≠ t → s2.ticks.get? x = w.store.ticks.get? x := by
    intro x hx
    show (SMap.insert _ _ _).get? x = _
    rw [SMap.get?_insert, if_neg (by first | exact hx | exact hx.symm)]
  have hproper : Proper s2 := ⟨h.rel.ticksSorted.insert _ _, h.rel.ordersSorted⟩
  have h2 := hS ⟨s2, w.bank⟩ hproper rfl fun c hcS => by
    cases c <;> try rfl
    next x =>
    have hx : x ≠ t := by rintro rfl; exact hc hcS
    show Option.map _ _ = Option.map _ _
    rw [hother x hx]
  rw [hok] at h2
  cases hs2 : step ch ⟨s2, w.bank⟩ (r.op time) with
  | error e => rw [hs2] at h2; exact h2
  | ok y =>
    obtain ⟨w2', resp2⟩ := y
    rw [hs2] at h2
    have hkeep : w2'.store.ticks.get? t = some cur := (tick_of_view (h2.2.2.2 _ hc).2).trans hcur
    obtain ⟨-, -, _, -, -, hdis2, -⟩ := step_swap_ok.1 hs2
    obtain ⟨dir2, post2, j1, j2, j3⟩ := dispatch_raw (s := s2) hob hdis2
    obtain rfl : dir2 = dir' := by rw [k1] at j1; exact (Except.ok.inj j1).symm
    rw [hbound] at j2
    obtain ⟨st2, hst2, hup2⟩ := internal_loop (s := s2) hob j2
    simp only at hst2
    have hsort2 := sweepTicks_sorted (ob := ob') (dir := dir2) (bound := bound) hproper.1
    have hnd : (post2.tickUpdates.map Prod.fst).Nodup := by
      obtain ⟨l, e1, e2⟩ := loop_keys hst2
      rw [hup2, e1]
      refine (List.Pairwise.imp ?_ hsort2).sublist (by simpa using e2)
      intro x y hxy
      cases dir2 <;> simp only [WorseThan] at hxy <;> omega
    obtain ⟨A, R, e1, hA, hR⟩ := sorted_before hsort t
    obtain ⟨A2, R2, e2, hA2, hR2⟩ := sorted_before hsort2 t
    have htin : t ∈ sweepTicks s2 ob' dir2 bound := mem_sweepTicks.2 ⟨by rw [hcur]; simp, htr⟩
    have irr : ∀ x, ¬ WorseThan dir2 x x := by intro x; cases dir2 <;> simp only [WorseThan] <;> omega
    have asym : ∀ a b, WorseThan dir2 a b → WorseThan dir2 b a → False := by
      intro a b; cases dir2 <;> simp only [WorseThan] <;> omega
    have hmem : ∀ x, x ≠ t → (x ∈ sweepTicks s2 ob' dir2 bound ↔ x ∈ sweepTicks w.store ob' dir2 bound) := by
      intro x hx
      rw [mem_sweepTicks, mem_sweepTicks, hother x hx]
    have hAA : A2 = A := by
      have : Std.Irrefl (WorseThan dir2) := ⟨irr⟩
      have : Std.Antisymm (WorseThan dir2) := ⟨fun a b h1 h2 => (asym a b h1 h2).elim⟩
      have p1 := hsort
      have p2 := hsort2
      rw [e1, List.pairwise_append] at p1
      rw [e2, List.pairwise_append] at p2
      refine List.Pairwise.eq_of_mem_iff p2.1 p1.1 fun x => ?_
      constructor
      · intro hx
        have hx1 := hA2 x hx
        have hxt : x ≠ t := by rintro rfl; exact irr _ hx1
        have := (hmem x hxt).1 (by rw [e2]; exact List.mem_append_left _ hx)
        rw [e1] at this
        exact (List.mem_append.1 this).resolve_right fun hh => hR x hh hx1
      · intro hx
        have hx1 := hA x hx
        have hxt : x ≠ t := by rintro rfl; exact irr _ hx1
        have := (hmem x hxt).2 (by rw [e1]; exact List.mem_append_left _ hx)
        rw [e2] at this
        exact (List.mem_append.1 this).resolve_right fun hh => hR2 x hh hx1
    subst hAA
    have hR2' : ∃ R', R2 = t :: R' := by
      rw [e2] at htin hsort2
      have htR : t ∈ R2 := (List.mem_append.1 htin).resolve_left fun hh => irr _ (hA2 t hh)
      cases R2 with
      | nil => cases htR
      | cons x R' =>
        rw [List.pairwise_append, List.pairwise_cons] at hsort2
        rcases List.mem_cons.1 htR with rfl | hm
        · exact ⟨R', rfl⟩
        · exact absurd (hsort2.2.1.1 t hm) (hR2 x (List.mem_cons_self ..))
    obtain ⟨R', rfl⟩ := hR2'
    rw [e1] at hst
    rw [e2] at hst2
    have hAR : ∀ x ∈ A2 ++ R, MIN_TICK ≤ x ∧ x ≤ MAX_TICK := by rw [← e1]; exact sweepTicks_range h.rel
    obtain ⟨cur', c1, c2⟩ := loop_hits (f := f) (cur := cur) h.rel (by exact hq) hst hst2 (fun x hx => hother x fun e => irr t (e ▸ hA x hx))
      (fun x hx => hAR x (List.mem_append_left _ hx)) (fun x hx => ⟨hAR x (List.mem_append_right _ hx), hR x hx⟩) htM hcur
      (by rw [getValues_setValues_self]; exact D_pos.ne') (by rw [← hup]; exact hfu) (by simp) (fun hm => by
        have := hA f hm
        revert this htf
        cases dir2 <;> simp only [Better, WorseThan, Dir.opposite] <;> omega)
    rw [← hup2] at c1
    have := insertAll_get_mem (m := s2.ticks) hnd c1
    rw [← j3, hkeep] at this
    cases this
    exact absurd c2 (lt_irrefl _)

/-- The level stays once it is there. -/
theorem C94_forever {ch : Chain} {w : World} (hw : Reachable ch w) {t : Int} (ht : w.store.cell none (.tick t) ≠ none) (ops : List Op) :
    (run ch w ops).store.cell none (.tick t) ≠ none := by
  obtain ⟨n, hn⟩ := hw
  obtain ⟨b, h⟩ := hn.traced
  obtain ⟨b', h', hg, -⟩ := h.run_grows ops
  have e : ∀ s : Store, s.cell none (.tick t) ≠ none ↔ s.ticks.get? t ≠ none := by
    intro s
    simp only [Store.cell, ne_eq, Option.map_eq_none_iff]
  rw [e, h.rel.known] at ht
  rw [e, h'.rel.known]
  have key : ∀ d, b t d ≠ [] → b' t d ≠ [] := by
    intro d hd he
    obtain ⟨q1, q2, e1, e2, -⟩ := hg t d
    rw [he] at e1
    have : q1 = [] := by
      cases q1 with
      | nil => rfl
      | cons x l => cases e1
    rw [this] at e2
    cases hb : b t d with
    | nil => exact hd hb
    | cons x l => rw [hb] at e2; cases e2
  exact ht.imp (key .bid) (key .ask)

theorem cancel_conf {ch : Chain} {n : Nat} {w : World} {b : Book} (h : Traced ch n w b) {sender : Addr} {funds : List Coin} {time : Nat} {tick : Int}
    {id : Nat} {w' : World} {resp : Response} (hs : step ch w (.execute sender funds time (.cancelLimit tick id)) = .ok (w', resp)) :
    isActive w'.store = true ∧ w'.store.orderbook = w.store.orderbook := by
  have hst := h.step hs
  generalize b.observe _ _ _ _ = b' at hst
  generalize w'.store = s' at hst ⊢
  cases hst with
  | config h1 => simp [Op.isConfig] at h1
  | @cancel _ _ dir _ s1 _ ob p q x tr ts1 g1 g2 g3 g4 g5 g6 g7 g8 g9 =>
    have e := g6.store
    refine ⟨?_, ?_⟩
    · show s1.isActive.getD true = true
      rw [e]; exact g1
    · show s1.orderbook = _
      rw [e]

/-- One order, placed and cancelled. -/
theorem litter_one {ch : Chain} {w0 : World} (hi : Initial ch w0) {ops : List Op} (hn : ops.length + 1 < 10 ^ 16) {w : World} (hw : w = run ch w0 ops)
    {ob : Orderbook} (hob : w.store.orderbook = some ob) (ha : isActive w.store = true) {sender : Addr} (hs : sender ≠ ch.contract) {side : Dir}
    (hone : 1 ≤ w.bank sender (ob.expectedDenom side)) {t : Int} (ht : ValidTick t) (time : Nat) :
    ∃ id, let more : List Op := [.execute sender [⟨ob.expectedDenom side, 1⟩] time (.placeLimit t side 1 none), .execute sender [] time (.cancelLimit t id)]
      let w' := run ch w more
      w'.bank = w.bank ∧ (∀ x d, tickLiquidity w'.store x d = tickLiquidity w.store x d) ∧ (∀ k, w'.store.orders.get? k = w.store.orders.get? k) ∧
      isActive w'.store = true ∧ w'.store.orderbook = some (ob.withPlaced t side) ∧ w'.store.cell none (.tick t) ≠ none := by
  have hroom : w.HasRoom := by rw [hw]; exact (C72_room hi ops).2.1 (by omega)
  have hreach : Reachable ch w := by rw [hw]; exact hi.reachable.run ops
  have hd : denoms w.store = .ok (ob.quoteDenom, ob.baseDenom) := denoms_of hob
  have hden : denomIn ob.quoteDenom ob.baseDenom side = ob.expectedDenom side := by cases side <;> rfl
  obtain ⟨w1, resp1, h1⟩ := (C05_place_acceptance hreach hroom hd ha hs [⟨ob.expectedDenom side, 1⟩] time t side 1 none).1.2
    ⟨ht, by omega, by norm_num, by simp, by rw [hden], by rw [hden]; exact hone⟩
  obtain ⟨n, hreach'⟩ := hreach
  obtain ⟨b, h⟩ := hreach'.traced
  obtain ⟨id, o, e1, e2, e3, e4, e5, -, -, -, -, e6, e7⟩ := C07_place_effects ⟨n, hreach'⟩ hd h1
  have hst := h.step h1
  have htr1 := Traced.ok h h1
  generalize b.observe _ _ _ _ = b1 at hst htr1
  have hpl : b1 = b.set t side (b t side ++ [newEntry w.store sender 1 none time]) ∧ w1.store.orderbook = some (ob.withPlaced t side) ∧
      id = w.store.orderId.getD 0 := by
    generalize hs1 : w1.store = s1 at hst
    cases hst with
    | @place _ _ _ _ _ _ _ _ _ ob' k1 k2 k3 k4 =>
      obtain rfl := orderbook_inj k2 hob
      simp only [Response.mk.injEq, List.cons.injEq, Event.placeLimit.injEq] at e1
      exact ⟨rfl, rfl, e1.2.1.1.2.2.1.symm⟩
    | config k1 => simp [Op.isConfig] at k1
  obtain ⟨rfl, hob1, hid⟩ := hpl
  have hx : newEntry w.store sender 1 none time ∈ b.set t side (b t side ++ [newEntry w.store sender 1 none time]) t side := by
    rw [Book.set_self]; simp
  have hlive : (newEntry w.store sender 1 none time).Live := by unfold Entry.Live newEntry; simp
  have ha1 : isActive w1.store = true := by unfold isActive at ha ⊢; rw [e6.1]; exact ha
  have hroom1 : w1.HasRoom := by
    have hh := (C72_room hi (ops ++ [.execute sender [⟨ob.expectedDenom side, 1⟩] time (.placeLimit t side 1 none)])).2.1 (by simp; omega)
    rw [run_concat, ← hw] at hh
    unfold apply at hh
    rw [h1] at hh
    exact hh
  obtain ⟨w2, resp2, h2⟩ := (C09_cancel_iff_no_unclaimed_fill htr1 hroom1 ha1 hx hlive time).2 rfl
  have hd1 : denoms w1.store = .ok (ob.quoteDenom, ob.baseDenom) := e6.2.2.2.2.2.2.2.trans hd
  obtain ⟨dir, x, f1, f2, f3, f4, f5, f6, f7, f8, f9, f10, f11, -⟩ := C09_cancel_effects htr1 hd1 h2
  obtain ⟨-, rfl⟩ := htr1.rel.ids.disj _ _ _ _ _ _ f1 hx f2
  have hxe : x.placed - x.claimed = 1 := by
    obtain ⟨o', g1, -, g3⟩ := f9
    have hide : (newEntry w.store sender 1 none time).id = id := hid.symm
    rw [hide, e3, if_pos rfl] at g1
    cases g1
    rw [← g3, e4.2.2.2.2.1]
  obtain ⟨hca, hcb⟩ := cancel_conf htr1 h2
  rw [hob1] at hcb
  refine ⟨id, ?_⟩
  have hide : (newEntry w.store sender 1 none time).id = id := hid.symm
  have how : (newEntry w.store sender 1 none time).owner = sender := rfl
  rw [hide, how] at h2
  have hrun : run ch w [.execute sender [⟨ob.expectedDenom dir, 1⟩] time (.placeLimit t dir 1 none), .execute sender [] time (.cancelLimit t id)] = w2 := by
    unfold run
    simp only [List.foldl_cons, List.foldl_nil]
    unfold apply
    rw [h1]
    simp only
    rw [h2]
  simp only
  rw [hrun]
  rw [hxe] at f8 f11
  rw [how] at f8
  rw [hide] at f10
  refine ⟨?_, ?_, ?_, hca, hcb, ?_⟩
  · funext a d
    by_cases hdd : d = denomIn ob.quoteDenom ob.baseDenom dir
    · subst hdd
      have := e7.from_
      have := e7.to_
      have := f8.from_
      have := f8.to_
      by_cases ha1 : a = sender
      · subst ha1; omega
      · by_cases ha2 : a = ch.contract
        · subst ha2; omega
        · rw [f8.other a _ (.inl ⟨ha2, ha1⟩), e7.other a _ (.inl ⟨ha1, ha2⟩)]
    · rw [f8.other a d (.inr hdd), e7.other a d (.inr hdd)]
  · intro x d
    have k1 := f11 x d
    rw [e5 x d] at k1
    omega
  · intro k
    rw [f10, e3]
    by_cases hk : k = (t, id)
    · subst hk; rw [if_pos rfl, e2]
    · rw [if_neg hk, if_neg hk]
  · have h1 : w1.store.cell none (.tick t) ≠ none := by
      simp only [Store.cell, ne_eq, Option.map_eq_none_iff]
      rw [← ne_eq, htr1.rel.known]
      have hne : b.set t dir (b t dir ++ [newEntry w.store sender 1 none time]) t dir ≠ [] := fun e => by rw [e] at hx; cases hx
      cases dir
      · exact .inl hne
      · exact .inr hne
    have h3 := C94_forever ⟨_, htr1.reachable⟩ h1 [.execute sender [] time (.cancelLimit t id)]
    unfold run at h3
    simp only [List.foldl_cons, List.foldl_nil] at h3
    unfold apply at h3
    rw [h2] at h3
    exact h3

/-- C94 (litter): somebody who owns one unit can, with two messages per level, place and cancel an order on any list of levels. Afterwards every
balance, every order and the liquidity everywhere is what it was; but the levels are there, for ever, and whatever swap on that side is
accepted next looks at each of them that is not behind the last level it takes from. -/
theorem C94_litter {ch : Chain} {w0 : World} (hi : Initial ch w0) {ops : List Op} {w : World} (hw : w = run ch w0 ops) {ob : Orderbook}
    (hob : w.store.orderbook = some ob) (ha : isActive w.store = true) {sender : Addr} (hs : sender ≠ ch.contract) {side : Dir}
    (hone : 1 ≤ w.bank sender (denomIn ob.quoteDenom ob.baseDenom side)) {L : List Int} (hL : ∀ t ∈ L, ValidTick t)
    (hn : ops.length + 2 * L.length < 10 ^ 16) (time : Nat) :
    ∃ more : List Op, more.length = 2 * L.length ∧ (∀ op ∈ more, ∃ funds msg, op = .execute sender funds time msg) ∧
      let w' := run ch w more
      w'.bank = w.bank ∧ (∀ x d, tickLiquidity w'.store x d = tickLiquidity w.store x d) ∧ (∀ k, w'.store.orders.get? k = w.store.orders.get? k) ∧
      (∀ t ∈ L, ∀ later, (run ch w' later).store.cell none (.tick t) ≠ none) ∧
      ∀ (r : SwapReq) (time' : Nat) (w'' : World) (resp : Response), r.pair ob.quoteDenom ob.baseDenom side →
        step ch w' (r.op time') = .ok (w'', resp) → ∀ S, Touches ch w' (r.op time') S → ∀ f, taken w'.store w''.store f side ≠ 0 →
        ∀ t ∈ L, ¬ Better side f t → S (.tick t) := by
  have hden : denomIn ob.quoteDenom ob.baseDenom side = ob.expectedDenom side := by cases side <;> rfl
  rw [hden] at hone
  have main : ∃ more : List Op, more.length = 2 * L.length ∧ (∀ op ∈ more, ∃ funds msg, op = .execute sender funds time msg) ∧
      (run ch w more).bank = w.bank ∧ (∀ x d, tickLiquidity (run ch w more).store x d = tickLiquidity w.store x d) ∧
      (∀ k, (run ch w more).store.orders.get? k = w.store.orders.get? k) ∧ (∀ t ∈ L, (run ch w more).store.cell none (.tick t) ≠ none) ∧
      ∃ ob', (run ch w more).store.orderbook = some ob' ∧ ob'.quoteDenom = ob.quoteDenom ∧ ob'.baseDenom = ob.baseDenom ∧
        ¬ Better side (Orderbook.pointer ob side) (Orderbook.pointer ob' side) ∧ ∀ t ∈ L, ¬ Better side t (Orderbook.pointer ob' side) := by
    induction L generalizing ops w ob with
    | nil => exact ⟨[], rfl, by simp, rfl, fun _ _ => rfl, fun _ => rfl, by simp, ob, hob, rfl, rfl, by cases side <;> simp [Better], by simp⟩
    | cons t L ih =>
      simp only [List.length_cons] at hn
      obtain ⟨id, k1, k2, k3, k4, k5, k6⟩ := litter_one hi (by omega) hw hob ha hs hone (hL t (List.mem_cons_self ..)) time
      generalize hm : [Op.execute sender [⟨ob.expectedDenom side, 1⟩] time (.placeLimit t side 1 none), .execute sender [] time (.cancelLimit t id)] = m1 at *
      have hlen : m1.length = 2 := by rw [← hm]; rfl
      have hexp : (ob.withPlaced t side).expectedDenom side = ob.expectedDenom side := by
        cases side <;> simp only [Orderbook.withPlaced] <;> split <;> rfl
      have hq : (ob.withPlaced t side).quoteDenom = ob.quoteDenom ∧ (ob.withPlaced t side).baseDenom = ob.baseDenom := by
        cases side <;> simp only [Orderbook.withPlaced] <;> split <;> exact ⟨rfl, rfl⟩
      obtain ⟨more, g1, g2, g3, g4, g5, g6, ob', g7, g8, g9, g10, g11⟩ := ih (ops := ops ++ m1) (w := run ch w m1) (ob := ob.withPlaced t side)
        (by rw [hw, run_append]) k5 k4 (by rw [k1, hexp]; exact hone) (fun x hx => hL x (List.mem_cons_of_mem _ hx))
        (by simp only [List.length_append, hlen]; omega) (by rw [hq.1, hq.2, hexp]; exact hden)
      have hr1 : Reachable ch (run ch w m1) := by rw [hw]; exact (hi.reachable.run ops).run m1
      refine ⟨m1 ++ more, by simp only [List.length_append, List.length_cons, hlen]; omega, fun op hop => ?_, ?_⟩
      · rcases List.mem_append.1 hop with hop | hop
        · rw [← hm] at hop
          rcases List.mem_cons.1 hop with rfl | hop
          · exact ⟨_, _, rfl⟩
          · rw [List.mem_singleton] at hop
            exact ⟨_, _, hop⟩
        · exact g2 op hop
      · rw [run_append]
        have hp1 : ¬ Better side t (Orderbook.pointer (ob.withPlaced t side) side) ∧
            ¬ Better side (Orderbook.pointer ob side) (Orderbook.pointer (ob.withPlaced t side) side) := by
          cases side <;> simp only [Better, Orderbook.pointer, Orderbook.withPlaced] <;> split <;> constructor <;> (try dsimp only) <;> omega
        refine ⟨g3.trans k1, fun x d => (g4 x d).trans (k2 x d), fun k => (g5 k).trans (k3 k), fun x hx => ?_, ob', g7, ?_, ?_, ?_, fun x hx => ?_⟩
        · rcases List.mem_cons.1 hx with rfl | hx
          · exact C94_forever hr1 k6 more
          · exact g6 x hx
        · rw [g8]; exact hq.1
        · rw [g9]; exact hq.2
        · have := hp1.2
          revert this g10
          cases side <;> simp only [Better] <;> omega
        · rcases List.mem_cons.1 hx with rfl | hx
          · have := hp1.1
            revert this g10
            cases side <;> simp only [Better] <;> omega
          · exact g11 x hx
  obtain ⟨more, g1, g2, g3, g4, g5, g6, ob', g7, g8, g9, g10, g11⟩ := main
  have hr1 : Reachable ch (run ch w more) := by rw [hw]; exact (hi.reachable.run ops).run more
  refine ⟨more, g1, g2, g3, g4, g5, fun t ht later => C94_forever hr1 (g6 t ht) later, ?_⟩
  intro r time' w'' resp hp hok S hS f hf t ht htf
  obtain ⟨n, hn1⟩ := hr1
  obtain ⟨b, h⟩ := hn1.traced
  exact C94_lower h g7 (by rw [g8, g9]; exact hp) hok hS hf (g11 t ht) htf

theorem touches_mono {ch : Chain} {w : World} {op : Op} {S S' : Cell → Prop} (h : Touches ch w op S) (hS : ∀ c, S c → S' c) : Touches ch w op S' := by
  intro w2 hp hb ha
  have h1 := h w2 hp hb fun c hc => ha c (hS c hc)
  revert h1
  cases step ch w op with
  | error e => cases step ch w2 op <;> exact id
  | ok x =>
    cases step ch w2 op with
    | error e => exact id
    | ok y =>
      rintro ⟨k1, k2, k3, k4⟩
      refine ⟨k1, k2, fun c hc => ?_, fun c hc => k4 c fun hh => hc (hS c hh)⟩
      by_cases hcS : S c
      · exact k3 c hcS
      · obtain ⟨j1, j2⟩ := k4 c hcS
        rw [j1, j2, ha c hc]

namespace Demo

/-- Asks: one at 30, and before it, placed and cancelled, at 10 and 20; another one far behind. -/
def littered : List Op := [place "alice" 30 .ask 1000 none, place "bob" 10 .ask 1 none, cancel "bob" 10 1, place "bob" 20 .ask 1 none,
  cancel "bob" 20 2, place "carol" 5000000 .ask 7000 none, place "carol" 9000000 .ask 1 none]

end Demo

/-- A purchase of 100 from the level 30: it looks at nothing behind the level 5000000, but it has to look at the empty levels 10 and 20. -/
example : let w := run Demo.ch Demo.w0 Demo.littered
    let r : SwapReq := ⟨"frank", ⟨"q", 100⟩, "b", 1, 0, none⟩
    ∃ w' resp, step Demo.ch w (r.op 3) = .ok (w', resp) ∧ taken w.store w'.store 30 .ask = 99 ∧
      (∀ S, Touches Demo.ch w (r.op 3) S → S (.tick 10) ∧ S (.tick 20) ∧ S (.tick 30)) ∧
      Touches Demo.ch w (r.op 3) (fun c => c = .isActive ∨ c = .orderbook ∨ c = .dirLiq .ask ∨ ∃ t, c = .tick t ∧ 10 ≤ t ∧ t ≤ 5000000) := by
  intro w r
  have k1 : (match step Demo.ch w (r.op 3) with
      | .ok x => decide (taken w.store x.1.store 30 .ask = 99 ∧ tickLiquidity x.1.store 5000000 .ask = 7000 ∧ tickLiquidity w.store 5000000 .ask = 7000)
      | .error _ => false) = true := by decide +kernel
  have k2 : (w.store.orderbook.map fun ob => (ob.quoteDenom, ob.baseDenom, ob.nextAskTick)) = some ("q", "b", 10) := by decide +kernel
  obtain ⟨ob, hob, hob2⟩ := Option.map_eq_some_iff.1 k2
  simp only [Prod.mk.injEq] at hob2
  obtain ⟨n, hn⟩ := Demo.initial.reachable.run Demo.littered
  obtain ⟨b, hb⟩ := hn.traced
  have hp : r.pair ob.quoteDenom ob.baseDenom .ask := by rw [hob2.1, hob2.2.1]; exact ⟨rfl, rfl⟩
  have hptr : Orderbook.pointer ob .ask = 10 := hob2.2.2
  have hrt : r.target = none := rfl
  have hb' : Traced Demo.ch n w b := hb
  clear hb hn
  clear_value w r
  cases hs : step Demo.ch w (r.op 3) with
  | error e => rw [hs] at k1; cases k1
  | ok x =>
    obtain ⟨w', resp⟩ := x
    rw [hs] at k1
    obtain ⟨j1, j2, j3⟩ := of_decide_eq_true k1
    have hlow := fun (S : Cell → Prop) (hS : Touches Demo.ch w (r.op 3) S) (t : Int) => C94_lower hb' hob hp hs hS (t := t) (f := 30) (by rw [j1]; exact Nat.succ_ne_zero 98)
    rw [hptr] at hlow
    refine ⟨w', resp, rfl, j1, fun S hS => ⟨hlow S hS 10 (by simp [Better]) (by simp [Better]), hlow S hS 20 (by simp [Better]) (by simp [Better]),
      hlow S hS 30 (by simp [Better]) (by simp [Better])⟩, touches_mono (C94_upper hb' hob hp hs) fun c hc => ?_⟩
    rw [hptr] at hc
    cases c <;> simp only [SwapReq.scanned] at hc <;> try exact hc.elim
    · simp
    · simp
    · obtain ⟨c1, c2, c3⟩ := hc
      have := c3 5000000 ⟨fun tg h => (by rw [hrt] at h; cases h), by rw [j3]; exact Nat.succ_ne_zero 6999, by rw [j2, j3]⟩
      simp only [Better] at c1 this
      exact .inr (.inr (.inr ⟨_, rfl, by omega, by omega⟩))
    · subst hc; simp

/-- Somebody who owns one unit can make the next purchase look at any hundred thousand levels. -/
example : let w := run Demo.ch Demo.w0 [Demo.place "alice" 200000 .ask 1000 none]
    ∃ more : List Op, more.length = 200000 ∧ (run Demo.ch w more).bank = w.bank ∧
      ∀ (r : SwapReq) (time : Nat) (w'' : World) (resp : Response), r.pair "q" "b" .ask → step Demo.ch (run Demo.ch w more) (r.op time) = .ok (w'', resp) →
        ∀ S, Touches Demo.ch (run Demo.ch w more) (r.op time) S → ∀ f, taken (run Demo.ch w more).store w''.store f .ask ≠ 0 →
        ∀ t : Nat, t < 100000 → (t : Int) ≤ f → S (.tick t) := by
  intro w
  have k2 : (w.store.orderbook.map fun ob => (ob.quoteDenom, ob.baseDenom)) = some ("q", "b") := by decide +kernel
  obtain ⟨ob, hob, hob2⟩ := Option.map_eq_some_iff.1 k2
  simp only [Prod.mk.injEq] at hob2
  obtain ⟨more, h1, -, h3, -, -, -, h6⟩ := C94_litter Demo.initial (ops := [Demo.place "alice" 200000 .ask 1000 none]) (w := w) rfl hob (by decide +kernel)
    (sender := "bob") (by decide) (side := .ask) (by rw [hob2.1, hob2.2]; decide +kernel) (L := (List.range 100000).map fun n : Nat => (n : Int))
    (fun t ht => by
      simp only [List.mem_map, List.mem_range] at ht
      obtain ⟨m, hm, rfl⟩ := ht
      unfold ValidTick
      omega) (by simp) 5
  refine ⟨more, by rw [h1]; simp, h3, fun r time w'' resp hp hs S hS f hf t ht htf => ?_⟩
  rw [hob2.1, hob2.2] at h6
  exact h6 r time w'' resp hp hs S hS f hf t (List.mem_map.2 ⟨t, List.mem_range.2 ht, rfl⟩) (by simp only [Better]; omega)

end OB
