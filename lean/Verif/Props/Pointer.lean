import Verif.Props.Funds
import Verif.Props.Query
/- C58: how the best-price pointers move. -/
namespace OB
open Spec

theorem answer_orderbookState {s : Store} {ob : Orderbook} (h : s.orderbook = some ob) : answer s .orderbookState = some (.book ob) := by
  have h1 : orderbookState s = .ok ob := by unfold orderbookState; rw [h]
  unfold answer query
  simp only [EM.get_bind, h1, EM.lift_ok_bind, EM.pure_apply]

theorem answer_orderbookState_iff {s : Store} {ob : Orderbook} : answer s .orderbookState = some (.book ob) ↔ s.orderbook = some ob := by
  refine ⟨fun h => ?_, answer_orderbookState⟩
  cases hs : s.orderbook with
  | none =>
    have h1 : orderbookState s = .error .std := by unfold orderbookState; rw [hs]
    unfold answer query at h
    simp [EM.get_bind, h1, EM.lift_error_bind] at h
  | some ob' =>
    rw [answer_orderbookState hs] at h
    simpa using h

/-- C58 (place): a new bid raises the bid pointer to its tick if it is higher, a new ask lowers the ask pointer to its tick if it is lower;
nothing else of the book's state changes. -/
theorem C58_place {ch : Chain} {w w' : World} (hw : Reachable ch w) {sender : Addr} {funds : List Coin} {time : Nat} {tick : Int} {dir : Dir}
    {q : Nat} {cb : Option Nat} {resp : Response} (hs : step ch w (.execute sender funds time (.placeLimit tick dir q cb)) = .ok (w', resp))
    {ob : Orderbook} (hob : answer w.store .orderbookState = some (.book ob)) :
    answer w'.store .orderbookState = some (.book (match dir with
      | .bid => { ob with nextBidTick := max ob.nextBidTick tick }
      | .ask => { ob with nextAskTick := min ob.nextAskTick tick })) := by
  obtain ⟨n, hn⟩ := hw
  obtain ⟨b, h⟩ := hn.traced
  have hob' := answer_orderbookState_iff.1 hob
  have hst := h.step hs
  generalize b.observe _ _ _ _ = b' at hst
  generalize w'.store = s' at hst ⊢
  cases hst with
  | @place _ _ _ _ _ _ _ _ _ ob' h1 h2 h3 h4 =>
    obtain rfl := orderbook_inj h2 hob'
    apply answer_orderbookState
    show some (ob.withPlaced tick dir) = _
    cases dir <;> simp only [Orderbook.withPlaced] <;> split
    · rename_i h; rw [max_eq_right h.le]
    · rename_i h; rw [max_eq_left (by omega)]
    · rename_i h; rw [min_eq_right h.le]
    · rename_i h; rw [min_eq_left (by omega)]
  | config h => simp [Op.isConfig] at h

/-- C58 (swap): a swap moves the pointer of the side it takes from to the last tick it took from, i.e. the worst of the ticks whose
liquidity it reduced; nothing else of the book's state changes. -/
theorem C58_swap {ch : Chain} {w w' : World} (hw : Reachable ch w) {r : SwapReq} {time : Nat} {resp : Response}
    (hs : step ch w (r.op time) = .ok (w', resp)) {ob : Orderbook} (hob : answer w.store .orderbookState = some (.book ob)) {side : Dir}
    (hp : r.pair ob.quoteDenom ob.baseDenom side) :
    ∃ t, taken w.store w'.store t side ≠ 0 ∧ (∀ t', taken w.store w'.store t' side ≠ 0 → t' = t ∨ Better side t' t) ∧
      answer w'.store .orderbookState = some (.book (match side with
        | .bid => { ob with nextBidTick := t }
        | .ask => { ob with nextAskTick := t })) := by
  obtain ⟨n, hn⟩ := hw
  obtain ⟨b, h⟩ := hn.traced
  have hob := answer_orderbookState_iff.1 hob
  obtain ⟨dir, F, q', dust, lp, bank1, -, h2, -, h3, h4, h5, h6, h7, hF, -, h8, -⟩ := h.swap_inv hs hob
  obtain rfl := pair_unique (filledBook_rel h.rel hob) h3.pair hp
  have hnz : sumAmount F ≠ 0 := by
    intro hz
    rw [h4] at h7
    simp only [swapResponse, swapMsgs, hz] at h7
    simp [Bank.dispatch, Bank.send] at h7
  have hne : F ≠ [] := by rintro rfl; exact hnz rfl
  have hsub : (F.map Fill.tick).Pairwise (WorseThan dir) :=
    List.Pairwise.sublist h3.run.sweep.sublist (sweepTicks_sorted h.rel.ticksSorted)
  obtain ⟨F0, f, rfl⟩ : ∃ F0 f, F = F0 ++ [f] := ⟨F.dropLast, F.getLast hne, (List.dropLast_append_getLast hne).symm⟩
  have hmem : ∀ t, taken w.store w'.store t dir.opposite ≠ 0 → ∃ g ∈ F0 ++ [f], g.tick = t := by
    intro t ht
    rw [h8] at ht
    by_contra hc
    exact ht (fillAt_notin fun hm => hc (List.mem_map.1 hm))
  refine ⟨f.tick, ?_, ?_, ?_⟩
  · rw [h8, fillAt_mem hF.nodup (by simp)]
    exact Nat.pos_iff_ne_zero.1 (hF.pos f (by simp))
  · intro t' ht'
    obtain ⟨g, hg, rfl⟩ := hmem t' ht'
    rw [better_iff, Dir.opposite_opposite]
    simp only [List.map_append, List.map_cons, List.map_nil, List.pairwise_append] at hsub
    rcases List.mem_append.1 hg with hg | hg
    · right
      exact hsub.2.2 _ (List.mem_map_of_mem hg) _ (by simp)
    · left; simp at hg; rw [hg]
  · apply answer_orderbookState
    rw [h5]
    show some (ptrAfter ob dir.opposite (F0 ++ [f])) = _
    rw [ptrAfter_eq, List.getLast?_concat]
    cases dir <;> rfl

/-- C58 (rest): no other operation changes the book's state. -/
theorem C58_rest {ch : Chain} {w w' : World} (hw : Reachable ch w) {op : Op} {resp : Response} (hs : step ch w op = .ok (w', resp))
    (h1 : ∀ sender funds time tick dir q cb, op ≠ .execute sender funds time (.placeLimit tick dir q cb))
    (h2 : ∀ r : SwapReq, ∀ time, op ≠ r.op time) :
    answer w'.store .orderbookState = answer w.store .orderbookState := by
  obtain ⟨n, hn⟩ := hw
  obtain ⟨b, h⟩ := hn.traced
  obtain ⟨ob, hob, -⟩ := h.rel.ptr
  rw [answer_orderbookState hob]
  apply answer_orderbookState
  have hst := h.step hs
  generalize b.observe _ _ _ _ = b' at hst
  generalize w'.store = s' at hst
  generalize w.store = s at hst hob
  cases hst with
  | place => exact (h1 _ _ _ _ _ _ _ rfl).elim
  | @cancel time tick dir s s1 b ob' p q x tr ts1 h1 h2 h3 h4 h5 h6 h7 h8 h9 =>
    show s1.orderbook = _
    rw [h6.store]; exact hob
  | claim _ _ _ h4 => rw [h4.orderbook]; exact hob
  | @batch sender time l s b ob' ms es s' b' ha hb hl h4 =>
    clear h1 h2 hs ha hb hl h
    induction h4 with
    | nil => exact hob
    | ok _ h _ ih => exact ih (by rw [h.orderbook]; exact hob)
    | skip _ h _ ih => exact ih (by rw [h.orderbook]; exact hob)
  | @swap time msg sender c out m fee target s b ob' dir F q' dust lp _ _ h3 h4 h5 =>
    cases msg <;> simp only [SudoMsg.swapArgs, Option.some.injEq, Prod.mk.injEq, reduceCtorEq] at h3
    · exact (h2 ⟨_, _, _, _, _, none⟩ _ rfl).elim
    · exact (h2 ⟨_, _, _, _, _, some _⟩ _ rfl).elim
  | config _ h2 => rw [h2.orderbook]; exact hob

/-- Non-vacuity: the demo book has its pointers at 0 and 10; the demo sale moves the bid pointer to -5000000, a bid at 5 raises it to 5, a
bid at -7 leaves it alone. -/
example :
    let ptrs (w : World) := w.store.orderbook.map fun ob => (ob.nextBidTick, ob.nextAskTick)
    ptrs Demo.after = some (0, 10) ∧ ptrs (apply Demo.ch Demo.after (Demo.sale.op 10)) = some (-5000000, 10) ∧
    ptrs (apply Demo.ch Demo.after (Demo.place "zed" 5 .bid 7 none)) = some (5, 10) ∧
    ptrs (apply Demo.ch Demo.after (Demo.place "zed" (-7) .bid 7 none)) = some (0, 10) ∧
    (apply Demo.ch Demo.after (Demo.place "zed" (-7) .bid 7 none)).store.orderId ≠ Demo.after.store.orderId := by decide +kernel

end OB
