import Verif.Proofs.Update
import Verif.Proofs.Market
/- run_market_order -/
namespace OB

/-- What a side of a tick offers according to the queues. -/
def leftAt (b : Book) (d : Dir) (t : Int) : Nat := sumBy Entry.left (b t d)

theorem Rel.tal_eq {s : Store} {b : Book} (h : Rel s b) (t : Int) (d : Dir) : (tv s t d).tal = D * leftAt b d t := by
  obtain ⟨r, rt, a, -, -⟩ := h.sides t d
  exact a.tal

/-- Tick state after taking `f.amount` from side `d`. -/
def filledTick (s : Store) (d : Dir) (f : Fill) : TickState :=
  ((s.ticks.get? f.tick).getD .default).setValues d
    { tv s f.tick d with tal := (tv s f.tick d).tal - D * f.amount, etas := (tv s f.tick d).etas + D * f.amount }

/-- Best-price pointer after the fills. -/
def ptrAfter (ob : Orderbook) (d : Dir) (F : List Fill) : Orderbook := F.foldl (fun ob f => ob.setNext d f.tick) ob

theorem valDown_D_lt {dir : Dir} {a : Nat} {t : Int} (h0 : MIN_TICK ≤ t) (h1 : t ≤ MAX_TICK) (ha : a < U128) :
    valDown dir a (priceNat t) * D < U256 := valDown_mul_lt h0 h1 ha

theorem marketLoop_spec {s : Store} {b : Book} (h : Rel s b) {dir : Dir} {ts : List Int}
    (hr : ∀ t ∈ ts, MIN_TICK ≤ t ∧ t ≤ MAX_TICK) {st st' : LoopSt} (hq : st.quantity < U128)
    (hok : marketLoop s dir ts st = .ok st') :
    ∃ F q' dust lp', Sweep dir (leftAt b dir.opposite) ts st.quantity st.lastTickPrice F q' dust lp' ∧
      st' = ⟨q', ptrAfter st.orderbook dir.opposite F, st.totalOutput + sumAmount F,
        st.tickUpdates ++ F.map (fun f => (f.tick, filledTick s dir.opposite f)), lp'⟩ := by
  induction ts generalizing st with
  | nil =>
    simp only [marketLoop, Except.ok.injEq] at hok
    subst hok
    exact ⟨[], _, _, _, .nil, by simp [ptrAfter, sumAmount]⟩
  | cons t ts ih =>
    have hrt := hr t (by simp)
    have ih := fun {st} => ih (st := st) (fun t ht => hr t (by simp [ht]))
    unfold marketLoop at hok
    cases hts : s.ticks.get? t with
    | none => simp [hts] at hok
    | some cur =>
    simp only [hts] at hok
    have htv : cur.getValues dir.opposite = tv s t dir.opposite := (tv_of_get hts _).symm
    have htal := h.tal_eq t dir.opposite
    rw [htv] at hok
    split at hok
    · rename_i hz
      obtain ⟨F, q', dust, lp', hs, he⟩ := ih hq hok
      refine ⟨F, q', dust, lp', .skip ?_ hs, he⟩
      rw [htal] at hz
      exact (Nat.mul_eq_zero.1 hz).resolve_left (Nat.ne_of_gt D_pos)
    · rename_i hz
      have hL : leftAt b dir.opposite t ≠ 0 := by
        intro h0; rw [htal, h0] at hz; exact hz rfl
      rw [tickToPrice_ok hrt.1 hrt.2] at hok
      simp only [Except.ok_bind', amountToValue_spec hrt.1 hrt.2 hq, valR] at hok
      split at hok
      · rename_i h0
        simp only [Except.pure_eq', Except.ok.injEq] at hok
        subst hok
        exact ⟨[], _, _, _, .dust hL h0, by simp [ptrAfter, sumAmount]⟩
      · rename_i h0
        rw [fromRatio_one_lt (valDown_mul_lt hrt.1 hrt.2 hq)] at hok
        simp only [Except.ok_bind'] at hok
        set out := valDown dir st.quantity (priceNat t) with hout
        set L := leftAt b dir.opposite t with hLdef
        have hfill : (if out * D < (tv s t dir.opposite).tal then out * D else (tv s t dir.opposite).tal) = D * min out L := by
          rw [htal, Nat.mul_comm out, ← Nat.mul_min_mul_left]
          split <;> omega
        rw [hfill] at hok
        rw [Except.bind_eq_ok'] at hok
        obtain ⟨tal, g1, hok⟩ := hok
        rw [Except.bind_eq_ok'] at hok
        obtain ⟨etas, g2, hok⟩ := hok
        rw [Except.bind_eq_ok'] at hok
        obtain ⟨fill, g3, hok⟩ := hok
        obtain ⟨g1a, rfl⟩ := checkedSub_eq_ok.1 g1
        obtain ⟨g2a, rfl⟩ := checkedAdd_eq_ok.1 g2
        have e : toUintFloor (D * min out L) = min out L := by rw [Nat.mul_comm]; simp
        rw [e] at g3
        obtain ⟨g3a, rfl⟩ := u128TryFrom_eq_ok.1 g3
        rw [amountToValue_spec hrt.1 hrt.2 g3a] at hok
        simp only [Except.ok_bind', valR] at hok
        split at hok
        · simp at hok
        rename_i hin
        rw [Except.bind_eq_ok'] at hok
        obtain ⟨inp, g4, hok⟩ := hok
        obtain ⟨g4a, rfl⟩ := u128TryFrom_eq_ok.1 g4
        rw [Except.bind_eq_ok'] at hok
        obtain ⟨quantity, g5, hok⟩ := hok
        obtain ⟨g5a, rfl⟩ := checkedSub_eq_ok.1 g5
        rw [Except.bind_eq_ok'] at hok
        obtain ⟨out', g6, hok⟩ := hok
        obtain ⟨g6a, rfl⟩ := checkedAdd_eq_ok.1 g6
        obtain ⟨F, q', dust, lp', hs, he⟩ := ih (Nat.lt_of_le_of_lt (Nat.sub_le _ _) hq) hok
        refine ⟨_, q', dust, lp', .fill hL h0 (Nat.pos_of_ne_zero hin) g3a hs, ?_⟩
        rw [he]
        simp only [ptrAfter, List.foldl_cons, sumAmount, List.map_cons, List.sum_cons, LoopSt.mk.injEq, true_and, and_true,
          List.append_assoc, List.singleton_append, List.cons_append, List.nil_append]
        refine ⟨Nat.add_assoc _ _ _, ?_⟩
        simp only [filledTick, hts, Option.getD_some, ← hout, ← hLdef]

/-! ### Saving the updates -/

/-- The fill at a tick. -/
def fillAt (F : List Fill) (t : Int) : Nat :=
  match F.find? (fun f => decide (f.tick = t)) with
  | some f => f.amount
  | none => 0

def insertAll (m : SMap Int TickState) : List (Int × TickState) → SMap Int TickState
  | [] => m
  | (t, ts) :: l => insertAll (m.insert t ts) l

theorem saveTicks_ok (l : List (Int × TickState)) (s : Store) :
    saveTicks l s = .ok () { s with ticks := insertAll s.ticks l } := by
  induction l generalizing s with
  | nil => rfl
  | cons x l ih =>
    obtain ⟨t, ts⟩ := x
    unfold saveTicks
    simp only [saveTick, EM.modify_bind]
    rw [ih]
    rfl

theorem insertAll_sorted {m : SMap Int TickState} (hm : SMap.Sorted m) (l : List (Int × TickState)) :
    SMap.Sorted (insertAll m l) := by
  induction l generalizing m with
  | nil => exact hm
  | cons x l ih => exact ih (hm.insert _ _)

theorem insertAll_get_notin {m : SMap Int TickState} {l : List (Int × TickState)} {t : Int} (h : t ∉ l.map Prod.fst) :
    (insertAll m l).get? t = m.get? t := by
  induction l generalizing m with
  | nil => rfl
  | cons x l ih =>
    simp only [List.map_cons, List.mem_cons, not_or] at h
    unfold insertAll
    rw [ih h.2, SMap.get?_insert_ne _ _ h.1]

theorem insertAll_get_mem {m : SMap Int TickState} {l : List (Int × TickState)} (hn : (l.map Prod.fst).Nodup)
    {t : Int} {ts : TickState} (h : (t, ts) ∈ l) : (insertAll m l).get? t = some ts := by
  induction l generalizing m with
  | nil => simp at h
  | cons x l ih =>
    simp only [List.map_cons, List.nodup_cons] at hn
    unfold insertAll
    rcases List.mem_cons.1 h with rfl | h
    · rw [insertAll_get_notin hn.1]; simp
    · exact ih hn.2 h

theorem fillAt_mem {F : List Fill} (hn : (F.map Fill.tick).Nodup) {f : Fill} (hf : f ∈ F) : fillAt F f.tick = f.amount := by
  induction F with
  | nil => simp at hf
  | cons g F ih =>
    simp only [List.map_cons, List.nodup_cons] at hn
    unfold fillAt
    rw [List.find?_cons]
    rcases List.mem_cons.1 hf with rfl | hf'
    · simp
    · have : g.tick ≠ f.tick := by
        intro he; apply hn.1; rw [he]; exact List.mem_map_of_mem hf'
      simp only [this, decide_false]
      exact ih hn.2 hf'

theorem fillAt_notin {F : List Fill} {t : Int} (h : t ∉ F.map Fill.tick) : fillAt F t = 0 := by
  unfold fillAt
  have : F.find? (fun f => decide (f.tick = t)) = none := by
    rw [List.find?_eq_none]
    intro f hf hd
    simp only [decide_eq_true_eq] at hd
    exact h (hd ▸ List.mem_map_of_mem hf)
  rw [this]

/-- Store after a swap. -/
def swappedStore (s : Store) (d : Dir) (F : List Fill) (ob : Orderbook) : Store :=
  { s with
    ticks := insertAll s.ticks (F.map fun f => (f.tick, filledTick s d f))
    dirLiq := fun d' => if d' = d then some (getDirectionalLiquidity s d - sumAmount F * D) else s.dirLiq d'
    orderbook := some (ptrAfter ob d F) }

theorem swappedStore_dirLiq (s : Store) (d : Dir) (F : List Fill) (ob : Orderbook) : (swappedStore s d F ob).dirLiq =
    fun d' => if d' = d then some (getDirectionalLiquidity s d - sumAmount F * D) else s.dirLiq d' := rfl

theorem map_fst_fills (s : Store) (d : Dir) (F : List Fill) :
    (F.map fun f => (f.tick, filledTick s d f)).map Prod.fst = F.map Fill.tick := by simp

theorem swapped_get {s : Store} {d : Dir} {F : List Fill} {ob : Orderbook} (hn : (F.map Fill.tick).Nodup) (t : Int) :
    (t ∈ F.map Fill.tick → ∃ f ∈ F, f.tick = t ∧ (swappedStore s d F ob).ticks.get? t = some (filledTick s d f)) ∧
    (t ∉ F.map Fill.tick → (swappedStore s d F ob).ticks.get? t = s.ticks.get? t) := by
  constructor
  · intro h
    obtain ⟨f, hf, rfl⟩ := List.mem_map.1 h
    refine ⟨f, hf, rfl, ?_⟩
    refine insertAll_get_mem (by rw [map_fst_fills]; exact hn) ?_
    exact List.mem_map_of_mem (f := fun f => (f.tick, filledTick s d f)) hf
  · intro h
    exact insertAll_get_notin (by rw [map_fst_fills]; exact h)

theorem swapped_tv {s : Store} {d : Dir} {F : List Fill} {ob : Orderbook} (hn : (F.map Fill.tick).Nodup) (t : Int) :
    tv (swappedStore s d F ob) t d =
      { tv s t d with tal := (tv s t d).tal - D * fillAt F t, etas := (tv s t d).etas + D * fillAt F t } := by
  by_cases h : t ∈ F.map Fill.tick
  · obtain ⟨f, hf, rfl, he⟩ := (swapped_get (s := s) (d := d) (ob := ob) hn t).1 h
    rw [tv_of_get he, fillAt_mem hn hf, filledTick, getValues_setValues_self]
  · rw [tv_congr ((swapped_get (s := s) (d := d) (ob := ob) hn t).2 h), fillAt_notin h]
    rfl

theorem swapped_tv_ne {s : Store} {d d' : Dir} {F : List Fill} {ob : Orderbook} (hn : (F.map Fill.tick).Nodup) (t : Int)
    (hd : d' ≠ d) : tv (swappedStore s d F ob) t d' = tv s t d' := by
  by_cases h : t ∈ F.map Fill.tick
  · obtain ⟨f, hf, rfl, he⟩ := (swapped_get (s := s) (d := d) (ob := ob) hn t).1 h
    rw [tv_of_get he, filledTick, getValues_setValues_ne _ _ hd]
    rfl
  · exact tv_congr ((swapped_get (s := s) (d := d) (ob := ob) hn t).2 h) _

/-- `SMap.total` after saving several distinct ticks. -/
theorem insertAll_total {m : SMap Int TickState} (hm : SMap.Sorted m) (g : TickState → Nat) {l : List (Int × TickState)}
    (hn : (l.map Prod.fst).Nodup) :
    SMap.total (fun _ ts => g ts) (insertAll m l) + (l.map fun x => ((m.get? x.1).map g).getD 0).sum =
      SMap.total (fun _ ts => g ts) m + (l.map fun x => g x.2).sum := by
  induction l generalizing m with
  | nil => rfl
  | cons x l ih =>
    obtain ⟨t, ts⟩ := x
    simp only [List.map_cons, List.nodup_cons] at hn
    have ih := ih (hm.insert t ts) hn.2
    have h1 : SMap.total (fun _ ts => g ts) (m.insert t ts) + ((m.get? t).map g).getD 0 =
        SMap.total (fun _ ts => g ts) m + g ts := SMap.total_insert hm (fun _ ts => g ts) t ts
    have h2 : (l.map fun x => (((m.insert t ts).get? x.1).map g).getD 0) = (l.map fun x => ((m.get? x.1).map g).getD 0) := by
      refine List.map_congr_left (fun y hy => ?_)
      have : y.1 ≠ t := by
        intro he; apply hn.1; rw [← he]; exact List.mem_map_of_mem hy
      rw [SMap.get?_insert_ne _ _ this]
    rw [h2] at ih
    simp only [List.map_cons, List.sum_cons]
    unfold insertAll
    omega

end OB
