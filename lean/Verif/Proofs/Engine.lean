import Verif.Proofs.SwapObs
/- The market order loop computes exactly what the reference matching engine computes. -/
namespace OB
open Spec

theorem sumAmount_cons (f : Fill) (F : List Fill) : sumAmount (f :: F) = f.amount + sumAmount F := rfl

theorem etas_fill_lt {s : Store} {b : Book} (h : Rel s b) {t : Int} {d : Dir} {a : Nat} (ha : a ≤ leftAt b d t) :
    (tv s t d).etas + D * a < U256 := by
  obtain ⟨r, rt, hs, -, -⟩ := h.sides t d
  have h2 := (hs.fill ha)
  have h3 := hs.sum_le (R := sumBy Entry.gap (b t d)) (le_refl _)
  have h4 := hs.bound
  have hok := hs.ok
  have h5 := sum_cap_gap hok
  have h6 := sum_filled_left hok
  have h7 := hs.done.le_rz.trans (rz_le_gap _ _)
  have e : (tv s t d).etas + D * a = D * (sumBy Entry.filled (b t d) + r + a) := by rw [hs.etas]; ring
  rw [e]
  refine lt_of_le_of_lt ?_ h4
  rw [hs.ctv]
  refine Nat.mul_le_mul_left _ ?_
  unfold leftAt at ha
  omega

theorem marketLoop_complete {s : Store} {b : Book} (h : Rel s b) {dir : Dir} {ts : List Int}
    (hr : ∀ t ∈ ts, s.ticks.get? t ≠ none) {st : LoopSt} (hq : st.quantity < U128) {F : List Fill} {q' dust lp' : Nat}
    (hs : Sweep dir (leftAt b dir.opposite) ts st.quantity st.lastTickPrice F q' dust lp') (hout : st.totalOutput + sumAmount F < U256) :
    ∃ st', marketLoop s dir ts st = .ok st' := by
  induction ts generalizing st F with
  | nil => exact ⟨st, rfl⟩
  | cons t ts ih =>
    have hkt := hr t (by simp)
    have hrt := h.known_range hkt
    have ih := fun {st F} => ih (st := st) (F := F) (fun t ht => hr t (by simp [ht]))
    unfold marketLoop
    cases hts : s.ticks.get? t with
    | none => exact absurd hts hkt
    | some cur =>
    simp only
    have htv : cur.getValues dir.opposite = tv s t dir.opposite := (tv_of_get hts _).symm
    have htal := h.tal_eq t dir.opposite
    rw [htv]
    cases hs with
    | skip h1 h2 =>
      have hz : (tv s t dir.opposite).tal = 0 := by rw [htal, h1]; rfl
      rw [if_pos hz]
      exact ih hq h2 hout
    | dust h1 h2 =>
      have hz : ¬ (tv s t dir.opposite).tal = 0 := by
        rw [htal]; exact (Nat.mul_pos D_pos (Nat.pos_of_ne_zero h1)).ne'
      rw [if_neg hz, tickToPrice_ok hrt.1 hrt.2]
      simp only [Except.ok_bind', amountToValue_spec hrt.1 hrt.2 hq, valR]
      rw [if_pos h2]
      exact ⟨_, rfl⟩
    | @fill _ _ _ _ F q' dust lp' h1 h2 h3 h4 h5 =>
      have hz : ¬ (tv s t dir.opposite).tal = 0 := by
        rw [htal]; exact (Nat.mul_pos D_pos (Nat.pos_of_ne_zero h1)).ne'
      rw [if_neg hz, tickToPrice_ok hrt.1 hrt.2]
      simp only [Except.ok_bind', amountToValue_spec hrt.1 hrt.2 hq, valR]
      rw [if_neg h2, fromRatio_one_lt (valDown_mul_lt hrt.1 hrt.2 hq)]
      simp only [Except.ok_bind']
      rw [sumAmount_cons] at hout
      simp only at hout
      have hcl := charge_le (dir := dir) (q := st.quantity) (priceNat_pos hrt.1 hrt.2) (Nat.min_le_left (valDown dir st.quantity (priceNat t)) (leftAt b dir.opposite t))
      set out := valDown dir st.quantity (priceNat t) with hout'
      set L := leftAt b dir.opposite t with hLdef
      have hfill : (if out * D < (tv s t dir.opposite).tal then out * D else (tv s t dir.opposite).tal) = D * min out L := by
        rw [htal, Nat.mul_comm out, ← Nat.mul_min_mul_left]
        split <;> omega
      rw [hfill, checkedSub_ok (by rw [htal]; exact Nat.mul_le_mul_left _ (Nat.min_le_right _ _)),
        checkedAdd_ok (etas_fill_lt h (Nat.min_le_right _ _))]
      have e : toUintFloor (D * min out L) = min out L := floor_mul_D _
      simp only [Except.ok_bind', e, u128TryFrom_ok h4, amountToValue_spec hrt.1 hrt.2 h4, valR]
      rw [if_neg (Nat.pos_iff_ne_zero.1 h3)]
      have hcq : valUp dir.opposite (min out L) (priceNat t) < U128 := by omega
      rw [u128TryFrom_ok hcq]
      simp only [Except.ok_bind']
      rw [checkedSub_ok hcl]
      simp only [Except.ok_bind']
      rw [checkedAdd_ok (by omega)]
      simp only [Except.ok_bind']
      exact ih (st := { st with
          quantity := st.quantity - valUp dir.opposite (min out L) (priceNat t)
          orderbook := st.orderbook.setNext dir.opposite t
          totalOutput := st.totalOutput + min out L
          tickUpdates := st.tickUpdates ++ [(t, cur.setValues dir.opposite { tv s t dir.opposite with
            tal := (tv s t dir.opposite).tal - D * min out L, etas := (tv s t dir.opposite).etas + D * min out L })]
          lastTickPrice := priceNat t }) (F := F) (by simp only; omega) h5 (by simp only; omega)

theorem Sweep.det {dir : Dir} {L : Int → Nat} {ts : List Int} {q lp : Nat} {F F2 : List Fill} {q' q2 dust d2 lp' lp2 : Nat}
    (h : Sweep dir L ts q lp F q' dust lp') (h2 : Sweep dir L ts q lp F2 q2 d2 lp2) : F = F2 ∧ q' = q2 ∧ dust = d2 ∧ lp' = lp2 := by
  induction h generalizing F2 with
  | nil => cases h2; exact ⟨rfl, rfl, rfl, rfl⟩
  | skip a _ ih =>
    cases h2 with
    | skip _ h => exact ih h
    | dust b _ => exact absurd a b
    | fill b => exact absurd a b
  | dust a b =>
    cases h2 with
    | skip c h => exact absurd c a
    | dust _ _ => exact ⟨rfl, rfl, rfl, rfl⟩
    | fill _ c => exact absurd b c
  | fill a b c d _ ih =>
    cases h2 with
    | skip e h => exact absurd e a
    | dust _ e => exact absurd e b
    | fill _ _ _ _ h =>
      obtain ⟨rfl, rfl, rfl, rfl⟩ := ih h
      exact ⟨rfl, rfl, rfl, rfl⟩

/-- The last price is that of the last fill, unless nothing is left over. -/
theorem Sweep.last_price {dir : Dir} {L : Int → Nat} {ts : List Int} {q lp : Nat} {F : List Fill} {q' dust lp' : Nat}
    (h : Sweep dir L ts q lp F q' dust lp') :
    (F = [] → q' = 0 ∨ lp' = lp) ∧ (∀ f, F.getLast? = some f → q' = 0 ∨ lp' = priceNat f.tick) := by
  induction h with
  | nil => simp
  | skip _ _ ih => exact ih
  | dust => simp
  | @fill t _ q _ F _ _ _ _ _ _ _ _ ih =>
    refine ⟨by simp, fun f hf => ?_⟩
    rcases F with _ | ⟨g, F⟩
    · rw [List.getLast?_singleton] at hf
      obtain rfl := Option.some.inj hf
      exact ih.1 rfl
    · rw [List.getLast?_cons_cons] at hf
      exact ih.2 f hf

/-- Levels of a sweep. -/
def levelsOf (L : Int → Nat) (ts : List Int) : List (Int × Nat) := (ts.filter fun t => decide (L t ≠ 0)).map fun t => (t, L t)

theorem levelsOf_cons_zero {L : Int → Nat} {t : Int} {ts : List Int} (h : L t = 0) : levelsOf L (t :: ts) = levelsOf L ts := by
  simp [levelsOf, h]
theorem levelsOf_cons {L : Int → Nat} {t : Int} {ts : List Int} (h : L t ≠ 0) : levelsOf L (t :: ts) = (t, L t) :: levelsOf L ts := by
  simp [levelsOf, h]

def fillPairs (F : List Fill) : List (Int × Nat) := F.map fun f => (f.tick, f.amount)

theorem sweep_match {dir : Dir} {L : Int → Nat} {ts : List Int} {q lp : Nat} {F : List Fill} {q' dust lp' : Nat}
    (h : Sweep dir L ts q lp F q' dust lp') (hr : ∀ t ∈ ts, MIN_TICK ≤ t ∧ t ≤ MAX_TICK) :
    matchLevels dir.opposite (levelsOf L ts) q = some (fillPairs F, q', dust) := by
  induction h with
  | nil => rfl
  | skip h1 _ ih => rw [levelsOf_cons_zero h1]; exact ih (fun t ht => hr t (by simp [ht]))
  | @dust t ts q lp h1 h2 =>
    have hrt := hr t (by simp)
    rw [levelsOf_cons h1, matchLevels, Dir.opposite_opposite, ← valDown_spec hrt.1 hrt.2, if_pos h2]
    rfl
  | @fill t ts q lp F q' dust lp' h1 h2 h3 h4 _ ih =>
    have hrt := hr t (by simp)
    have ih := ih (fun t ht => hr t (by simp [ht]))
    rw [levelsOf_cons h1, matchLevels, Dir.opposite_opposite, ← valDown_spec hrt.1 hrt.2, if_neg h2]
    simp only
    rw [← charge_eq hrt.1 hrt.2, if_neg, ih]
    · rfl
    · rintro (h5 | h5)
      · exact h3.ne' h5
      · exact absurd h4 (not_lt.2 h5)

theorem match_sweep {dir : Dir} {L : Int → Nat} {ts : List Int} (hr : ∀ t ∈ ts, MIN_TICK ≤ t ∧ t ≤ MAX_TICK) {q : Nat} (lp : Nat)
    {G : List (Int × Nat)} {q' dust : Nat} (h : matchLevels dir.opposite (levelsOf L ts) q = some (G, q', dust)) :
    ∃ F lp', Sweep dir L ts q lp F q' dust lp' ∧ G = fillPairs F := by
  induction ts generalizing q G lp with
  | nil =>
    have : matchLevels dir.opposite (levelsOf L []) q = some ([], q, 0) := rfl
    rw [this] at h
    obtain ⟨rfl, rfl, rfl⟩ : G = [] ∧ q' = q ∧ dust = 0 := by
      simp only [Option.some.injEq, Prod.mk.injEq] at h
      exact ⟨h.1.symm, h.2.1.symm, h.2.2.symm⟩
    exact ⟨[], lp, .nil, rfl⟩
  | cons t ts ih =>
    have hrt := hr t (by simp)
    have ih := fun {q} lp {G} => ih (q := q) (G := G) (fun t ht => hr t (by simp [ht])) lp
    by_cases h1 : L t = 0
    · rw [levelsOf_cons_zero h1] at h
      obtain ⟨F, lp', hs, he⟩ := ih lp h
      exact ⟨F, lp', .skip h1 hs, he⟩
    · rw [levelsOf_cons h1, matchLevels, Dir.opposite_opposite, ← valDown_spec hrt.1 hrt.2] at h
      simp only at h
      split at h
      · rename_i h2
        simp only [Option.some.injEq, Prod.mk.injEq] at h
        obtain ⟨rfl, rfl, rfl⟩ := h
        exact ⟨[], _, .dust h1 h2, rfl⟩
      · rename_i h2
        rw [← charge_eq hrt.1 hrt.2] at h
        split at h
        · simp at h
        · rename_i h3
          push Not at h3
          rw [Option.map_eq_some_iff] at h
          obtain ⟨⟨G', q1, d1⟩, h4, h5⟩ := h
          simp only [Prod.mk.injEq] at h5
          obtain ⟨rfl, rfl, rfl⟩ := h5
          obtain ⟨F, lp', hs, rfl⟩ := ih (priceNat t) h4
          exact ⟨_, lp', .fill h1 h2 (Nat.pos_of_ne_zero h3.1) h3.2 hs, rfl⟩

theorem levels_eq {side : Dir} {l l' : List (Int × Nat)} (h : l.Pairwise (fun x y => Better side x.1 y.1))
    (h' : l'.Pairwise (fun x y => Better side x.1 y.1)) (hm : ∀ x, x ∈ l ↔ x ∈ l') : l = l' := by
  have nd : ∀ {l : List (Int × Nat)}, l.Pairwise (fun x y => Better side x.1 y.1) → l.Nodup := by
    intro l hl
    refine List.Pairwise.imp ?_ hl
    rintro a b hab rfl
    cases side <;> simp [Better] at hab
  refine List.Perm.eq_of_pairwise ?_ h h' ((List.perm_ext_iff_of_nodup (nd h) (nd h')).2 hm)
  intro a b _ _ hab hba
  exfalso
  cases side <;> simp only [Better] at hab hba <;> omega

/-- The levels a request sees are those of the sweep. -/
theorem levels_sweep {s : Store} {b : Book} (hr : Rel s b) {ob : Orderbook} (hob : s.orderbook = some ob) {r : SwapReq} {dir : Dir}
    {levels : List (Int × Nat)} (hl : r.Levels s dir.opposite levels) :
    levels = levelsOf (leftAt b dir.opposite) (sweepTicks s ob dir (r.target.getD (defaultBound dir))) := by
  obtain ⟨h1, h2⟩ := hl
  refine levels_eq h1 ?_ ?_
  · unfold levelsOf
    rw [List.pairwise_map]
    refine List.Pairwise.imp ?_ ((sweepTicks_sorted hr.ticksSorted).filter _)
    intro a c hac
    simp only
    rw [better_iff, Dir.opposite_opposite]
    exact hac
  · rintro ⟨t, liq⟩
    rw [h2, hr.tickLiq]
    simp only [levelsOf, List.mem_map, List.mem_filter, mem_sweepTicks, decide_eq_true_eq, Prod.mk.injEq]
    have key : leftAt b dir.opposite t ≠ 0 → (r.within dir.opposite t ↔ InReach ob dir (r.target.getD (defaultBound dir)) t) := by
      intro hleft
      have hk := leftAt_known hr hleft
      have hrt := hr.known_range hk
      obtain ⟨ob', h10, h11⟩ := hr.ptr
      obtain rfl := orderbook_inj hob h10
      unfold SwapReq.within
      cases dir
      · have h12 := h11.ask t hleft
        cases htg : r.target with
        | none => simp only [InReach, Option.getD_none, defaultBound]; simp; exact ⟨h12, hrt.2⟩
        | some x =>
          simp only [InReach, Option.getD_some, Option.some.injEq, forall_eq', Better, Dir.opposite]
          omega
      · have h12 := h11.bid t hleft
        cases htg : r.target with
        | none => simp only [InReach, Option.getD_none, defaultBound]; simp; exact ⟨hrt.1, h12⟩
        | some x =>
          simp only [InReach, Option.getD_some, Option.some.injEq, forall_eq', Better, Dir.opposite]
          omega
    constructor
    · rintro ⟨rfl, h4, h5⟩
      have h4' : leftAt b dir.opposite t ≠ 0 := h4
      exact ⟨t, ⟨⟨leftAt_known hr h4', (key h4').1 h5⟩, h4'⟩, rfl, rfl⟩
    · rintro ⟨t', ⟨⟨-, h5⟩, h4⟩, rfl, rfl⟩
      exact ⟨rfl, h4, (key h4).2 h5⟩

/-- Levels always exist. -/
theorem levels_exist {s : Store} {b : Book} (hr : Rel s b) (r : SwapReq) (side : Dir) : ∃ levels, r.Levels s side levels := by
  have hsort : (SMap.keys s.ticks).Pairwise (· < ·) := by
    unfold SMap.keys
    rw [List.pairwise_map]
    refine List.Pairwise.imp ?_ hr.ticksSorted
    intro a b hab
    simpa [Key.lt] using hab
  classical
  let ks := (SMap.keys s.ticks).filter fun t => decide (tickLiquidity s t side ≠ 0 ∧ r.within side t)
  have hks : ∀ t, t ∈ ks ↔ tickLiquidity s t side ≠ 0 ∧ r.within side t := by
    intro t
    simp only [ks, List.mem_filter, decide_eq_true_eq, SMap.mem_keys_iff, and_iff_right_iff_imp]
    rintro ⟨h, -⟩
    rw [hr.tickLiq] at h
    exact leftAt_known hr h
  have hp : ks.Pairwise (· < ·) := hsort.filter _
  cases side
  · refine ⟨(ks.reverse).map fun t => (t, tickLiquidity s t .bid), ?_, ?_⟩
    · rw [List.pairwise_map, List.pairwise_reverse]
      exact hp
    · intro t liq
      simp only [List.mem_map, List.mem_reverse, hks, Prod.mk.injEq]
      constructor
      · rintro ⟨t', ⟨h1, h2⟩, rfl, rfl⟩; exact ⟨rfl, h1, h2⟩
      · rintro ⟨rfl, h1, h2⟩; exact ⟨t, ⟨h1, h2⟩, rfl, rfl⟩
  · refine ⟨ks.map fun t => (t, tickLiquidity s t .ask), ?_, ?_⟩
    · rw [List.pairwise_map]
      exact hp
    · intro t liq
      simp only [List.mem_map, hks, Prod.mk.injEq]
      constructor
      · rintro ⟨t', ⟨h1, h2⟩, rfl, rfl⟩; exact ⟨rfl, h1, h2⟩
      · rintro ⟨rfl, h1, h2⟩; exact ⟨t, ⟨h1, h2⟩, rfl, rfl⟩

theorem mustFill_iff {r : SwapReq} {dir : Dir} (hb : MIN_TICK ≤ r.target.getD (defaultBound dir) ∧ r.target.getD (defaultBound dir) ≤ MAX_TICK) :
    r.mustFill dir.opposite ↔ ¬ Bounded dir (r.target.getD (defaultBound dir)) := by
  unfold SwapReq.mustFill Bounded
  cases dir <;> cases ht : r.target <;> simp only [Dir.opposite, ht, Option.getD_none, Option.getD_some, defaultBound] at *
  · simp
  · simp only [reduceCtorEq, Option.some.injEq, false_or]
    unfold MAX_TICK MIN_TICK at *; omega
  · simp
  · simp only [reduceCtorEq, Option.some.injEq, false_or]
    unfold MAX_TICK MIN_TICK at *; omega

theorem targetOk_iff {r : SwapReq} {ob : Orderbook} {dir : Dir} (hp : MIN_TICK ≤ ob.nextBidTick ∧ ob.nextAskTick ≤ MAX_TICK) :
    r.targetOk ob dir.opposite ↔ (MIN_TICK ≤ r.target.getD (defaultBound dir) ∧ r.target.getD (defaultBound dir) ≤ MAX_TICK) ∧
      BoundOk ob dir (r.target.getD (defaultBound dir)) := by
  unfold SwapReq.targetOk
  cases ht : r.target with
  | none =>
    simp only [Option.getD_none, reduceCtorEq, false_implies, implies_true, true_iff]
    cases dir <;> simp only [defaultBound, BoundOk] <;> unfold MIN_TICK MAX_TICK at * <;> omega
  | some x =>
    simp only [Option.getD_some, Option.some.injEq, forall_eq', validTick_iff]
    cases dir <;> simp only [Dir.opposite, BoundOk, ge_iff_le]

instance (dir : Dir) (bound : Int) : Decidable (Bounded dir bound) := by
  unfold Bounded; cases dir <;> infer_instance

/-- The market order on the store succeeds whenever the sweep does. -/
theorem internal_complete {s : Store} {b : Book} (h : Rel s b) {ob : Orderbook} (hob : s.orderbook = some ob)
    {order : MarketOrder} {bound : Int} (hq : order.quantity < U128) {F : List Fill} {q' dust lp : Nat}
    (hr : SwapRun s b ob order.dir bound order.quantity F q' dust lp) : ∃ post, runMarketOrderInternal s order bound = .ok post := by
  have hrange := sweepTicks_range h (ob := ob) (dir := order.dir) (bound := bound)
  have hle := (hr.fillsOk h hob).amount_le h
  have hlt := h.liqLt order.dir.opposite
  have hsum : sumAmount F < U256 := by
    have : sumAmount F ≤ sumAmount F * D := Nat.le_mul_of_pos_right _ D_pos
    omega
  obtain ⟨st, hst⟩ := marketLoop_complete h (dir := order.dir) (ts := sweepTicks s ob order.dir bound)
    (fun t ht => (mem_sweepTicks.1 ht).1) (st := ⟨order.quantity, ob, 0, [], D⟩) hq hr.sweep (by simpa using hsum)
  obtain ⟨F2, q2, d2, lp2, hs2, he⟩ := marketLoop_spec h hrange (by exact hq) hst
  obtain ⟨rfl, rfl, rfl, rfl⟩ := hr.sweep.det hs2
  have hin := hr.sweep.input hrange
  obtain ⟨t, ht0, ht1, hlp⟩ := hr.sweep.lp hrange ⟨0, by decide, by decide, priceNat_zero.symm⟩
  unfold runMarketOrderInternal
  rw [if_neg hr.qpos]
  simp only [hob]
  rw [if_neg (by push Not; exact ⟨hr.boundRange.2, hr.boundRange.1⟩)]
  have hbo := hr.boundOk
  have hfull := hr.full
  obtain ⟨qn, dir, owner⟩ := order
  simp only at *
  have hfin : ∀ ts, ts = sweepTicks s ob dir bound → ∃ post, (do
      let st ← marketLoop s dir ts ⟨qn, ob, 0, [], D⟩
      let remaining ← amountToValue dir st.quantity st.lastTickPrice .down
      if remaining = 0 ∨ Bounded dir bound then
        .ok ⟨⟨ob.oppositeDenom dir, st.totalOutput⟩, st.tickUpdates, st.orderbook, st.quantity⟩
      else .error .insufficientLiquidity : Except Err PostMarketOrder) = .ok post := by
    rintro ts rfl
    rw [hst]
    simp only [Except.ok_bind']
    rw [he]
    simp only
    rw [hlp, amountToValue_spec ht0 ht1 (by omega)]
    simp only [Except.ok_bind', valR]
    rw [← hlp, if_pos hfull]
    exact ⟨_, rfl⟩
  cases dir
  · simp only [BoundOk] at hbo
    simp only [ge_iff_le, if_pos hbo, Except.ok_bind', decide_eq_true_eq]
    exact hfin _ rfl
  · simp only [BoundOk] at hbo
    simp only [gt_iff_lt, if_pos hbo, Except.ok_bind', decide_eq_true_eq]
    exact hfin _ rfl

end OB
