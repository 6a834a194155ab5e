import Verif.Proofs.Swap
/- run_market_order_internal and run_market_order on a related store -/
namespace OB

theorem priceNat_zero : priceNat 0 = D := by
  unfold priceNat D; norm_num

theorem Sweep.lp {dir : Dir} {L : Int → Nat} {ts : List Int} {q lp : Nat} {F : List Fill} {q' dust lp' : Nat}
    (h : Sweep dir L ts q lp F q' dust lp') (hr : ∀ t ∈ ts, MIN_TICK ≤ t ∧ t ≤ MAX_TICK)
    (hlp : ∃ t, MIN_TICK ≤ t ∧ t ≤ MAX_TICK ∧ lp = priceNat t) : ∃ t, MIN_TICK ≤ t ∧ t ≤ MAX_TICK ∧ lp' = priceNat t := by
  induction h with
  | nil => exact hlp
  | skip _ _ ih => exact ih (fun t ht => hr t (by simp [ht])) hlp
  | @dust t => exact ⟨t, (hr t (by simp)).1, (hr t (by simp)).2, rfl⟩
  | @fill t _ _ _ _ _ _ _ _ _ _ _ _ ih =>
    exact ih (fun t ht => hr t (by simp [ht])) ⟨t, (hr t (by simp)).1, (hr t (by simp)).2, rfl⟩

/-- Ticks that a swap may touch. -/
def InReach (ob : Orderbook) (dir : Dir) (bound t : Int) : Prop :=
  match dir with
  | .ask => bound ≤ t ∧ t ≤ ob.nextBidTick
  | .bid => ob.nextAskTick ≤ t ∧ t ≤ bound

/-- The bound of a swap is not on the wrong side of the pointer. -/
def BoundOk (ob : Orderbook) (dir : Dir) (bound : Int) : Prop :=
  match dir with
  | .ask => bound ≤ ob.nextBidTick
  | .bid => ob.nextAskTick ≤ bound

def sweepTicks (s : Store) (ob : Orderbook) (dir : Dir) (bound : Int) : List Int :=
  match dir with
  | .ask => tickKeys s bound ob.nextBidTick true
  | .bid => tickKeys s ob.nextAskTick bound false

theorem mem_sweepTicks {s : Store} {ob : Orderbook} {dir : Dir} {bound t : Int} :
    t ∈ sweepTicks s ob dir bound ↔ s.ticks.get? t ≠ none ∧ InReach ob dir bound t := by
  cases dir <;> simp [sweepTicks, tickKeys, InReach, SMap.mem_keys_iff]

theorem sweepTicks_sorted {s : Store} (hs : SMap.Sorted s.ticks) {ob : Orderbook} {dir : Dir} {bound : Int} :
    (sweepTicks s ob dir bound).Pairwise (WorseThan dir) := by
  have hk : (SMap.keys s.ticks).Pairwise (· < ·) := by
    unfold SMap.keys
    rw [List.pairwise_map]
    refine List.Pairwise.imp ?_ hs
    intro a b hab
    simpa [Key.lt] using hab
  cases dir
  · simp only [sweepTicks, tickKeys, WorseThan]
    exact hk.filter _
  · simp only [sweepTicks, tickKeys, WorseThan, if_true]
    rw [List.pairwise_reverse]
    exact hk.filter _

theorem Sweep.nodup {dir : Dir} {L : Int → Nat} {ts : List Int} {q lp : Nat} {F : List Fill} {q' dust lp' : Nat}
    (h : Sweep dir L ts q lp F q' dust lp') (hs : ts.Pairwise (WorseThan dir)) : (F.map Fill.tick).Nodup := by
  refine (List.Pairwise.imp ?_ hs).sublist h.sublist
  intro a b hab
  cases dir <;> simp only [WorseThan] at hab <;> omega

/-- A bounded swap may stop early. -/
def Bounded (dir : Dir) (bound : Int) : Prop :=
  match dir with
  | .ask => MIN_TICK < bound
  | .bid => bound < MAX_TICK

/-- A market order of `q` up to `bound` fills `F`; `q'` input is left over. -/
structure SwapRun (s : Store) (b : Book) (ob : Orderbook) (dir : Dir) (bound : Int) (q : Nat) (F : List Fill) (q' dust lp : Nat) :
    Prop where
  qpos : q ≠ 0
  boundRange : MIN_TICK ≤ bound ∧ bound ≤ MAX_TICK
  boundOk : BoundOk ob dir bound
  sweep : Sweep dir (leftAt b dir.opposite) (sweepTicks s ob dir bound) q D F q' dust lp
  full : valDown dir q' lp = 0 ∨ Bounded dir bound

theorem Rel.known_range {s : Store} {b : Book} (h : Rel s b) {t : Int} (ht : s.ticks.get? t ≠ none) :
    MIN_TICK ≤ t ∧ t ≤ MAX_TICK := by
  rcases (h.known t).1 ht with h1 | h1
  · exact h.range _ _ h1
  · exact h.range _ _ h1

theorem sweepTicks_range {s : Store} {b : Book} (h : Rel s b) {ob : Orderbook} {dir : Dir} {bound : Int} :
    ∀ t ∈ sweepTicks s ob dir bound, MIN_TICK ≤ t ∧ t ≤ MAX_TICK :=
  fun _ ht => h.known_range (mem_sweepTicks.1 ht).1

theorem leftAt_known {s : Store} {b : Book} (h : Rel s b) {t : Int} {d : Dir} (hl : leftAt b d t ≠ 0) :
    s.ticks.get? t ≠ none := by
  rw [h.known]
  have : b t d ≠ [] := by
    intro he; apply hl; simp [leftAt, he]
  cases d
  · exact Or.inl this
  · exact Or.inr this

theorem runMarketOrderInternal_spec {s : Store} {b : Book} (h : Rel s b) {ob : Orderbook} (hob : s.orderbook = some ob)
    {order : MarketOrder} {bound : Int} (hq : order.quantity < U128) {post : PostMarketOrder}
    (hok : runMarketOrderInternal s order bound = .ok post) :
    ∃ F q' dust lp, SwapRun s b ob order.dir bound order.quantity F q' dust lp ∧
      post = ⟨⟨ob.oppositeDenom order.dir, sumAmount F⟩, F.map (fun f => (f.tick, filledTick s order.dir.opposite f)),
        ptrAfter ob order.dir.opposite F, q'⟩ := by
  unfold runMarketOrderInternal at hok
  split at hok
  · simp at hok
  rename_i hq0
  simp only [hob] at hok
  split at hok
  · simp at hok
  rename_i hbnd
  push Not at hbnd
  rw [Except.bind_eq_ok'] at hok
  obtain ⟨ts, hts, hok⟩ := hok
  have hts' : BoundOk ob order.dir bound ∧ ts = sweepTicks s ob order.dir bound := by
    revert hts
    cases order.dir <;> simp only [BoundOk, sweepTicks] <;> split
    · intro he; exact ⟨‹_›, by simpa using he.symm⟩
    · simp
    · intro he; exact ⟨‹_›, by simpa using he.symm⟩
    · simp
  obtain ⟨hbo, rfl⟩ := hts'
  rw [Except.bind_eq_ok'] at hok
  obtain ⟨st, hst, hok⟩ := hok
  obtain ⟨F, q', dust, lp, hs, he⟩ := marketLoop_spec h (sweepTicks_range h) (by exact hq) hst
  simp only at hs he
  have hr := sweepTicks_range (ob := ob) (dir := order.dir) (bound := bound) h
  have hin := hs.input hr
  obtain ⟨t, ht0, ht1, rfl⟩ := hs.lp hr ⟨0, by decide, by decide, priceNat_zero.symm⟩
  rw [he] at hok
  simp only at hok
  rw [amountToValue_spec ht0 ht1 (by omega)] at hok
  simp only [Except.ok_bind', valR] at hok
  refine ⟨F, q', dust, _, ⟨hq0, ⟨hbnd.2, hbnd.1⟩, hbo, hs, ?_⟩, ?_⟩
  · revert hok
    cases order.dir <;> simp only [Bounded, decide_eq_true_eq] <;> split <;> simp_all
  · revert hok
    cases order.dir <;> simp only [decide_eq_true_eq] <;> split <;> simp <;> exact fun hh => hh.symm

end OB
