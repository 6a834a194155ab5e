import Verif.Proofs.SwapRel
/- Filling queues preserves the relation. -/
namespace OB

/-- An entry without its filled amount. -/
def Entry.strip (x : Entry) : Entry := { x with filled := 0 }

theorem strip_fillQ (a : Nat) (q : List Entry) : (fillQ a q).map Entry.strip = q.map Entry.strip :=
  fillQ_map a q _ (fun _ _ => rfl)

/-- The two books differ at most in filled amounts. -/
def StripEq (b b' : Book) : Prop := ∀ t d, (b' t d).map Entry.strip = (b t d).map Entry.strip

theorem strip_split {l l' p q : List Entry} {x : Entry} (h : l'.map Entry.strip = l.map Entry.strip) (hs : l = p ++ x :: q) :
    ∃ p' x' q', l' = p' ++ x' :: q' ∧ p'.map Entry.strip = p.map Entry.strip ∧ x'.strip = x.strip ∧
      q'.map Entry.strip = q.map Entry.strip := by
  rw [hs, List.map_append, List.map_cons, List.map_eq_append_iff] at h
  obtain ⟨p', r, h1, h2, h3⟩ := h
  rw [List.map_eq_cons_iff] at h3
  obtain ⟨x', q', h4, h5, h6⟩ := h3
  exact ⟨p', x', q', by rw [h1, h4], h2, h5, h6⟩

theorem sumBy_strip {l l' : List Entry} (h : l'.map Entry.strip = l.map Entry.strip) (g : Entry → Nat)
    (hg : ∀ x : Entry, g x.strip = g x) : sumBy g l' = sumBy g l := by
  have h1 : ∀ l : List Entry, sumBy g l = ((l.map Entry.strip).map g).sum := by
    intro l
    unfold sumBy
    rw [List.map_map]
    congr 1
    exact List.map_congr_left (fun x _ => (hg x).symm)
  rw [h1, h1, h]

theorem strip_fields {x x' : Entry} (h : x'.strip = x.strip) : SameOrder x x' ∧ x'.claimed = x.claimed ∧ x'.cancelled = x.cancelled := by
  have h1 := congrArg Entry.id h
  have h2 := congrArg Entry.owner h
  have h3 := congrArg Entry.bounty h
  have h4 := congrArg Entry.placedAt h
  have h5 := congrArg Entry.placed h
  have h6 := congrArg Entry.claimed h
  have h7 := congrArg Entry.cancelled h
  exact ⟨⟨h1, h2, h3, h4, h5⟩, h6, h7⟩

theorem strip_orderOf {x x' : Entry} (h : x'.strip = x.strip) (t : Int) (d : Dir) (P : Nat) :
    orderOf t d P x' = orderOf t d P x := by
  obtain ⟨⟨h1, h2, h3, h4, h5⟩, h6, h7⟩ := strip_fields h
  unfold orderOf
  rw [h1, h2, h3, h4, h5, h6]

theorem OrdersOk.strip {s s' : Store} {b b' : Book} (h : OrdersOk s b) (he : StripEq b b') (ho : s'.orders = s.orders) :
    OrdersOk s' b' := by
  intro t id o
  rw [ho, h t id o]
  have aux : ∀ {b b' : Book}, StripEq b b' → (∃ dir p x q, b t dir = p ++ x :: q ∧ x.Live ∧ x.id = id ∧
      o = orderOf t dir (sumBy Entry.placed p) x) → ∃ dir p x q, b' t dir = p ++ x :: q ∧ x.Live ∧ x.id = id ∧
      o = orderOf t dir (sumBy Entry.placed p) x := by
    rintro b b' he ⟨dir, p, x, q, h1, h2, h3, h4⟩
    obtain ⟨p', x', q', e1, e2, e3, e4⟩ := strip_split (he t dir) h1
    obtain ⟨f1, f2, f3⟩ := strip_fields e3
    refine ⟨dir, p', x', q', e1, ?_, by rw [f1.id, h3], ?_⟩
    · unfold Entry.Live at *; rw [f2, f3, f1.placed]; exact h2
    · rw [strip_orderOf e3, sumBy_strip e2 Entry.placed (fun _ => rfl), h4]
  exact ⟨aux he, aux (fun t d => (he t d).symm)⟩

theorem StripEq.mem {b b' : Book} (he : StripEq b b') {t : Int} {d : Dir} {y : Entry} (hy : y ∈ b' t d) :
    ∃ x ∈ b t d, y.strip = x.strip := by
  have : y.strip ∈ (b t d).map Entry.strip := by rw [← he t d]; exact List.mem_map_of_mem hy
  obtain ⟨x, hx, e⟩ := List.mem_map.1 this
  exact ⟨x, hx, e.symm⟩

theorem StripEq.nil {b b' : Book} (he : StripEq b b') (t : Int) (d : Dir) : b' t d = [] ↔ b t d = [] := by
  have := congrArg List.length (he t d)
  simp only [List.length_map] at this
  rw [← List.length_eq_zero_iff, ← List.length_eq_zero_iff, this]

theorem IdsOk.strip {s s' : Store} {b b' : Book} (h : IdsOk s b) (he : StripEq b b') (ho : s'.orderId = s.orderId) :
    IdsOk s' b' := by
  refine ⟨?_, ?_, ?_⟩
  · intro t d
    have h1 := h.inc t d
    have h2 : ∀ l : List Entry, l.Pairwise (fun x y => x.id < y.id) ↔ (l.map Entry.strip).Pairwise (fun x y => x.id < y.id) := by
      intro l; rw [List.pairwise_map]; rfl
    rw [h2, he t d, ← h2]; exact h1
  · intro t d y hy
    obtain ⟨x, hx, e⟩ := he.mem hy
    rw [(strip_fields e).1.id, ho]; exact h.lt t d x hx
  · intro t d t' d' y y' hy hy' hid
    obtain ⟨x, hx, e⟩ := he.mem hy
    obtain ⟨x', hx', e'⟩ := he.mem hy'
    refine h.disj t d t' d' x x' hx hx' ?_
    rw [← (strip_fields e).1.id, ← (strip_fields e').1.id, hid]

/-- Filling one side. -/
theorem SideRel.fill {v : TickValues} {q : List Entry} {r : Nat} (h : SideRel v q r) {a : Nat} (ha : a ≤ sumBy Entry.left q) :
    SideRel { v with tal := v.tal - D * a, etas := v.etas + D * a } (fillQ a q) r := by
  have hS := fillQ_sumFilled ha
  have hcg : (fillQ a q).map (fun x => (x.cap, x.gap)) = q.map (fun x => (x.cap, x.gap)) :=
    fillQ_map a q _ (fun _ _ => rfl)
  refine ⟨?_, ?_, h.crc, ?_, ?_, fillQ_ok h.ok, ?_, ?_, ?_, h.bound⟩
  · rw [fillQ_sum a q Entry.placed (fun _ _ => rfl)]; exact h.ctv
  · rw [hS]; simp only; rw [h.etas, ← Nat.mul_add]; congr 1; omega
  · rw [fillQ_sumLeft ha]; simp only; rw [h.tal, ← Nat.mul_sub]
  · rw [hS]; exact fillQ_fifo h.ok h.fifo
  · rw [hS, (rz_congr hcg).2.2]; exact h.done.mono (Nat.le_add_right _ _)
  · exact h.sync_le.trans (Nat.le_add_right _ _)
  · intro he
    simp only at he
    have h1 := h.sync_le
    by_cases ha0 : a = 0
    · subst ha0
      simp only [Nat.mul_zero, Nat.add_zero] at he
      rw [fillQ_zero]; exact h.synced he
    · exfalso
      have : 0 < D * a := Nat.mul_pos D_pos (by omega)
      omega

/-! ### The pointer -/

theorem setNext_setNext (ob : Orderbook) (d : Dir) (t t' : Int) : (ob.setNext d t).setNext d t' = ob.setNext d t' := by
  cases d <;> rfl

theorem ptrAfter_eq (ob : Orderbook) (d : Dir) (F : List Fill) :
    ptrAfter ob d F = match F.getLast? with | none => ob | some f => ob.setNext d f.tick := by
  induction F using List.reverseRecOn with
  | nil => rfl
  | append_singleton F f ih =>
    unfold ptrAfter at ih ⊢
    rw [List.foldl_append, ih]
    simp only [List.foldl_cons, List.foldl_nil, List.getLast?_append, List.getLast?_singleton, Option.some_or]
    cases F.getLast? with
    | none => rfl
    | some g => exact setNext_setNext ..

/-- What was taken from each side by the fills `F` on side `d`. -/
def takenBy (F : List Fill) (d : Dir) (t : Int) (d' : Dir) : Nat := if d' = d then fillAt F t else 0

/-- The queues after the fills. -/
def filledBook (b : Book) (F : List Fill) (d : Dir) : Book := fun t d' => fillQ (takenBy F d t d') (b t d')

/-- Conditions on fills of side `d`. -/
structure FillsOk (b : Book) (F : List Fill) (d : Dir) : Prop where
  nodup : (F.map Fill.tick).Nodup
  le : ∀ f ∈ F, f.amount ≤ leftAt b d f.tick
  pos : ∀ f ∈ F, 0 < f.amount
  best : ∀ f ∈ F, ∀ t, WorseThan d.opposite t f.tick → leftAt b d t ≠ 0 → fillAt F t = leftAt b d t

theorem FillsOk.fillAt_le {b : Book} {F : List Fill} {d : Dir} (h : FillsOk b F d) (t : Int) : fillAt F t ≤ leftAt b d t := by
  by_cases ht : t ∈ F.map Fill.tick
  · obtain ⟨f, hf, rfl⟩ := List.mem_map.1 ht
    rw [fillAt_mem h.nodup hf]; exact h.le f hf
  · rw [fillAt_notin ht]; exact Nat.zero_le _

theorem FillsOk.taken_le {b : Book} {F : List Fill} {d : Dir} (h : FillsOk b F d) (t : Int) (d' : Dir) :
    takenBy F d t d' ≤ sumBy Entry.left (b t d') := by
  unfold takenBy
  split
  · subst_vars; exact h.fillAt_le t
  · exact Nat.zero_le _

theorem swapped_tv_taken {s : Store} {d : Dir} {F : List Fill} {ob : Orderbook} (hn : (F.map Fill.tick).Nodup) (t : Int) (d' : Dir) :
    tv (swappedStore s d F ob) t d' =
      { tv s t d' with tal := (tv s t d').tal - D * takenBy F d t d', etas := (tv s t d').etas + D * takenBy F d t d' } := by
  unfold takenBy
  split
  · subst_vars; exact swapped_tv hn t
  · rw [swapped_tv_ne hn t ‹_›]; simp

theorem sumAmount_D (F : List Fill) : D * sumAmount F = (F.map fun f => D * f.amount).sum := by
  induction F with
  | nil => rfl
  | cons f F ih =>
    simp only [sumAmount, List.map_cons, List.sum_cons] at ih ⊢
    rw [Nat.mul_add, ih]

theorem tal_filledTick (s : Store) (d : Dir) (f : Fill) :
    ((filledTick s d f).getValues d).tal = (tv s f.tick d).tal - D * f.amount := by
  unfold filledTick
  rw [getValues_setValues_self]

theorem FillsOk.sumTal {s : Store} {b : Book} (h : Rel s b) {F : List Fill} {d : Dir} (hF : FillsOk b F d) (ob : Orderbook) :
    sumTal (swappedStore s d F ob) d + D * sumAmount F = sumTal s d := by
  have h1 := insertAll_total h.ticksSorted (fun ts => (ts.getValues d).tal)
    (l := F.map fun f => (f.tick, filledTick s d f)) (by rw [map_fst_fills]; exact hF.nodup)
  rw [List.map_map, List.map_map] at h1
  have h2 : ∀ l : List Fill, (∀ f ∈ l, f ∈ F) →
      (l.map ((fun x : Int × TickState => ((s.ticks.get? x.1).map fun ts => (ts.getValues d).tal).getD 0) ∘
        fun f => (f.tick, filledTick s d f))).sum =
      (l.map ((fun x : Int × TickState => (x.2.getValues d).tal) ∘ fun f => (f.tick, filledTick s d f))).sum +
        (l.map fun f => D * f.amount).sum := by
    intro l hl
    induction l with
    | nil => rfl
    | cons f l ih =>
      have ih := ih (fun g hg => hl g (by simp [hg]))
      have hf := hl f (by simp)
      have hfa := hF.le f hf
      have e : ((s.ticks.get? f.tick).map fun ts => (ts.getValues d).tal).getD 0 = (tv s f.tick d).tal := by
        unfold tv
        cases s.ticks.get? f.tick with
        | none => cases d <;> rfl
        | some x => rfl
      have e2 := tal_filledTick s d f
      have e3 := h.tal_eq f.tick d
      have e4 : D * f.amount ≤ D * leftAt b d f.tick := Nat.mul_le_mul_left _ hfa
      simp only [List.map_cons, List.sum_cons, Function.comp_apply] at ih ⊢
      rw [e, e2]
      omega
  have h3 := h2 F (fun _ hf => hf)
  rw [sumAmount_D]
  unfold OB.sumTal
  show SMap.total _ (insertAll s.ticks (F.map fun f => (f.tick, filledTick s d f))) + _ = _
  omega

theorem FillsOk.sumTal_ne {s : Store} {b : Book} (h : Rel s b) {F : List Fill} {d d' : Dir} (hF : FillsOk b F d) (ob : Orderbook)
    (hd : d' ≠ d) : OB.sumTal (swappedStore s d F ob) d' = OB.sumTal s d' := by
  have h1 := insertAll_total h.ticksSorted (fun ts => (ts.getValues d').tal)
    (l := F.map fun f => (f.tick, filledTick s d f)) (by rw [map_fst_fills]; exact hF.nodup)
  rw [List.map_map, List.map_map] at h1
  have h2 : (F.map ((fun x : Int × TickState => ((s.ticks.get? x.1).map fun ts => (ts.getValues d').tal).getD 0) ∘
        fun f => (f.tick, filledTick s d f))) =
      (F.map ((fun x : Int × TickState => (x.2.getValues d').tal) ∘ fun f => (f.tick, filledTick s d f))) := by
    refine List.map_congr_left (fun f hf => ?_)
    simp only [Function.comp_apply]
    unfold filledTick
    rw [getValues_setValues_ne _ _ hd]
    cases s.ticks.get? f.tick with
    | none => cases d' <;> rfl
    | some x => rfl
  rw [h2] at h1
  unfold OB.sumTal
  show SMap.total _ (insertAll s.ticks (F.map fun f => (f.tick, filledTick s d f))) = _
  omega

theorem FillsOk.amount_le {s : Store} {b : Book} (h : Rel s b) {F : List Fill} {d : Dir} (hF : FillsOk b F d) :
    sumAmount F * D ≤ getDirectionalLiquidity s d := by
  have h1 := hF.sumTal h ⟨"", "", 0, 0, 0⟩
  have h2 := h.liq d
  rw [Nat.mul_comm]
  omega

theorem swapped_liq {s : Store} {d d' : Dir} {F : List Fill} {ob : Orderbook} :
    getDirectionalLiquidity (swappedStore s d F ob) d' =
      if d' = d then getDirectionalLiquidity s d - sumAmount F * D else getDirectionalLiquidity s d' := by
  split
  · exact getLiq_of_dirLiq (swappedStore_dirLiq ..) ‹_›
  · unfold getDirectionalLiquidity
    rw [swappedStore_dirLiq]
    simp only [if_neg ‹_›]

theorem setNext_denoms (ob : Orderbook) (d : Dir) (t : Int) : (ob.setNext d t).quoteDenom = ob.quoteDenom ∧
    (ob.setNext d t).baseDenom = ob.baseDenom := by cases d <;> exact ⟨rfl, rfl⟩

theorem filled_left {b : Book} {F : List Fill} {d : Dir} (h : FillsOk b F d) (t : Int) (d' : Dir) :
    sumBy Entry.left (filledBook b F d t d') = sumBy Entry.left (b t d') - takenBy F d t d' :=
  fillQ_sumLeft (h.taken_le t d')

theorem PtrOk.fill {ob : Orderbook} {b : Book} (h : PtrOk ob b) {F : List Fill} {d : Dir} (hF : FillsOk b F d)
    (hr : ∀ f ∈ F, MIN_TICK ≤ f.tick ∧ f.tick ≤ MAX_TICK) : PtrOk (ptrAfter ob d F) (filledBook b F d) := by
  have hle : ∀ t d', sumBy Entry.left (filledBook b F d t d') ≠ 0 → sumBy Entry.left (b t d') ≠ 0 := by
    intro t d' hne h0
    rw [filled_left hF] at hne
    omega
  rw [ptrAfter_eq]
  cases hl : F.getLast? with
  | none =>
    exact ⟨h.denoms, fun t ht => h.bid t (hle t _ ht), fun t ht => h.ask t (hle t _ ht), h.bidLo, h.bidHi, h.askLo, h.askHi⟩
  | some f =>
    have hf : f ∈ F := List.mem_of_getLast? hl
    have hrf := hr f hf
    have hempty : ∀ t, WorseThan d.opposite t f.tick → sumBy Entry.left (filledBook b F d t d) = 0 := by
      intro t hw
      rw [filled_left hF]
      by_cases h0 : leftAt b d t = 0
      · unfold leftAt at h0; omega
      · have := hF.best f hf t hw h0
        unfold takenBy
        rw [if_pos rfl, this]
        exact Nat.sub_self _
    cases d
    · refine ⟨h.denoms, ?_, fun t ht => h.ask t (hle t _ ht), hrf.1, hrf.2, h.askLo, h.askHi⟩
      intro t ht
      by_contra hgt
      exact ht (hempty t (by simp only [Dir.opposite, WorseThan]; simp only [Orderbook.setNext] at hgt; omega))
    · refine ⟨h.denoms, fun t ht => h.bid t (hle t _ ht), ?_, h.bidLo, h.bidHi, hrf.1, hrf.2⟩
      intro t ht
      by_contra hgt
      exact ht (hempty t (by simp only [Dir.opposite, WorseThan]; simp only [Orderbook.setNext] at hgt; omega))

/-- The relation after a swap. -/
theorem Rel.fill {s : Store} {b : Book} (h : Rel s b) {ob : Orderbook} (hob : s.orderbook = some ob) {F : List Fill} {d : Dir}
    (hF : FillsOk b F d) : Rel (swappedStore s d F ob) (filledBook b F d) := by
  have he : StripEq b (filledBook b F d) := fun t d' => strip_fillQ _ _
  have hknown : ∀ f ∈ F, s.ticks.get? f.tick ≠ none := by
    intro f hf
    have h1 := hF.le f hf; have h2 := hF.pos f hf
    exact leftAt_known h (d := d) (by omega)
  refine ⟨?_, h.fresh, ?_, insertAll_sorted h.ticksSorted _, h.ordersSorted, h.orders.strip he rfl, h.ids.strip he rfl, ?_, ?_,
    ?_, ?_, ⟨h.conf.fee, h.conf.recipient, h.conf.moderator⟩, ?_⟩
  · intro t d'
    obtain ⟨r, rt, a1, a2, a3⟩ := h.sides t d'
    refine ⟨r, rt, ?_, a2, ?_⟩
    · rw [swapped_tv_taken hF.nodup]
      exact a1.fill (hF.taken_le t d')
    · rw [a3]; congr 1
      exact leavesOf_congr (fillQ_map _ _ _ (fun _ _ => rfl)).symm
  · intro t
    have e1 : ∀ d', filledBook b F d t d' ≠ [] ↔ b t d' ≠ [] := fun d' => not_congr (he.nil t d')
    rw [e1, e1, ← h.known]
    by_cases ht : t ∈ F.map Fill.tick
    · obtain ⟨f, hf, rfl, hg⟩ := (swapped_get (s := s) (d := d) (ob := ob) hF.nodup t).1 ht
      rw [hg]
      simp [hknown f hf]
    · rw [(swapped_get (s := s) (d := d) (ob := ob) hF.nodup t).2 ht]
  · intro t d' hne
    exact h.range t d' (fun h0 => hne ((he.nil t d').2 h0))
  · intro t d' y hy
    obtain ⟨x, hx, e⟩ := he.mem hy
    rw [(strip_fields e).1.bounty]; exact h.bounty t d' x hx
  · intro d'
    rw [swapped_liq]
    split
    · subst_vars
      have h1 := hF.sumTal h ob
      have h2 := h.liq d'
      rw [Nat.mul_comm]
      omega
    · rw [hF.sumTal_ne h ob ‹_›]; exact h.liq d'
  · intro d'
    rw [swapped_liq]
    have h1 := h.liqLt d; have h2 := h.liqLt d'
    split <;> omega
  · obtain ⟨ob', h1, h2⟩ := h.ptr
    have : ob' = ob := by rw [hob] at h1; exact (Option.some.inj h1).symm
    subst this
    exact ⟨_, rfl, h2.fill hF (fun f hf => h.known_range (hknown f hf))⟩

/-- The bookkeeper sees exactly the fills. -/
theorem taken_observed {s : Store} {b : Book} (h : Rel s b) {F : List Fill} {d : Dir} (hF : FillsOk b F d) (ob : Orderbook) (t : Int) (d' : Dir) :
    tickLiquidity s t d' - tickLiquidity (swappedStore s d F ob) t d' = takenBy F d t d' := by
  have e : ∀ s, tickLiquidity s t d' = toUintFloor (tv s t d').tal := fun _ => rfl
  rw [e, e, swapped_tv_taken hF.nodup]
  have h1 := h.tal_eq t d'
  have h2 := hF.taken_le t d'
  simp only
  rw [h1, ← Nat.mul_sub, Nat.mul_comm D, Nat.mul_comm D, toUintFloor_mul, toUintFloor_mul]
  unfold leftAt
  omega

end OB
