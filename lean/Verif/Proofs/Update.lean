import Verif.Proofs.Place
/- Replacing one entry of one queue. -/
namespace OB

theorem split3 {α : Type} {p q p1 q1 : List α} {x y : α} :
    p ++ x :: q = p1 ++ y :: q1 ↔ (p1 = p ∧ y = x ∧ q1 = q) ∨ (∃ m, p = p1 ++ y :: m ∧ q1 = m ++ x :: q) ∨
      (∃ m, p1 = p ++ x :: m ∧ q = m ++ y :: q1) := by
  constructor
  · intro h
    rw [List.append_eq_append_iff] at h
    rcases h with ⟨m, h1, h2⟩ | ⟨m, h1, h2⟩
    · cases m with
      | nil => simp at h1 h2; exact Or.inl ⟨h1, h2.1.symm, h2.2.symm⟩
      | cons z m =>
        simp at h2
        obtain ⟨rfl, h2⟩ := h2
        exact Or.inr (Or.inr ⟨m, h1, h2⟩)
    · cases m with
      | nil => simp at h1 h2; exact Or.inl ⟨h1.symm, h2.1, h2.2⟩
      | cons z m =>
        simp at h2
        obtain ⟨rfl, h2⟩ := h2
        exact Or.inr (Or.inl ⟨m, h1, h2⟩)
  · rintro (⟨rfl, rfl, rfl⟩ | ⟨m, rfl, rfl⟩ | ⟨m, rfl, rfl⟩) <;> simp

theorem updQ_split {p q : List Entry} {x : Entry} {g : Entry → Entry} (h : (p ++ x :: q).Pairwise (fun x y => x.id < y.id)) :
    updQ x.id g (p ++ x :: q) = p ++ g x :: q := by
  rw [List.pairwise_append, List.pairwise_cons] at h
  obtain ⟨-, ⟨h1, -⟩, h2⟩ := h
  unfold updQ
  rw [List.map_append, List.map_cons, if_pos rfl]
  congr 1
  · conv_rhs => rw [← List.map_id p]
    refine List.map_congr_left (fun y hy => ?_)
    have := h2 y hy x (by simp)
    rw [if_neg (by omega)]; rfl
  · congr 1
    conv_rhs => rw [← List.map_id q]
    refine List.map_congr_left (fun y hy => ?_)
    have := h1 y hy
    rw [if_neg (by omega)]; rfl

/-- `x'` is the same order as `x`, later. -/
structure SameOrder (x x' : Entry) : Prop where
  id : x'.id = x.id
  owner : x'.owner = x.owner
  bounty : x'.bounty = x.bounty
  placedAt : x'.placedAt = x.placedAt
  placed : x'.placed = x.placed

theorem entry_unique {l p q p1 q1 : List Entry} {x y : Entry} (hinc : l.Pairwise (fun x y => x.id < y.id))
    (h : l = p ++ x :: q) (h1 : l = p1 ++ y :: q1) (hid : y.id = x.id) : p1 = p ∧ y = x ∧ q1 = q := by
  have h2 := h1
  rw [h, split3] at h2
  rw [h, List.pairwise_append, List.pairwise_cons] at hinc
  obtain ⟨-, ⟨hi1, -⟩, hi2⟩ := hinc
  rcases h2 with h2 | ⟨m, h2, -⟩ | ⟨m, -, h2⟩
  · exact h2
  · have := hi2 y (by rw [h2]; simp) x (by simp); omega
  · have := hi1 y (by rw [h2]; simp); omega

theorem ordersOk_update {s : Store} {b : Book} (h : OrdersOk s b) (hi : IdsOk s b) {tick : Int} {dir : Dir} {p q : List Entry}
    {x x' : Entry} (hsp : b tick dir = p ++ x :: q) (hsame : SameOrder x x') {s' : Store}
    (horders : s'.orders = if x'.Live then s.orders.insert (tick, x.id) (orderOf tick dir (sumBy Entry.placed p) x')
      else s.orders.erase (tick, x.id)) :
    OrdersOk s' (b.set tick dir (p ++ x' :: q)) := by
  intro t id o
  have hxmem : x ∈ b tick dir := by rw [hsp]; simp
  have hbself := Book.set_self b tick dir (p ++ x' :: q)
  have hbne : ∀ t d, (t ≠ tick ∨ d ≠ dir) → b.set tick dir (p ++ x' :: q) t d = b t d := fun t d hh => Book.set_ne _ _ hh
  have hget : s'.orders.get? (t, id) = if (t, id) = (tick, x.id) then
      (if x'.Live then some (orderOf tick dir (sumBy Entry.placed p) x') else none) else s.orders.get? (t, id) := by
    rw [horders]
    split
    · rw [SMap.get?_insert]
    · rw [SMap.get?_erase]
  have hinc := hi.inc tick dir
  by_cases hk : (t, id) = (tick, x.id)
  · rw [hget, if_pos hk]
    simp only [Prod.mk.injEq] at hk
    obtain ⟨rfl, rfl⟩ := hk
    constructor
    · intro ho
      split at ho
      · simp only [Option.some.injEq] at ho
        exact ⟨dir, p, x', q, hbself, ‹_›, hsame.id, ho.symm⟩
      · simp at ho
    · rintro ⟨d, p1, y, q1, h1, h2, h3, h4⟩
      have hd : d = dir := by
        by_contra hd
        rw [hbne t d (Or.inr hd)] at h1
        have hy : y ∈ b t d := by rw [h1]; simp
        exact hd (hi.disj _ _ _ _ _ _ hy hxmem h3).2
      subst hd
      rw [hbself, split3] at h1
      rw [hsp, List.pairwise_append, List.pairwise_cons] at hinc
      obtain ⟨-, ⟨hi1, -⟩, hi2⟩ := hinc
      rcases h1 with ⟨rfl, rfl, rfl⟩ | ⟨m, h5, -⟩ | ⟨m, -, h5⟩
      · rw [if_pos h2, h4]
      · have := hi2 y (by rw [h5]; simp) x (by simp); omega
      · have := hi1 y (by rw [h5]; simp); omega
  · rw [hget, if_neg hk, h t id o]
    have hplaced : sumBy Entry.placed [x'] = sumBy Entry.placed [x] := by simp [hsame.placed]
    constructor
    · rintro ⟨d, p1, y, q1, h1, h2, h3, h4⟩
      by_cases htd : t ≠ tick ∨ d ≠ dir
      · exact ⟨d, p1, y, q1, by rw [hbne t d htd]; exact h1, h2, h3, h4⟩
      · push Not at htd
        obtain ⟨rfl, rfl⟩ := htd
        rw [hsp, split3] at h1
        rcases h1 with ⟨rfl, rfl, rfl⟩ | ⟨m, h5, h6⟩ | ⟨m, h5, h6⟩
        · exact absurd (by rw [← h3]) hk
        · exact ⟨d, p1, y, m ++ x' :: q, by rw [hbself, h5]; simp, h2, h3, h4⟩
        · refine ⟨d, p ++ x' :: m, y, q1, by rw [hbself, h6]; simp, h2, h3, ?_⟩
          rw [h4, h5]; simp [hsame.placed]
    · rintro ⟨d, p1, y, q1, h1, h2, h3, h4⟩
      by_cases htd : t ≠ tick ∨ d ≠ dir
      · exact ⟨d, p1, y, q1, by rw [← hbne t d htd]; exact h1, h2, h3, h4⟩
      · push Not at htd
        obtain ⟨rfl, rfl⟩ := htd
        rw [hbself, split3] at h1
        rcases h1 with ⟨rfl, rfl, rfl⟩ | ⟨m, h5, h6⟩ | ⟨m, h5, h6⟩
        · exact absurd (by rw [← h3, hsame.id]) hk
        · exact ⟨d, p1, y, m ++ x :: q, by rw [hsp, h5]; simp, h2, h3, h4⟩
        · refine ⟨d, p ++ x :: m, y, q1, by rw [hsp, h6]; simp, h2, h3, ?_⟩
          rw [h4, h5]; simp [hsame.placed]

/-- The relation after replacing the entry `x` by `x'`. -/
theorem Rel.update {s : Store} {b : Book} (h : Rel s b) {tick : Int} {dir : Dir} {p q : List Entry}
    {x x' : Entry} (hsp : b tick dir = p ++ x :: q) (hsame : SameOrder x x') (hleft : x'.left ≤ x.left) {s' : Store}
    (hstore : s' = { s with ticks := s'.ticks, trees := s'.trees, orders := s'.orders, dirLiq := s'.dirLiq })
    (hside : SideOk s' tick dir (p ++ x' :: q))
    (hsorted : SMap.Sorted s'.ticks) (hknown : s'.ticks.get? tick ≠ none)
    (hgetne : ∀ t, t ≠ tick → s'.ticks.get? t = s.ticks.get? t)
    (htvne : ∀ d, d ≠ dir → tv s' tick d = tv s tick d)
    (hframe : TickFrame s.trees s'.trees tick) (hfresh : s'.trees.Fresh tick)
    (hrepne : ∀ d rt, d ≠ dir → RootRep s.trees tick d rt → RootRep s'.trees tick d rt)
    (horders : s'.orders = if x'.Live then s.orders.insert (tick, x.id) (orderOf tick dir (sumBy Entry.placed p) x')
      else s.orders.erase (tick, x.id))
    (hliq : ∀ d, getDirectionalLiquidity s' d = sumTal s' d)
    (hliqLt : ∀ d, getDirectionalLiquidity s' d ≤ getDirectionalLiquidity s d) :
    Rel s' (b.set tick dir (p ++ x' :: q)) := by
  have hbself := Book.set_self b tick dir (p ++ x' :: q)
  have hbne : ∀ t d, (t ≠ tick ∨ d ≠ dir) → b.set tick dir (p ++ x' :: q) t d = b t d := fun t d hh => Book.set_ne _ _ hh
  have hne : b tick dir ≠ [] := by rw [hsp]; simp
  have hnil : ∀ t d, b.set tick dir (p ++ x' :: q) t d ≠ [] ↔ b t d ≠ [] := by
    intro t d
    by_cases htd : t ≠ tick ∨ d ≠ dir
    · rw [hbne t d htd]
    · push Not at htd
      obtain ⟨rfl, rfl⟩ := htd
      rw [hbself]; simp [hne]
  have hmem : ∀ t d y, y ∈ b.set tick dir (p ++ x' :: q) t d → ∃ z ∈ b t d, SameOrder z y := by
    intro t d y hy
    by_cases htd : t ≠ tick ∨ d ≠ dir
    · rw [hbne t d htd] at hy; exact ⟨y, hy, ⟨rfl, rfl, rfl, rfl, rfl⟩⟩
    · push Not at htd
      obtain ⟨rfl, rfl⟩ := htd
      rw [hbself] at hy
      rw [hsp]
      simp only [List.mem_append, List.mem_cons] at hy ⊢
      rcases hy with hy | rfl | hy
      · exact ⟨y, Or.inl hy, ⟨rfl, rfl, rfl, rfl, rfl⟩⟩
      · exact ⟨x, Or.inr (Or.inl rfl), hsame⟩
      · exact ⟨y, Or.inr (Or.inr hy), ⟨rfl, rfl, rfl, rfl, rfl⟩⟩
  have hoid : s'.orderId = s.orderId := by rw [hstore]
  refine ⟨?_, ?_, ?_, hsorted, ?_, ordersOk_update h.orders h.ids hsp hsame horders, ⟨?_, ?_, ?_⟩, ?_, ?_, hliq,
    fun d => lt_of_le_of_lt (hliqLt d) (h.liqLt d), ?_, ?_⟩
  · intro t d
    by_cases ht : t = tick
    · subst ht
      by_cases hd : d = dir
      · subst hd; rw [hbself]; exact hside
      · rw [hbne t d (Or.inr hd)]
        obtain ⟨r, rt, a1, a2, a3⟩ := h.sides t d
        exact ⟨r, rt, by rw [htvne d hd]; exact a1, hrepne d rt hd a2, a3⟩
    · rw [hbne t d (Or.inl ht)]
      exact (h.sides t d).frame ht (hgetne t ht) hframe
  · intro t
    by_cases ht : t = tick
    · subst ht; exact hfresh
    · exact (h.fresh t).tickFrame hframe ht
  · intro t
    rw [hnil, hnil, ← h.known]
    by_cases ht : t = tick
    · subst ht
      obtain ⟨ts, hts⟩ := h.known_of_ne hne
      simp [hknown, hts]
    · rw [hgetne t ht]
  · rw [horders]; split
    · exact h.ordersSorted.insert _ _
    · exact h.ordersSorted.erase _
  · intro t d
    by_cases htd : t ≠ tick ∨ d ≠ dir
    · rw [hbne t d htd]; exact h.ids.inc t d
    · push Not at htd
      obtain ⟨rfl, rfl⟩ := htd
      have hinc := h.ids.inc t d
      rw [hsp, List.pairwise_append, List.pairwise_cons] at hinc
      rw [hbself, List.pairwise_append, List.pairwise_cons, hsame.id]
      refine ⟨hinc.1, hinc.2.1, ?_⟩
      intro y hy z hz
      simp only [List.mem_cons] at hz
      rcases hz with rfl | hz
      · rw [hsame.id]; exact hinc.2.2 y hy x (by simp)
      · exact hinc.2.2 y hy z (by simp [hz])
  · intro t d y hy
    obtain ⟨z, hz, e⟩ := hmem t d y hy
    rw [e.id, hoid]; exact h.ids.lt t d z hz
  · intro t d t' d' y y' hy hy' e
    obtain ⟨z, hz, e1⟩ := hmem t d y hy
    obtain ⟨z', hz', e2⟩ := hmem t' d' y' hy'
    exact h.ids.disj t d t' d' z z' hz hz' (by rw [← e1.id, ← e2.id, e])
  · intro t d hne
    exact h.range t d ((hnil t d).1 hne)
  · intro t d y hy
    obtain ⟨z, hz, e1⟩ := hmem t d y hy
    rw [e1.bounty]; exact h.bounty t d z hz
  · have h1 := h.conf.fee; have h2 := h.conf.recipient; have h3 := h.conf.moderator
    rw [hstore]
    exact ⟨h1, h2, h3⟩
  · obtain ⟨ob, h1, h2⟩ := h.ptr
    refine ⟨ob, by rw [hstore]; exact h1, ⟨h2.denoms, ?_, ?_, h2.bidLo, h2.bidHi, h2.askLo, h2.askHi⟩⟩
    all_goals
      intro t hl
      first
      | refine h2.bid t ?_
      | refine h2.ask t ?_
      intro hz
      apply hl
    · by_cases htd : t ≠ tick ∨ Dir.bid ≠ dir
      · rw [hbne _ _ htd]; exact hz
      · push Not at htd
        obtain ⟨rfl, rfl⟩ := htd
        rw [hbself]; rw [hsp] at hz
        simp only [sumBy_append, sumBy_cons] at hz ⊢; omega
    · by_cases htd : t ≠ tick ∨ Dir.ask ≠ dir
      · rw [hbne _ _ htd]; exact hz
      · push Not at htd
        obtain ⟨rfl, rfl⟩ := htd
        rw [hbself]; rw [hsp] at hz
        simp only [sumBy_append, sumBy_cons] at hz ⊢; omega

end OB
