import Verif.Proofs.SyncObs
import Verif.Props.Query
/- C29, C42: syncing ticks and the unrealized-cancels query. -/
namespace OB
open Spec

theorem used_or {b : Book} {t : Int} (h : Used b t) : b t .bid ≠ [] ∨ b t .ask ≠ [] := by
  obtain ⟨d, h⟩ := h
  cases d
  · exact Or.inl h
  · exact Or.inr h

/-- C29: in every reachable state, syncing a used tick succeeds. It changes, on each side that moved since its last sync, the realized
cancels (to those whose turn has come), raises the effective total amount swapped by what it newly realizes and moves the marker; nothing
else of the book (other accumulators, other ticks, orders, liquidity, pointers, configuration) changes. -/
theorem C29_sync_total {ch : Chain} {n : Nat} {w : World} {b : Book} (h : Traced ch n w b) (hn : w.HasRoom) {t : Int} (hu : Used b t) :
    ∃ s', syncNow w.store t = .ok () s' ∧ s' = { w.store with ticks := s'.ticks, trees := s'.trees } ∧
      (∀ d, tickValues s' t d = syncedValues (b t d) (tickValues w.store t d)) ∧
      (∀ t' d, t' ≠ t → tickValues s' t' d = tickValues w.store t' d) ∧
      (∀ d, (tickValues w.store t d).crc ≤ 10 ^ 18 * dueTotal (b t d)) := by
  have hc := hn.room.cnt_lt t
  obtain ⟨s', h1, h2⟩ := syncNow_spec h.rel (used_or hu) (by omega)
  refine ⟨s', h1, h2.store, h2.values, fun t' d ht => h2.values_ne ht d, ?_⟩
  intro d
  obtain ⟨r, rt, hr, -, -⟩ := h.rel.sides t d
  exact hr.crc_le

theorem syncedValues_twice {q : List Entry} {v : TickValues} (hle : v.crc ≤ 10 ^ 18 * dueTotal q) :
    syncedValues q (syncedValues q v) = { syncedValues q v with lastSync := (syncedValues q v).etas } := by
  unfold syncedValues
  generalize 10 ^ 18 * dueTotal q = D at *
  by_cases h : v.lastSync = v.etas
  · simp only [if_pos h]
    obtain ⟨a, b, c, d, e⟩ := v
    simp only at h
    subst h
    rfl
  · rw [if_neg h]
    simp only
    by_cases h2 : v.etas = v.etas + (D - v.crc)
    · rw [if_pos h2, ← h2]
    · rw [if_neg h2]
      simp

/-- C29: syncing again changes at most the last-sync markers (they catch up with the totals), and a third sync changes nothing at all. -/
theorem C29_sync_idempotent {ch : Chain} {n : Nat} {w : World} {b : Book} (h : Traced ch n w b) (hn : w.HasRoom) {t : Int} (hu : Used b t) :
    ∃ s1 s2, syncNow w.store t = .ok () s1 ∧ syncNow s1 t = .ok () s2 ∧ syncNow s2 t = .ok () s2 ∧
      s2 = { s1 with ticks := s2.ticks, trees := s2.trees } ∧
      (∀ d, tickValues s2 t d = { tickValues s1 t d with lastSync := (tickValues s1 t d).etas }) ∧
      (∀ t' d, t' ≠ t → tickValues s2 t' d = tickValues s1 t' d) := by
  have hc := hn.room.cnt_lt t
  obtain ⟨s1, h1, g1⟩ := syncNow_spec h.rel (used_or hu) (by omega)
  have hc1 := g1.cnt
  obtain ⟨s2, h2, g2⟩ := syncNow_spec g1.rel (used_or hu) (by omega)
  have key : ∀ d, tickValues s2 t d = { tickValues s1 t d with lastSync := (tickValues s1 t d).etas } := by
    intro d
    have e1 : tickValues s1 t d = syncedValues (b t d) (tv w.store t d) := g1.values d
    have e2 : tickValues s2 t d = syncedValues (b t d) (tickValues s1 t d) := g2.values d
    obtain ⟨r, rt, hr, -, -⟩ := h.rel.sides t d
    rw [e2, e1, syncedValues_twice hr.crc_le]
  refine ⟨s1, s2, h1, h2, ?_, g2.store, key, fun t' d ht => g2.values_ne ht d⟩
  obtain ⟨ts, hts⟩ := Option.ne_none_iff_exists'.1 g2.known
  have e : ∀ d, tickValues s2 t d = ts.getValues d := fun d => tv_of_get hts d
  unfold syncNow syncTick
  simp only [EM.get_bind, hts]
  rw [if_pos]
  · rfl
  · constructor
    · rw [← e, key]
    · rw [← e, key]

/-- C29: claims and cancels succeed in syncing: after a claim the accumulators of the order's tick are the synced ones; after a cancel as
well, except that the order's refund is no longer liquidity. No other tick's accumulators change. -/
theorem C29_claim_and_cancel_sync {ch : Chain} {n : Nat} {w : World} {b : Book} (h : Traced ch n w b) {sender : Addr} {funds : List Coin}
    {time : Nat} {t : Int} {id : Nat} {w' : World} {resp : Response} {msg : ExecuteMsg} (hm : msg = .claimLimit t id ∨ msg = .cancelLimit t id)
    (hs : step ch w (.execute sender funds time msg) = .ok (w', resp)) :
    (∀ d, { tickValues w'.store t d with tal := 0 } = { syncedValues (b t d) (tickValues w.store t d) with tal := 0 }) ∧
    (msg = .claimLimit t id → ∀ d, tickValues w'.store t d = syncedValues (b t d) (tickValues w.store t d)) ∧
    (∀ t' d, t' ≠ t → tickValues w'.store t' d = tickValues w.store t' d) := by
  rcases hm with rfl | rfl
  · obtain ⟨dir, p, x, q, ob, rc, s1, -, -, -, -, -, -, -, -, hsy, hst, -⟩ := h.claim_inv hs
    have e : ∀ t' d, tickValues w'.store t' d = tv s1 t' d := by
      intro t' d
      rw [hst]
      unfold claimedStore
      split <;> rfl
    refine ⟨fun d => ?_, fun _ d => ?_, fun t' d ht => ?_⟩
    · rw [e, hsy.values]; rfl
    · rw [e, hsy.values]; rfl
    · rw [e, hsy.values_ne ht]; rfl
  · have hst := h.step hs
    generalize b.observe _ _ _ _ = b' at hst
    generalize w'.store = s' at hst
    cases hst with
    | config h1 => simp [Op.isConfig] at h1
    | @cancel _ _ dir _ s1 _ ob p q x tr ts1 h1 h2 h3 h4 h5 h6 h7 h8 h9 =>
      have e1 : ∀ t' d, t' ≠ t → tickValues (cancelledStore s1 tr t dir ts1 x.id (x.placed - x.claimed)) t' d = tv s1 t' d := by
        intro t' d ht
        unfold tickValues tv cancelledStore
        simp only
        rw [SMap.get?_insert_ne _ _ ht]
      have e2 : ∀ d, { tickValues (cancelledStore s1 tr t dir ts1 x.id (x.placed - x.claimed)) t d with tal := 0 } =
          { tv s1 t d with tal := 0 } := by
        intro d
        rw [tv_of_get h7]
        unfold tickValues cancelledStore
        simp only
        rw [SMap.get?_insert_self, Option.getD_some, getValues_setValues]
        split
        · subst_vars; rfl
        · rfl
      refine ⟨fun d => ?_, fun hc => by simp at hc, fun t' d ht => ?_⟩
      · rw [e2, h6.values]; rfl
      · rw [e1 t' d ht, h6.values_ne ht]; rfl

/-! ### C42 -/

theorem unrealized_ok {s : Store} {b : Book} (h : Rel s b) {ids : List Int} (hu : ∀ t ∈ ids, Used b t) :
    ticksUnrealizedCancels s ids = .ok (ids.map fun t => (t, D * dueTotal (b t .ask) - (tv s t .ask).crc, D * dueTotal (b t .bid) - (tv s t .bid).crc)) := by
  induction ids with
  | nil => rfl
  | cons t ids ih =>
    obtain ⟨ts, hts⟩ := Option.ne_none_iff_exists'.1 ((used_iff h t).1 (hu t (by simp)))
    unfold ticksUnrealizedCancels
    rw [ih fun x hx => hu x (by simp [hx]), hts]
    simp only [h.unrealized hts, Except.ok_bind', Except.pure_eq', List.map_cons]

theorem unrealized_err {s : Store} {b : Book} (h : Rel s b) {ids : List Int} (hu : ¬ ∀ t ∈ ids, Used b t) :
    ∃ t ∈ ids, ¬ Used b t ∧ ticksUnrealizedCancels s ids = .error (.invalidTickId t) := by
  induction ids with
  | nil => simp at hu
  | cons t ids ih =>
    unfold ticksUnrealizedCancels
    cases ht : s.ticks.get? t with
    | none => exact ⟨t, by simp, by rw [used_iff h, not_not]; exact ht, rfl⟩
    | some ts =>
      have h1 : Used b t := (used_iff h t).2 (by simp [ht])
      obtain ⟨x, hx, h2, h3⟩ := ih (by
        intro hc
        refine hu fun y hy => ?_
        simp only [List.mem_cons] at hy
        rcases hy with rfl | hy
        · exact h1
        · exact hc y hy)
      refine ⟨x, by simp [hx], h2, ?_⟩
      simp only [h.unrealized ht, Except.ok_bind', h3, Except.error_bind']

/-- C42: the unrealized-cancels query answers, for each requested tick in order, with the total (in 18-decimal fixed point, asks first) of
the cancelled amounts whose turn in the queue has come, less those already realized; it fails exactly for unused ticks. -/
theorem C42_unrealized_cancels {ch : Chain} {n : Nat} {w : World} {b : Book} (h : Traced ch n w b) (ids : List Int) :
    ((∀ t ∈ ids, Used b t) → answer w.store (.getUnrealizedCancels ids) = some (.unrealized (ids.map fun t =>
      (t, 10 ^ 18 * dueTotal (b t .ask) - (tickValues w.store t .ask).crc, 10 ^ 18 * dueTotal (b t .bid) - (tickValues w.store t .bid).crc)))) ∧
    (∀ t d, (tickValues w.store t d).crc ≤ 10 ^ 18 * dueTotal (b t d)) ∧
    (¬ (∀ t ∈ ids, Used b t) → ∃ t ∈ ids, ¬ Used b t ∧
      query (.getUnrealizedCancels ids) w.store = .err (.invalidTickId t) w.store) := by
  refine ⟨fun hu => ?_, ?_, fun hu => ?_⟩
  · have e := unrealized_ok h.rel hu
    unfold answer
    have : ∀ l, ticksUnrealizedCancels w.store ids = .ok l → query (.getUnrealizedCancels ids) w.store = .ok (.unrealized l) w.store := by
      intro l hl
      unfold query
      simp only [EM.get_bind, hl, EM.lift_ok_bind, EM.pure_apply]
    rw [this _ e]
    rfl
  · intro t d
    obtain ⟨r, rt, hr, -, -⟩ := h.rel.sides t d
    exact hr.crc_le
  · obtain ⟨t, h1, h2, h3⟩ := unrealized_err h.rel hu
    refine ⟨t, h1, h2, ?_⟩
    unfold query
    simp only [EM.get_bind]
    refine EM.bind_err_of ?_
    rw [h3]; rfl

/-- C42: after an accepted claim or cancel on a tick, each side's effective total amount swapped has grown by exactly what the query
reported for it if the side was filled since its last sync, and not at all otherwise. -/
theorem C42_next_sync {ch : Chain} {n : Nat} {w : World} {b : Book} (h : Traced ch n w b) {sender : Addr} {funds : List Coin}
    {time : Nat} {t : Int} {id : Nat} {w' : World} {resp : Response} {msg : ExecuteMsg} (hm : msg = .claimLimit t id ∨ msg = .cancelLimit t id)
    (hs : step ch w (.execute sender funds time msg) = .ok (w', resp)) :
    ∃ u : Dir → Nat, answer w.store (.getUnrealizedCancels [t]) = some (.unrealized [(t, u .ask, u .bid)]) ∧
      ∀ d, (tickValues w'.store t d).etas = (tickValues w.store t d).etas +
        if (tickValues w.store t d).lastSync = (tickValues w.store t d).etas then 0 else u d := by
  have hu : Used b t := by
    rcases hm with rfl | rfl
    · obtain ⟨dir, p, x, q, ob, rc, s1, h1, -⟩ := h.claim_inv hs
      exact ⟨dir, by rw [h1]; simp⟩
    · have hst := h.step hs
      generalize b.observe _ _ _ _ = b' at hst
      generalize w'.store = s' at hst
      cases hst with
      | config h1 => simp [Op.isConfig] at h1
      | cancel h1 h2 h3 h4 h5 h6 h7 h8 h9 => exact ⟨_, by rw [h3]; simp⟩
  refine ⟨fun d => 10 ^ 18 * dueTotal (b t d) - (tickValues w.store t d).crc, ?_, ?_⟩
  · exact (C42_unrealized_cancels h [t]).1 (by simpa using hu)
  · intro d
    have e := (C29_claim_and_cancel_sync h hm hs).1 d
    have e2 := congrArg TickValues.etas e
    simp only at e2
    rw [e2]
    unfold syncedValues
    split <;> simp

/-- The demo book: 200000 cancelled before dave's partly filled order are due and not realized yet; zed's claim realizes them. -/
example : answer (Demo.trace Demo.history).1.store (.getUnrealizedCancels [0, 10]) =
      some (.unrealized [(0, 0, 200000 * 10 ^ 18), (10, 0, 0)]) ∧
    ((Demo.trace Demo.history).2 0 .bid).map (fun x => (x.left, x.cancelled)) = [(0, true), (0, true), (40000, false)] ∧
    tickValues (Demo.trace Demo.history).1.store 0 .bid = ⟨40000 * 10 ^ 18, 300000 * 10 ^ 18, 60000 * 10 ^ 18, 0, 0⟩ ∧
    tickValues (Demo.trace (Demo.history ++ [Demo.claim "zed" 0 3])).1.store 0 .bid =
      ⟨40000 * 10 ^ 18, 300000 * 10 ^ 18, 260000 * 10 ^ 18, 200000 * 10 ^ 18, 60000 * 10 ^ 18⟩ := by decide +kernel

/-- Finding: the query can report more than the next sync realizes: right after a cancel of the first order nothing was filled since the
last sync, so a sync does nothing, although the cancelled amount is due (the sync after the next fill realizes it). -/
example : answer (Demo.trace [Demo.place "ann" 0 .bid 100 none, Demo.cancel "ann" 0 0]).1.store (.getUnrealizedCancels [0]) =
      some (.unrealized [(0, 0, 100 * 10 ^ 18)]) ∧
    (tickValues (Demo.trace [Demo.place "ann" 0 .bid 100 none, Demo.cancel "ann" 0 0]).1.store 0 .bid).lastSync =
      (tickValues (Demo.trace [Demo.place "ann" 0 .bid 100 none, Demo.cancel "ann" 0 0]).1.store 0 .bid).etas := by decide +kernel

end OB
