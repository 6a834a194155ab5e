import Verif.SpecSync
import Verif.Proofs.ClaimObs
import Verif.Proofs.QueryObs
/- Sync and the unrealized-cancels query in terms of the queues. -/
namespace OB
open Spec

theorem left_zero_iff {x : Entry} (h : EntryOk x) : x.left = 0 ↔ x.filled = x.cap := by
  have := h.filled_add_left; omega

theorem gap_eq {x : Entry} (h : EntryOk x) : x.gap = if x.cancelled then x.placed - x.filled else 0 := by
  unfold Entry.gap Entry.cap
  cases hc : x.cancelled with
  | true => have := (h.canc hc).1; simp [this]
  | false => simp

theorem dueTotal_eq {S : Nat} {q : List Entry} (hok : ∀ x ∈ q, EntryOk x) (hf : Fifo S q) : dueTotal q = rz S q := by
  induction q generalizing S with
  | nil => rfl
  | cons x q ih =>
    have hx := hok x (by simp)
    obtain ⟨h1, h2⟩ := hf
    have ih := ih (fun y hy => hok y (by simp [hy])) h2
    unfold dueTotal rz
    rw [← gap_eq hx, ih]
    by_cases hc : x.cap ≤ S
    · rw [if_pos hc, if_pos]
      rw [left_zero_iff hx, h1]; omega
    · rw [if_neg hc, if_neg]
      rw [left_zero_iff hx, h1]; omega

theorem SideRel.due {v : TickValues} {q : List Entry} {r : Nat} (h : SideRel v q r) : dueTotal q = rz (sumBy Entry.filled q) q :=
  dueTotal_eq h.ok h.fifo

theorem SideRel.crc_le {v : TickValues} {q : List Entry} {r : Nat} (h : SideRel v q r) : v.crc ≤ D * dueTotal q := by
  rw [h.crc, h.due]
  exact Nat.mul_le_mul_left _ h.done.le_rz

theorem TickValues.ext' {v w : TickValues} (h1 : v.tal = w.tal) (h2 : v.ctv = w.ctv) (h3 : v.etas = w.etas) (h4 : v.crc = w.crc)
    (h5 : v.lastSync = w.lastSync) : v = w := by
  cases v; cases w; simp_all

theorem D_lit : D = 10 ^ 18 := rfl

theorem synced_aux {S r R c e : Nat} {D : Nat} (he : e = D * (S + r)) (hc : c = D * r) (hr : r ≤ R) : D * (S + R) = e + (D * R - c) := by
  subst he hc
  rw [← Nat.mul_sub, ← Nat.mul_add]; congr 1; omega

theorem Synced.values {s s' : Store} {b : Book} {tick : Int} (h : Synced s s' b tick) (d : Dir) :
    tv s' tick d = syncedValues (b tick d) (tv s tick d) := by
  obtain ⟨r, r', h1, h2, h3, h4, h5, h6⟩ := h.sides d
  unfold syncedValues
  by_cases hl : (tv s tick d).lastSync = (tv s tick d).etas
  · rw [if_pos hl]; exact h6 hl
  · rw [if_neg hl]
    obtain ⟨h7, h8⟩ := h5 hl
    rw [← D_lit, h1.due, ← h7]
    refine TickValues.ext' ?_ ?_ ?_ ?_ h8
    · rw [h1.tal, h2.tal]
    · rw [h1.ctv, h2.ctv]
    · rw [h2.etas]; exact synced_aux h1.etas h1.crc h4
    · exact h2.crc

theorem Synced.values_ne {s s' : Store} {b : Book} {tick t : Int} (h : Synced s s' b tick) (ht : t ≠ tick) (d : Dir) :
    tv s' t d = tv s t d := tv_congr (h.ticks_ne t ht) d

theorem syncNow_spec {s : Store} {b : Book} (h : Rel s b) {t : Int} (hu : b t .bid ≠ [] ∨ b t .ask ≠ []) (hc : s.trees.cnt t + 2 < U64) :
    ∃ s', syncNow s t = .ok () s' ∧ Synced s s' b t := by
  obtain ⟨ts, hts⟩ := Option.ne_none_iff_exists'.1 ((h.known t).2 hu)
  have e : ∀ d, tickValues s t d = ts.getValues d := fun d => tv_of_get hts d
  unfold syncNow
  rw [e, e]
  rcases syncTick_spec h hts with ⟨h1, -⟩ | h1
  · exact absurd hc h1
  · exact h1

theorem RT.leaves_eq_nil {rt : RT} (h : rt.leaves = []) : rt = .empty := by
  cases rt with
  | empty => rfl
  | one => simp [RT.leaves] at h
  | full t =>
    obtain ⟨y, hy, -⟩ := T.exists_hi t
    rw [show t.leaves = [] from h] at hy
    simp at hy

/-- The unrealized-cancels query of one side. -/
theorem SideOk.unrealized {s : Store} {t : Int} {d : Dir} {q : List Entry} (h : SideOk s t d q) {ts : TickState} (hts : s.ticks.get? t = some ts) :
    unrealizedCancels s ts t d = .ok (D * dueTotal q - (tv s t d).crc) := by
  obtain ⟨r, rt, hr, hrep, hl⟩ := h
  rw [hr.due]
  unfold unrealizedCancels
  rw [← tv_of_get hts]
  generalize hv : tv s t d = v at *
  have hwalk := walk_leavesOf (P := 0) hr.ok hr.done
  rw [Nat.zero_add] at hwalk
  by_cases hne : rt.leaves = []
  · have hlv : leavesOf 0 q = [] := by
      rw [hne] at hl
      cases hlq : leavesOf 0 q with
      | nil => rfl
      | cons y l => rw [hlq] at hl; simp [scale] at hl
    have hz : rz (sumBy Entry.filled q) q = 0 := by
      have h1 := rz_le_gap (sumBy Entry.filled q) q
      rw [← leavesOf_sum (P := 0), hlv] at h1
      simpa using h1
    rw [hz]
    have hrt := RT.leaves_eq_nil hne
    subst hrt
    rw [hrep.getRoot_empty]
    simp
  · obtain ⟨root, hroot, -, hpre⟩ := hrep.getRoot hne
    rw [hroot]
    simp only
    have hS := sum_cap_gap hr.ok
    have hSl := sum_filled_left hr.ok
    have hrz := rz_le_gap (sumBy Entry.filled q) q
    have hrle := hr.done.le_rz
    have hp : getPrefixSum s.trees root v.etas v.crc = .ok (D * rz (sumBy Entry.filled q) q) := by
      have := hpre v.etas v.crc
      rw [hl, hr.etas, hr.crc, walkSpec_scale, hwalk.1, sumv_scale, leavesOf_sum, ← Nat.mul_sub, ← Nat.mul_add] at this
      rw [hr.etas, hr.crc]
      refine this (doneOk_scale hwalk.2) ?_ ?_
      · intro y hy
        simp only [scale, List.mem_map] at hy
        obtain ⟨z, hz, rfl⟩ := hy
        have := leavesOf_bounds hr.ok z hz
        rw [← Nat.mul_add]
        refine lt_of_le_of_lt (Nat.mul_le_mul_left D (m := sumBy Entry.placed q) (by omega)) ?_
        rw [← hr.ctv]; exact hr.bound
      · refine lt_of_le_of_lt (Nat.mul_le_mul_left D (m := sumBy Entry.placed q) (by omega)) ?_
        rw [← hr.ctv]; exact hr.bound
    rw [hp]
    rfl

theorem Rel.unrealized {s : Store} {b : Book} (h : Rel s b) {t : Int} {ts : TickState} (hts : s.ticks.get? t = some ts) (d : Dir) :
    unrealizedCancels s ts t d = .ok (D * dueTotal (b t d) - (tv s t d).crc) := (h.sides t d).unrealized hts

end OB
