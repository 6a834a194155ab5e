import Verif.SpecAns
import Verif.Props.Refine
import Verif.Props.Sync
import Verif.Proofs.Commute
/- The marks of the reference exchange follow the accumulators. -/
namespace OB
open Spec

/-- The marks agree with the accumulators. -/
def MarksRel (s : Store) (m : Marks) : Prop := ∀ t d, (tv s t d).crc = D * (m t d).realized ∧ (tv s t d).lastSync = D * (m t d).synced

theorem refS_queues (s : Store) (b : Book) (k : Bank) : (refS s b k).queues = b := rfl

theorem refS_running {s : Store} {b : Book} (hr : Rel s b) {m : Marks} (hm : MarksRel s m) (k : Bank) (t : Int) (d : Dir) :
    (tv s t d).etas = D * (refS s b k).running m t d := by
  obtain ⟨r, rt, h, -, -⟩ := hr.sides t d
  have h1 := (hm t d).1
  rw [h.crc] at h1
  have h2 : r = (m t d).realized := Nat.eq_of_mul_eq_mul_left (by unfold D; omega) h1
  rw [h.etas, h2]; rfl

theorem refS_values {s : Store} {b : Book} (hr : Rel s b) {m : Marks} (hm : MarksRel s m) (k : Bank) (t : Int) (d : Dir) :
    (refS s b k).values m t d = tv s t d := by
  have he := refS_running hr hm k t d
  obtain ⟨r, rt, h, -, -⟩ := hr.sides t d
  refine TickValues.ext' ?_ ?_ he.symm (hm t d).1.symm (hm t d).2.symm
  · rw [h.tal, ← openTotal_eq h.ok]; rfl
  · rw [h.ctv, ← sumBy_placed]; rfl

theorem MarksRel.sync {s s' : Store} {b : Book} {tick : Int} (hs : Synced s s' b tick) (hr : Rel s b) {m : Marks} (hm : MarksRel s m) (k : Bank) :
    MarksRel s' ((refS s b k).sync m tick) := by
  intro t d
  unfold Ref.sync
  rw [refS_queues]
  by_cases ht : t = tick
  · subst ht
    have he := refS_running hr hm k t d
    have h1 := hm t d
    rw [hs.values d]
    unfold syncedValues
    by_cases hl : (tv s t d).lastSync = (tv s t d).etas
    · rw [if_pos hl, if_neg]
      · exact h1
      · rintro ⟨-, h2⟩
        rw [h1.2, he] at hl
        exact h2 (Nat.eq_of_mul_eq_mul_left (by unfold D; omega) hl)
    · rw [if_neg hl, if_pos]
      · exact ⟨rfl, he⟩
      · refine ⟨rfl, fun h2 => hl ?_⟩
        rw [h1.2, he, h2]
  · rw [if_neg (fun hh => ht hh.1), hs.values_ne ht]
    exact hm t d

theorem MarksRel.congr {s s' : Store} {m : Marks} (hm : MarksRel s m)
    (h : ∀ t d, (tv s' t d).crc = (tv s t d).crc ∧ (tv s' t d).lastSync = (tv s t d).lastSync) : MarksRel s' m := by
  intro t d
  rw [(h t d).1, (h t d).2]
  exact hm t d

theorem tv_setValues {s s' : Store} {tick : Int} {dir : Dir} {ts : TickState} {v : TickValues}
    (hs : s'.ticks = s.ticks.insert tick (ts.setValues dir v)) (hts : (s.ticks.get? tick).getD .default = ts) (t : Int) (d : Dir) :
    tv s' t d = if t = tick ∧ d = dir then v else tv s t d := by
  unfold tv
  rw [hs, SMap.get?_insert]
  by_cases ht : t = tick
  · subst ht
    rw [if_pos rfl, Option.getD_some, hts]
    cases d <;> cases dir <;> simp [TickState.getValues, TickState.setValues]
  · rw [if_neg ht, if_neg (fun hh => ht hh.1)]

theorem marks_claims {sender : Addr} {ob : Orderbook} {l : List (Int × Nat)} {s s' : Store} {b b' : Book} {ms : List SendMsg}
    {es : List Event} {k : Bank} {m : Marks} (h : ClaimRun sender ob l s b ms es s' b') (hr : Rel s b) (hob : s.orderbook = some ob)
    (hm : MarksRel s m) : MarksRel s' (Ref.claimMarks sender (refS s b k) m l) := by
  induction h generalizing m with
  | nil => exact hm
  | @ok tick id rest s b r s1 b1 ms es s' b' h1 h2 h3 ih =>
    obtain ⟨dir, x, g1, g2, g3⟩ := ref_claim (k := k) hr hob h2
    rw [Ref.claimMarks]
    simp only [g1, if_pos g2, g3]
    refine ih h2.rel (h2.conf.orderbook.trans hob) ?_
    obtain ⟨-, -, -, -, -, h8, -⟩ := h2
    exact (hm.sync h8 hr k).congr fun t d => by rw [claimedStore_tv]; exact ⟨rfl, rfl⟩
  | @skip tick id rest s b e s1 ms es s' b' h1 h2 h3 ih =>
    rw [Ref.claimMarks]
    have hs1 : refS s1 b k = refS s b k := by rw [refS_same h2.conf b]; rfl
    have ih : ∀ {m : Marks}, MarksRel s1 m → MarksRel s' (Ref.claimMarks sender (refS s1 b k) m rest) :=
      ih (h2.rel hr) (h2.conf.orderbook.trans hob)
    rw [hs1] at ih
    rcases h2.kind with ⟨rfl, hno⟩ | ⟨hs, d, x, hx, hl, hid⟩
    · cases hg : (refS s1 b k).order tick id with
      | none => exact ih hm
      | some y =>
        obtain ⟨dir, x⟩ := y
        obtain ⟨g1, g2, g3⟩ := (refOf_order hr).1 hg
        exact absurd g3 (hno dir x g1 g2)
    · have hg : (refS s b k).order tick id = some (d, x) := (refOf_order hr).2 ⟨hx, hid, hl⟩
      have := h2.none d x hx hl hid
      simp only [hg]
      rw [if_neg (by omega)]
      exact ih (hm.sync hs hr k)

/-- The marks follow every operation. -/
theorem marks_step {ch : Chain} {op : Op} {s s' : Store} {b b' : Book} {resp : Response} (h : StoreStep ch op s b resp s' b') (hr : Rel s b)
    {m : Marks} (hm : MarksRel s m) (k : Bank) : MarksRel s' ((refS s b k).marksAfter m op) := by
  cases h with
  | @place sender funds time tick dir q cb s b ob h1 h2 h3 h4 =>
    refine hm.congr fun t d => ?_
    rw [tv_setValues (dir := dir) (tick := tick) rfl rfl]
    split
    · rename_i hh; obtain ⟨rfl, rfl⟩ := hh; exact ⟨rfl, rfl⟩
    · exact ⟨rfl, rfl⟩
  | @cancel time tick dir s s1 b ob p q x tr ts1 h1 h2 h3 h4 h5 h6 h7 h8 h9 =>
    refine (hm.sync h6 hr k).congr fun t d => ?_
    rw [tv_setValues (s := s1) (dir := dir) (tick := tick) rfl (by rw [h7]; rfl)]
    split
    · rename_i hh; obtain ⟨rfl, rfl⟩ := hh
      rw [tv_of_get h7]; exact ⟨rfl, rfl⟩
    · exact ⟨rfl, rfl⟩
  | claim h1 h2 h3 h4 =>
    obtain ⟨-, -, -, -, -, h8, -⟩ := h4
    exact (hm.sync h8 hr k).congr fun t d => by rw [claimedStore_tv]; exact ⟨rfl, rfl⟩
  | batch h1 h2 h3 h4 => exact marks_claims h4 hr h2 hm
  | @swap time msg sender c out mo fee target s b ob dir F q' dust lp h1 h2 h3 h4 h5 =>
    have hmm : (refS s b k).marksAfter m (.sudo time msg) = m := rfl
    rw [hmm]
    refine hm.congr fun t d => ?_
    rw [swapped_tv_taken (h5.run.fillsOk hr h2).nodup]
    exact ⟨rfl, rfl⟩
  | config h1 h2 =>
    have hmm : (refS s b k).marksAfter m op = m := by
      cases op with
      | execute a f t msg => cases msg <;> simp [Op.isConfig] at h1 <;> rfl
      | _ => rfl
    rw [hmm]
    refine hm.congr fun t d => ?_
    unfold tv
    rw [h2.ticks]
    exact ⟨rfl, rfl⟩

/-! ### Listing -/

theorem mem_shownQ {tick : Int} {dir : Dir} {q : List Entry} {before : Nat} {o : LimitOrder} :
    o ∈ shownQ tick dir before q ↔ ∃ p x q', q = p ++ x :: q' ∧ x.Live ∧ o = shown tick dir (before + placedTotal p) x := by
  induction q generalizing before with
  | nil => simp [shownQ]
  | cons y q ih =>
    have key : o ∈ shownQ tick dir (before + y.placed) q ↔
        ∃ p x q', y :: q = (y :: p) ++ x :: q' ∧ x.Live ∧ o = shown tick dir (before + placedTotal (y :: p)) x := by
      rw [ih]
      constructor
      · rintro ⟨p, x, q', rfl, h2, h3⟩
        refine ⟨p, x, q', rfl, h2, ?_⟩
        rw [h3]; simp [placedTotal, Nat.add_assoc]
      · rintro ⟨p, x, q', h1, h2, h3⟩
        simp only [List.cons_append, List.cons.injEq, true_and] at h1
        refine ⟨p, x, q', h1, h2, ?_⟩
        rw [h3]; simp [placedTotal, Nat.add_assoc]
    unfold shownQ
    split
    · rename_i hl
      rw [List.mem_cons, key]
      constructor
      · rintro (rfl | ⟨p, x, q', h1, h2, h3⟩)
        · exact ⟨[], y, q, rfl, hl, rfl⟩
        · exact ⟨_, x, q', h1, h2, h3⟩
      · rintro ⟨p, x, q', h1, h2, h3⟩
        cases p with
        | nil =>
          simp only [List.nil_append, List.cons.injEq] at h1
          obtain ⟨rfl, rfl⟩ := h1
          exact Or.inl h3
        | cons z p =>
          obtain rfl : y = z := by simpa using congrArg List.head? h1
          exact Or.inr ⟨p, x, q', h1, h2, h3⟩
    · rename_i hl
      rw [key]
      constructor
      · rintro ⟨p, x, q', h1, h2, h3⟩
        exact ⟨_, x, q', h1, h2, h3⟩
      · rintro ⟨p, x, q', h1, h2, h3⟩
        cases p with
        | nil =>
          simp only [List.nil_append, List.cons.injEq] at h1
          obtain ⟨rfl, rfl⟩ := h1
          exact absurd h2 hl
        | cons z p =>
          obtain rfl : y = z := by simpa using congrArg List.head? h1
          exact ⟨p, x, q', h1, h2, h3⟩

theorem shownQ_nodup {tick : Int} {dir : Dir} {q : List Entry} (hq : q.Pairwise fun x y => x.id < y.id) (before : Nat) :
    (shownQ tick dir before q).Nodup := by
  induction q generalizing before with
  | nil => exact List.nodup_nil
  | cons y q ih =>
    rw [List.pairwise_cons] at hq
    unfold shownQ
    split
    · rw [List.nodup_cons]
      refine ⟨fun hmem => ?_, ih hq.2 _⟩
      obtain ⟨p, x, q', rfl, -, h3⟩ := mem_shownQ.1 hmem
      have h4 : y.id = x.id := congrArg LimitOrder.orderId h3
      have := hq.1 x (by simp)
      omega
    · exact ih hq.2 _

theorem mem_usedTicks {s : Store} {b : Book} (hr : Rel s b) (k : Bank) (t : Int) : t ∈ (refS s b k).usedTicks ↔ Used b t := by
  unfold Ref.usedTicks
  simp only [Finset.mem_sort, Finset.mem_filter]
  rw [refS_queues]
  constructor
  · exact fun h => h.2
  · rintro ⟨d, hd⟩
    exact ⟨Finset.mem_Icc.2 (hr.range t d hd), d, hd⟩

theorem listed_key {s : Store} {b : Book} (hr : Rel s b) {o o' : LimitOrder} (h : Listed b o) (h' : Listed b o') (ht : o.tickId = o'.tickId)
    (hid : o.orderId = o'.orderId) : o = o' := by
  have h1 := hr.stored_iff.2 ⟨h, rfl⟩
  have h2 := hr.stored_iff.2 ⟨h', rfl⟩
  rw [hr.ordersSorted.mem_iff] at h1 h2
  rw [ht, hid, h2] at h1
  exact (Option.some.inj h1).symm

/-- The listing of the reference exchange is complete, ascending, without duplicates. -/
theorem listing_listOf {s : Store} {b : Book} (hr : Rel s b) (k : Bank) : ListOf b (fun _ => True) (refS s b k).listing := by
  unfold Ref.listing
  rw [refS_queues]
  generalize hL : ((refS s b k).usedTicks.flatMap fun t => shownQ t .bid 0 (b t .bid) ++ shownQ t .ask 0 (b t .ask)) = L
  have hmem : ∀ o, o ∈ L ↔ Listed b o := by
    intro o
    rw [← hL, List.mem_flatMap]
    constructor
    · rintro ⟨t, ht, ho⟩
      rw [List.mem_append, mem_shownQ, mem_shownQ] at ho
      rcases ho with ⟨p, x, q, h1, h2, h3⟩ | ⟨p, x, q, h1, h2, h3⟩
      · exact ⟨t, .bid, p, x, q, h1, h2, by rw [h3, Nat.zero_add]⟩
      · exact ⟨t, .ask, p, x, q, h1, h2, by rw [h3, Nat.zero_add]⟩
    · rintro ⟨t, d, p, x, q, h1, h2, h3⟩
      refine ⟨t, (mem_usedTicks hr k t).2 ⟨d, by rw [h1]; simp⟩, ?_⟩
      rw [List.mem_append, mem_shownQ, mem_shownQ]
      cases d with
      | bid => exact Or.inl ⟨p, x, q, h1, h2, by rw [h3, Nat.zero_add]⟩
      | ask => exact Or.inr ⟨p, x, q, h1, h2, by rw [h3, Nat.zero_add]⟩
  have hnd : L.Nodup := by
    rw [← hL, List.nodup_flatMap]
    refine ⟨fun t _ => ?_, ?_⟩
    · rw [List.nodup_append]
      refine ⟨shownQ_nodup (hr.ids.inc t .bid) 0, shownQ_nodup (hr.ids.inc t .ask) 0, ?_⟩
      intro o ho o' ho' he
      subst he
      obtain ⟨p, x, q, h1, h2, h3⟩ := mem_shownQ.1 ho
      obtain ⟨p', x', q', h1', h2', h3'⟩ := mem_shownQ.1 ho'
      have := congrArg LimitOrder.dir (h3.symm.trans h3')
      simp [shown] at this
    · refine (Finset.sort_nodup _ _).imp fun {t t'} hne => ?_
      intro o ho ho'
      rw [List.mem_append, mem_shownQ, mem_shownQ] at ho ho'
      have e1 : o.tickId = t := by rcases ho with ⟨p, x, q, -, -, rfl⟩ | ⟨p, x, q, -, -, rfl⟩ <;> rfl
      have e2 : o.tickId = t' := by rcases ho' with ⟨p, x, q, -, -, rfl⟩ | ⟨p, x, q, -, -, rfl⟩ <;> rfl
      exact hne (e1.symm.trans e2)
  generalize hle : (fun o o' : LimitOrder => decide (o.tickId < o'.tickId ∨ o.tickId = o'.tickId ∧ o.orderId ≤ o'.orderId)) = le
  have hperm := List.mergeSort_perm L le
  have hmem' : ∀ o, o ∈ L.mergeSort le ↔ Listed b o := fun o => by rw [hperm.mem_iff, hmem]
  refine ⟨?_, fun o => by rw [hmem' o]; simp⟩
  have hs : (L.mergeSort le).Pairwise fun a b => le a b = true := by
    refine List.pairwise_mergeSort ?_ ?_ L
    · intro a b c; subst hle; simp only [decide_eq_true_eq]; omega
    · intro a b; subst hle; simp only [Bool.or_eq_true, decide_eq_true_eq]; omega
  refine (hs.and (hperm.symm.nodup hnd)).imp_of_mem ?_
  rintro a c ha hc ⟨h1, h2⟩
  subst hle
  simp only [decide_eq_true_eq] at h1
  unfold Asc
  rcases h1 with h1 | ⟨h1, h3⟩
  · exact Or.inl h1
  · refine Or.inr ⟨h1, lt_of_le_of_ne h3 fun h4 => h2 ?_⟩
    exact listed_key hr ((hmem' a).1 ha) ((hmem' c).1 hc) h1 h4

theorem ListOf.unique {b : Book} {P : LimitOrder → Prop} {l l' : List LimitOrder} (h : ListOf b P l) (h' : ListOf b P l') : l = l' := by
  have hirr : ∀ a b : LimitOrder, Asc a b → Asc b a → False := fun a b h1 h2 => by unfold Asc at h1 h2; omega
  haveI : Std.Irrefl Asc := ⟨fun a h1 => hirr a a h1 h1⟩
  haveI : Std.Antisymm Asc := ⟨fun a b h1 h2 => (hirr a b h1 h2).elim⟩
  exact List.Pairwise.eq_of_mem_iff h.1 h'.1 fun o => by rw [h.2, h'.2]

theorem listing_filter {s : Store} {b : Book} (hr : Rel s b) (k : Bank) (P : LimitOrder → Bool) :
    ListOf b (fun o => P o = true) ((refS s b k).listing.filter P) := by
  obtain ⟨h1, h2⟩ := listing_listOf hr k
  refine ⟨h1.filter _, fun o => ?_⟩
  rw [List.mem_filter, h2]
  simp

/-! ### Ticks -/

theorem ref_tick {s : Store} {b : Book} (hr : Rel s b) {m : Marks} (hm : MarksRel s m) (k : Bank) {t : Int} {ts : TickState}
    (h : (s.ticks.get? t).getD .default = ts) : (refS s b k).tick m t = (t, ts) := by
  unfold Ref.tick
  rw [refS_values hr hm, refS_values hr hm]
  unfold tv
  rw [h]
  cases ts
  rfl

theorem ticks_used {s : Store} {b : Book} (hr : Rel s b) {m : Marks} (hm : MarksRel s m) (k : Bank) :
    s.ticks = (refS s b k).usedTicks.map ((refS s b k).tick m) := by
  have hs := hr.ticksSorted
  have hirr : ∀ a b : Int × TickState, a.1 < b.1 → b.1 < a.1 → False := fun a b h1 h2 => by omega
  haveI : Std.Irrefl (fun a b : Int × TickState => a.1 < b.1) := ⟨fun a h1 => hirr a a h1 h1⟩
  haveI : Std.Antisymm (fun a b : Int × TickState => a.1 < b.1) := ⟨fun a b h1 h2 => (hirr a b h1 h2).elim⟩
  refine List.Pairwise.eq_of_mem_iff (r := fun a b : Int × TickState => a.1 < b.1) ?_ ?_ ?_
  · exact hs.imp fun {a b} hab => by simpa [Key.lt] using hab
  · rw [List.pairwise_map]
    exact (Finset.sortedLT_sort _).pairwise
  · rintro ⟨t, ts⟩
    rw [hs.mem_iff, List.mem_map]
    constructor
    · intro hg
      refine ⟨t, (mem_usedTicks hr k t).2 ((used_iff hr t).2 (by rw [hg]; simp)), ?_⟩
      exact ref_tick hr hm k (by rw [hg]; rfl)
    · rintro ⟨t', ht', he⟩
      obtain ⟨ts', hg⟩ := Option.ne_none_iff_exists'.1 ((used_iff hr t').1 ((mem_usedTicks hr k t').1 ht'))
      rw [ref_tick hr hm k (ts := ts') (by rw [hg]; rfl)] at he
      cases he
      exact hg

end OB
