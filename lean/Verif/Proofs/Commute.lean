import Verif.Proofs.ClaimObs
import Verif.Proofs.SyncObs
import Mathlib.Data.List.Perm.Basic
import Mathlib.Data.List.Sort
/- Claim attempts commute, down to the last storage cell. -/
namespace OB
open Spec

theorem SMap.Sorted.ext {K V : Type} [DecidableEq K] [Key K] {m m' : SMap K V} (h : SMap.Sorted m) (h' : SMap.Sorted m')
    (he : ∀ k, SMap.get? m k = SMap.get? m' k) : m = m' := by
  have hirr : ∀ a b : K × V, Key.lt a.1 b.1 = true → Key.lt b.1 a.1 = true → False := fun a b h1 h2 => by
    have := Key.trans _ _ _ h1 h2
    rw [Key.irrefl] at this
    simp at this
  haveI : Std.Irrefl (fun a b : K × V => Key.lt a.1 b.1 = true) := ⟨fun a h1 => hirr a a h1 h1⟩
  haveI : Std.Antisymm (fun a b : K × V => Key.lt a.1 b.1 = true) := ⟨fun a b h1 h2 => (hirr a b h1 h2).elim⟩
  refine List.Pairwise.eq_of_mem_iff (r := fun a b : K × V => Key.lt a.1 b.1 = true) h h' ?_
  rintro ⟨k, v⟩
  rw [h.mem_iff, h'.mem_iff, he]

/-- Mark an order as claimed. -/
def markQ (id : Nat) (q : List Entry) : List Entry := q.map fun x => if x.id = id then { x with claimed := x.filled } else x

def mark (k : Int × Nat) (b : Book) : Book := fun t d => if t = k.1 then markQ k.2 (b t d) else b t d

def Found (b : Book) (k : Int × Nat) : Prop := ∃ d x, x ∈ b k.1 d ∧ x.id = k.2 ∧ x.Live

/-- The entry for the key, if it can be claimed. -/
def Hit (b : Book) (k : Int × Nat) (d : Dir) (x : Entry) : Prop := x ∈ b k.1 d ∧ x.id = k.2 ∧ x.Live ∧ x.claimed < x.filled

/-- What an attempt to claim `k` sends and emits. -/
def Out (sender : Addr) (ob : Orderbook) (rc : Addr) (mf : Nat) (b : Book) (k : Int × Nat) (ms : List SendMsg) (es : List Event) : Prop :=
  ((∀ d x, ¬ Hit b k d x) ∧ ms = [] ∧ es = []) ∨
  ∃ d x, Hit b k d x ∧ ms = (claimResp sender k.1 d x ob rc mf).msgs ∧ es = (claimResp sender k.1 d x ob rc mf).events

theorem mark_other {k : Int × Nat} {b : Book} {t : Int} {d : Dir} (h : t ≠ k.1) : mark k b t d = b t d := by
  unfold mark; rw [if_neg h]

theorem markQ_mem {id : Nat} {q : List Entry} {x : Entry} (hne : x.id ≠ id) : x ∈ markQ id q ↔ x ∈ q := by
  unfold markQ
  rw [List.mem_map]
  constructor
  · rintro ⟨y, hy, rfl⟩
    by_cases h : y.id = id
    · rw [if_pos h] at hne; exact absurd h hne
    · rw [if_neg h]; exact hy
  · intro hx
    exact ⟨x, hx, by rw [if_neg hne]⟩

theorem mark_mem {k : Int × Nat} {b : Book} {t : Int} {d : Dir} {x : Entry} (hne : (t, x.id) ≠ k) : x ∈ mark k b t d ↔ x ∈ b t d := by
  unfold mark
  split
  · rename_i h
    refine markQ_mem fun h2 => hne ?_
    obtain ⟨a, c⟩ := k
    simp only at h h2
    rw [h, h2]
  · exact Iff.rfl

theorem mark_comm (k k' : Int × Nat) (b : Book) : mark k (mark k' b) = mark k' (mark k b) := by
  funext t d
  unfold mark
  by_cases h : t = k.1 <;> by_cases h' : t = k'.1
  · rw [if_pos h, if_pos h', if_pos h']
    simp only [if_pos h]
    unfold markQ
    rw [List.map_map, List.map_map]
    refine List.map_congr_left fun x _ => ?_
    simp only [Function.comp]
    have e : ∀ (i : Nat) (y : Entry), (if y.id = i then { y with claimed := y.filled } else y).id = y.id := fun i y => by split <;> rfl
    rw [e, e]
    by_cases e1 : x.id = k.2 <;> by_cases e2 : x.id = k'.2
    · rw [if_pos e1, if_pos e2, if_pos e2, if_pos e1]
    · rw [if_pos e1, if_neg e2, if_neg e2, if_pos e1]
    · rw [if_neg e1, if_pos e2, if_pos e2, if_neg e1]
    · rw [if_neg e1, if_neg e2, if_neg e2, if_neg e1]
  · rw [if_pos h, if_neg h', if_neg h', if_pos h]
  · rw [if_neg h, if_pos h', if_pos h', if_neg h]
  · rw [if_neg h, if_neg h', if_neg h', if_neg h]

theorem Found.mark_iff {b : Book} {k k' : Int × Nat} (hne : k ≠ k') : Found (mark k' b) k ↔ Found b k := by
  unfold Found
  constructor <;> rintro ⟨d, x, hx, hid, hl⟩
  · exact ⟨d, x, (mark_mem (by rw [hid]; exact hne)).1 hx, hid, hl⟩
  · exact ⟨d, x, (mark_mem (by rw [hid]; exact hne)).2 hx, hid, hl⟩

theorem Hit.mark_iff {b : Book} {k k' : Int × Nat} (hne : k ≠ k') (d : Dir) (x : Entry) : Hit (mark k' b) k d x ↔ Hit b k d x := by
  unfold Hit
  constructor <;> rintro ⟨hx, hid, hl⟩
  · exact ⟨(mark_mem (by rw [hid]; exact hne)).1 hx, hid, hl⟩
  · exact ⟨(mark_mem (by rw [hid]; exact hne)).2 hx, hid, hl⟩

theorem Out.mark {sender : Addr} {ob : Orderbook} {rc : Addr} {mf : Nat} {b : Book} {k k' : Int × Nat} (hne : k ≠ k') {ms : List SendMsg}
    {es : List Event} : Out sender ob rc mf (mark k' b) k ms es ↔ Out sender ob rc mf b k ms es := by
  unfold Out
  simp only [Hit.mark_iff hne]

theorem Out.unique {sender : Addr} {ob : Orderbook} {rc : Addr} {mf : Nat} {s : Store} {b : Book} (hr : Rel s b) {k : Int × Nat}
    {ms ms' : List SendMsg} {es es' : List Event} (h : Out sender ob rc mf b k ms es) (h' : Out sender ob rc mf b k ms' es') :
    ms = ms' ∧ es = es' := by
  rcases h with ⟨h1, rfl, rfl⟩ | ⟨d, x, h1, rfl, rfl⟩ <;> rcases h' with ⟨g1, rfl, rfl⟩ | ⟨d', x', g1, rfl, rfl⟩
  · exact ⟨rfl, rfl⟩
  · exact absurd g1 (h1 _ _)
  · exact absurd h1 (g1 _ _)
  · obtain ⟨p, q, hsp⟩ := List.append_of_mem h1.1
    obtain ⟨-, rfl, rfl⟩ := hr.same_entry hsp g1.1 (by rw [h1.2.1, g1.2.1])
    exact ⟨rfl, rfl⟩

theorem dueTotal_markQ (id : Nat) (q : List Entry) : dueTotal (markQ id q) = dueTotal q := by
  unfold markQ
  induction q with
  | nil => rfl
  | cons x q ih =>
    rw [List.map_cons]
    unfold dueTotal
    by_cases h : x.id = id
    · simp only [h, if_true]; rw [ih]; rfl
    · simp only [h, if_false]; rw [ih]

theorem syncedValues_mark (k : Int × Nat) (b : Book) (t : Int) (d : Dir) (v : TickValues) :
    syncedValues (mark k b t d) v = syncedValues (b t d) v := by
  unfold mark
  split
  · unfold syncedValues; rw [dueTotal_markQ]
  · rfl

open scoped Classical in
/-- The complete effect of an attempt to claim `k`. -/
structure Att (sender : Addr) (k : Int × Nat) (s : Store) (b : Book) (ms : List SendMsg) (es : List Event) (s' : Store) : Prop where
  rel : Rel s' (mark k b)
  conf : SameConf s s'
  values : ∀ t d, tv s' t d = if t = k.1 then (if Found b k then syncedValues (b t d) (tv s t d) else tv s t d) else tv s t d
  trees : s'.trees = if Found b k then treeSync k.1 (tv s k.1) s.trees else s.trees
  out : ∀ ob rc, s.orderbook = some ob → s.makerFeeRecipient = some rc → Out sender ob rc (getMakerFee s) b k ms es

theorem mark_noop {s : Store} {b : Book} (hr : Rel s b) {k : Int × Nat} (h : ∀ d x, ¬ Hit b k d x) : mark k b = b := by
  funext t d
  unfold mark
  split
  · subst_vars
    unfold markQ
    conv_rhs => rw [← List.map_id (b k.1 d)]
    refine List.map_congr_left fun x hx => ?_
    simp only [id_eq]
    split
    · rename_i hid
      obtain ⟨r, rt, hside, -, -⟩ := hr.sides k.1 d
      have hok := hside.ok x hx
      have hcf : x.claimed = x.filled := by
        by_contra hne
        have hlt : x.claimed < x.filled := by have := hok.claimed_le; omega
        refine h d x ⟨hx, hid, ⟨?_, ?_⟩, hlt⟩
        · by_contra hc
          have hc : x.cancelled = true := by simpa using hc
          have := (hok.canc hc).1
          omega
        · have := hok.filled_le; omega
      cases x
      simp only at hcf
      simp [hcf]
    · rfl
  · rfl

theorem mark_hit {s : Store} {b : Book} (hr : Rel s b) {tick : Int} {dir : Dir} {p q : List Entry} {x : Entry} (hsp : b tick dir = p ++ x :: q) :
    mark (tick, x.id) b = b.set tick dir (p ++ { x with claimed := x.filled } :: q) := by
  funext t d
  unfold mark
  by_cases ht : t = tick
  · subst ht
    rw [if_pos rfl]
    by_cases hd : d = dir
    · subst hd
      rw [Book.set_self, hsp]
      exact updQ_split (g := fun y => { y with claimed := y.filled }) (by rw [← hsp]; exact hr.ids.inc t d)
    · rw [Book.set_ne _ _ (Or.inr hd)]
      unfold markQ
      conv_rhs => rw [← List.map_id (b t d)]
      refine List.map_congr_left fun y hy => ?_
      rw [if_neg, id_eq]
      intro hid
      exact hd (hr.same_entry hsp hy hid).2.1
  · rw [if_neg ht, Book.set_ne _ _ (Or.inl ht)]

theorem claimedStore_tv {s : Store} {tick : Int} {o : LimitOrder} (t : Int) (d : Dir) : tv (claimedStore s tick o) t d = tv s t d := by
  unfold claimedStore; split <;> rfl

theorem claimedStore_trees {s : Store} {tick : Int} {o : LimitOrder} : (claimedStore s tick o).trees = s.trees := by
  unfold claimedStore; split <;> rfl

open scoped Classical in
/-- Every claim attempt of a batch is one. -/
theorem attempt {sender : Addr} {ob : Orderbook} {k : Int × Nat} {s s' : Store} {b : Book} {ms : List SendMsg} {es : List Event}
    (hr : Rel s b) (hob : s.orderbook = some ob) (h : batchLoop sender ob [k] s = .ok (ms, es) s') : Att sender k s b ms es s' := by
  obtain ⟨tick, id⟩ := k
  obtain ⟨rc, hrc⟩ := hr.recipient
  unfold batchLoop at h
  rcases hr.lookup tick id with ⟨h1, h2⟩ | ⟨dir, p, x, q, h1, h2, rfl, h4⟩
  · have hnf : ¬ Found b (tick, id) := by
      rintro ⟨d, x, hx, hid, hl⟩
      exact h2 d x hx hid hl
    have hnh : ∀ d x, ¬ Hit b (tick, id) d x := fun d x hh => hnf ⟨d, x, hh.1, hh.2.1, hh.2.2.1⟩
    have hs : ms = [] ∧ es = [] ∧ s' = s := by
      rcases claimOrder_none hr (sender := sender) h1 with h3 | h3 <;>
        (simp only [h3, batchLoop] at h
         rw [EM.pure_eq_ok] at h
         obtain ⟨h, rfl⟩ := h
         simp only [Prod.mk.injEq] at h
         exact ⟨h.1, h.2, rfl⟩)
    obtain ⟨rfl, rfl, rfl⟩ := hs
    refine ⟨by rw [mark_noop hr hnh]; exact hr, .refl _, fun t d => ?_, ?_, fun _ _ _ _ => Or.inl ⟨hnh, rfl, rfl⟩⟩
    · rw [if_neg hnf, ite_self]
    · rw [if_neg hnf]
  · have hx : x ∈ b tick dir := by rw [h1]; simp
    have hf : Found b (tick, x.id) := ⟨dir, x, hx, rfl, h2⟩
    rcases claimOrder_some hr sender h1 h2 hob hrc with ⟨-, s1, h5⟩ | ⟨s1, h5, ⟨h6, h7⟩ | ⟨h6, h7⟩⟩
    · simp [h5] at h
    · have hnh : ∀ d y, ¬ Hit b (tick, x.id) d y := by
        rintro d y ⟨hy, hid, -, hlt⟩
        obtain ⟨-, rfl, rfl⟩ := hr.same_entry h1 hy hid
        omega
      simp only [h7, batchLoop] at h
      rw [EM.pure_eq_ok] at h
      obtain ⟨h, rfl⟩ := h
      simp only [Prod.mk.injEq] at h
      obtain ⟨rfl, rfl⟩ := h
      refine ⟨by rw [mark_noop hr hnh]; exact h5.rel, h5.conf, fun t d => ?_, ?_, fun _ _ _ _ => Or.inl ⟨hnh, rfl, rfl⟩⟩
      · by_cases ht : t = tick
        · subst ht; rw [if_pos rfl, if_pos hf]; exact h5.values d
        · rw [if_neg ht]; exact h5.values_ne ht d
      · rw [if_pos hf]; exact h5.trees
    · have hstep : ClaimStep sender tick x.id s b _ _ _ := .mk h1 h2 rfl hob hrc h5 h6
      simp only [h7, batchLoop] at h
      rw [EM.bind_eq_ok] at h
      obtain ⟨⟨ms1, es1⟩, s2, h8, h9⟩ := h
      rw [EM.pure_eq_ok] at h8 h9
      simp only [Prod.mk.injEq] at h8 h9
      obtain ⟨⟨rfl, rfl⟩, rfl⟩ := h8
      obtain ⟨⟨rfl, rfl⟩, rfl⟩ := h9
      refine ⟨by rw [mark_hit hr h1]; exact hstep.rel, hstep.conf, fun t d => ?_, ?_, fun ob' rc' hob' hrc' => Or.inr ⟨dir, x, ⟨hx, rfl, h2, h6⟩, ?_, ?_⟩⟩
      · rw [claimedStore_tv]
        by_cases ht : t = tick
        · subst ht; rw [if_pos rfl, if_pos hf]; exact h5.values d
        · rw [if_neg ht]; exact h5.values_ne ht d
      · rw [if_pos hf, claimedStore_trees]; exact h5.trees
      · obtain rfl := orderbook_inj hob hob'
        obtain rfl : rc = rc' := by rw [hrc] at hrc'; exact Option.some.inj hrc'
        rw [List.append_nil]; rfl
      · obtain rfl := orderbook_inj hob hob'
        obtain rfl : rc = rc' := by rw [hrc] at hrc'; exact Option.some.inj hrc'
        rfl

/-! ### Two attempts -/

theorem Rel.store_ext {s s' : Store} {b : Book} (h : Rel s b) (h' : Rel s' b) (hc : SameConf s s') (hv : ∀ t d, tv s t d = tv s' t d)
    (ht : s.trees = s'.trees) : s = s' := by
  have hticks : s.ticks = s'.ticks := by
    refine h.ticksSorted.ext h'.ticksSorted fun t => ?_
    have hk : s.ticks.get? t ≠ none ↔ s'.ticks.get? t ≠ none := by rw [h.known, h'.known]
    cases h1 : s.ticks.get? t with
    | none =>
      rw [h1] at hk
      cases h2 : s'.ticks.get? t with
      | none => rfl
      | some ts => rw [h2] at hk; simp at hk
    | some ts =>
      rw [h1] at hk
      cases h2 : s'.ticks.get? t with
      | none => rw [h2] at hk; simp at hk
      | some ts' =>
        have e1 := hv t .bid
        have e2 := hv t .ask
        rw [tv_of_get h1, tv_of_get h2] at e1 e2
        cases ts; cases ts'
        simp only [TickState.getValues, reduceCtorEq, if_true, if_false] at e1 e2
        rw [e1, e2]
  have horders : s.orders = s'.orders := by
    refine h.ordersSorted.ext h'.ordersSorted fun k => ?_
    obtain ⟨t, id⟩ := k
    have key : ∀ o, s.orders.get? (t, id) = some o ↔ s'.orders.get? (t, id) = some o := fun o => by rw [h.orders, h'.orders]
    cases h1 : s.orders.get? (t, id) with
    | some o => exact ((key o).1 h1).symm
    | none =>
      cases h2 : s'.orders.get? (t, id) with
      | none => rfl
      | some o => rw [(key o).2 h2] at h1; simp at h1
  obtain ⟨c1, c2, c3, c4, c5, c6, c7, c8, c9, c10⟩ := hc
  cases s; cases s'
  simp only at *
  subst_vars
  rfl

theorem rootInit_other {st : TreeSt} {t t' : Int} {d : Dir} (h : t' ≠ t) :
    (rootInit st t d).nodes = st.nodes ∧ (rootInit st t d).counter t' = st.counter t' ∧ (rootInit st t d).roots t' = st.roots t' := by
  unfold rootInit
  split
  · exact ⟨rfl, rfl, rfl⟩
  · refine ⟨rfl, if_neg h, ?_⟩
    funext d'
    exact if_neg fun hh => h hh.1

theorem rootInit_local {st st' : TreeSt} {t : Int} {d : Dir} (h1 : st.nodes = st'.nodes) (h2 : st.counter t = st'.counter t)
    (h3 : st.roots t = st'.roots t) :
    (rootInit st t d).nodes = (rootInit st' t d).nodes ∧ (rootInit st t d).counter t = (rootInit st' t d).counter t ∧
      (rootInit st t d).roots t = (rootInit st' t d).roots t := by
  have e : getRootNode st t d = getRootNode st' t d := by unfold getRootNode; rw [h1, h3]
  unfold rootInit
  rw [← e]
  split
  · exact ⟨h1, h2, h3⟩
  · refine ⟨h1, ?_, ?_⟩
    · simp only [if_true, h2]
    · funext d'
      simp only [h2, h3]

theorem treeSync_other {v : Dir → TickValues} {st : TreeSt} {t t' : Int} (h : t' ≠ t) :
    (treeSync t v st).nodes = st.nodes ∧ (treeSync t v st).counter t' = st.counter t' ∧ (treeSync t v st).roots t' = st.roots t' := by
  unfold treeSync
  simp only
  split <;> split
  · exact ⟨rfl, rfl, rfl⟩
  · exact rootInit_other h
  · exact rootInit_other h
  · obtain ⟨a1, a2, a3⟩ := rootInit_other (st := st) (d := .bid) h
    obtain ⟨c1, c2, c3⟩ := rootInit_other (st := rootInit st t .bid) (d := .ask) h
    exact ⟨c1.trans a1, c2.trans a2, c3.trans a3⟩

theorem treeSync_local {v : Dir → TickValues} {st st' : TreeSt} {t : Int} (h1 : st.nodes = st'.nodes) (h2 : st.counter t = st'.counter t)
    (h3 : st.roots t = st'.roots t) :
    (treeSync t v st).nodes = (treeSync t v st').nodes ∧ (treeSync t v st).counter t = (treeSync t v st').counter t ∧
      (treeSync t v st).roots t = (treeSync t v st').roots t := by
  unfold treeSync
  simp only
  split <;> split
  · exact ⟨h1, h2, h3⟩
  · exact rootInit_local h1 h2 h3
  · exact rootInit_local h1 h2 h3
  · obtain ⟨a1, a2, a3⟩ := rootInit_local (d := .bid) h1 h2 h3
    exact rootInit_local a1 a2 a3

theorem TreeSt.ext' {st st' : TreeSt} (h1 : st.nodes = st'.nodes) (h2 : ∀ t, st.counter t = st'.counter t) (h3 : ∀ t, st.roots t = st'.roots t) :
    st = st' := by
  cases st; cases st'
  simp only at *
  rw [h1, funext h2, funext h3]

theorem treeSync_comm {v v' : Dir → TickValues} {st : TreeSt} {t t' : Int} (h : t ≠ t') :
    treeSync t v (treeSync t' v' st) = treeSync t' v' (treeSync t v st) := by
  obtain ⟨a1, a2, a3⟩ := treeSync_other (v := v') (st := st) h
  obtain ⟨c1, c2, c3⟩ := treeSync_other (v := v) (st := st) (Ne.symm h)
  obtain ⟨l1, l2, l3⟩ := treeSync_local (v := v) a1 a2 a3
  obtain ⟨m1, m2, m3⟩ := treeSync_local (v := v') c1 c2 c3
  obtain ⟨o1, o2, o3⟩ := treeSync_other (v := v) (st := treeSync t' v' st) (Ne.symm h)
  obtain ⟨p1, p2, p3⟩ := treeSync_other (v := v') (st := treeSync t v st) h
  refine TreeSt.ext' ?_ (fun u => ?_) (fun u => ?_)
  · rw [o1, p1, a1, c1]
  · by_cases hu : u = t
    · subst hu; rw [l2, p2]
    · by_cases hu' : u = t'
      · subst hu'; rw [o2, m2]
      · rw [(treeSync_other hu).2.1, (treeSync_other hu').2.1, (treeSync_other hu').2.1, (treeSync_other hu).2.1]
  · by_cases hu : u = t
    · subst hu; rw [l3, p3]
    · by_cases hu' : u = t'
      · subst hu'; rw [o3, m3]
      · rw [(treeSync_other hu).2.2, (treeSync_other hu').2.2, (treeSync_other hu').2.2, (treeSync_other hu).2.2]

open scoped Classical in
/-- Two attempts commute. -/
theorem Att.comm {sa sc : Addr} {a c : Int × Nat} {s s1 s2 s3 s4 : Store} {b : Book} {m1 m2 m3 m4 : List SendMsg} {e1 e2 e3 e4 : List Event}
    (hr : Rel s b) (ha : Att sa a s b m1 e1 s1) (hac : Att sc c s1 (mark a b) m2 e2 s2)
    (hc : Att sc c s b m3 e3 s3) (hca : Att sa a s3 (mark c b) m4 e4 s4) (hne : a ≠ c) :
    s2 = s4 ∧ m1 = m4 ∧ e1 = e4 ∧ m2 = m3 ∧ e2 = e3 := by
  have hfa : Found (mark c b) a ↔ Found b a := Found.mark_iff hne
  have hfc : Found (mark a b) c ↔ Found b c := Found.mark_iff (Ne.symm hne)
  have v2 := hac.values
  have v4 := hca.values
  have t2 := hac.trees
  have t4 := hca.trees
  have fc : ∀ {α : Type} (x y : α), (if Found (mark a b) c then x else y) = if Found b c then x else y := fun x y => by
    by_cases g : Found b c
    · rw [if_pos g, if_pos (hfc.2 g)]
    · rw [if_neg g, if_neg fun hh => g (hfc.1 hh)]
  have fa : ∀ {α : Type} (x y : α), (if Found (mark c b) a then x else y) = if Found b a then x else y := fun x y => by
    by_cases g : Found b a
    · rw [if_pos g, if_pos (hfa.2 g)]
    · rw [if_neg g, if_neg fun hh => g (hfa.1 hh)]
  simp only [fc, ha.values, syncedValues_mark] at v2
  simp only [fa, hc.values, syncedValues_mark] at v4
  rw [fc, ha.trees] at t2
  rw [fa, hc.trees] at t4
  refine ⟨?_, ?_⟩
  · refine Rel.store_ext hac.rel (by rw [mark_comm]; exact hca.rel) (hac.conf.symm.trans (ha.conf.symm.trans (hc.conf.trans hca.conf))) ?_ ?_
    · intro t d
      rw [v2, v4]
      by_cases h1 : t = a.1 <;> by_cases h2 : t = c.1
      · simp only [if_pos h1, if_pos h2]
        by_cases g1 : Found b a <;> by_cases g2 : Found b c <;> simp only [g1, g2, if_true, if_false]
      · simp only [if_pos h1, if_neg h2]
      · simp only [if_neg h1, if_pos h2]
      · simp only [if_neg h1, if_neg h2]
    · rw [t2, t4]
      by_cases g1 : Found b a <;> by_cases g2 : Found b c <;> simp only [g1, g2, if_true, if_false]
      · by_cases hk : a.1 = c.1
        · have e1' : tv s1 c.1 = fun d => syncedValues (b c.1 d) (tv s c.1 d) := by
            funext d; rw [ha.values, if_pos hk.symm, if_pos g1]
          have e2' : tv s3 a.1 = fun d => syncedValues (b a.1 d) (tv s a.1 d) := by
            funext d; rw [hc.values, if_pos hk, if_pos g2]
          rw [e1', e2', hk]
        · have e1' : tv s1 c.1 = tv s c.1 := by funext d; rw [ha.values, if_neg (Ne.symm hk)]
          have e2' : tv s3 a.1 = tv s a.1 := by funext d; rw [hc.values, if_neg hk]
          rw [e1', e2']
          exact treeSync_comm (Ne.symm hk)
      · have e2' : tv s3 a.1 = tv s a.1 := by funext d; rw [hc.values]; simp only [g2, if_false, ite_self]
        rw [e2']
      · have e1' : tv s1 c.1 = tv s c.1 := by funext d; rw [ha.values]; simp only [g1, if_false, ite_self]
        rw [e1']
  · obtain ⟨ob, hob, -⟩ := hr.ptr
    obtain ⟨rc, hrc⟩ := hr.recipient
    have o1 := ha.out ob rc hob hrc
    have o3 := hc.out ob rc hob hrc
    have o2 := hac.out ob rc (by rw [ha.conf.orderbook]; exact hob) (by rw [ha.conf.recipient]; exact hrc)
    have o4 := hca.out ob rc (by rw [hc.conf.orderbook]; exact hob) (by rw [hc.conf.recipient]; exact hrc)
    have f1 : getMakerFee s1 = getMakerFee s := by unfold getMakerFee; rw [ha.conf.fee]
    have f3 : getMakerFee s3 = getMakerFee s := by unfold getMakerFee; rw [hc.conf.fee]
    rw [f1, Out.mark (Ne.symm hne)] at o2
    rw [f3, Out.mark hne] at o4
    obtain ⟨rfl, rfl⟩ := o1.unique hr o4
    obtain ⟨rfl, rfl⟩ := o2.unique hr o3
    exact ⟨rfl, rfl, rfl, rfl⟩

theorem batchLoop_cons {sender : Addr} {ob : Orderbook} {k : Int × Nat} {l : List (Int × Nat)} {s s' : Store} {ms : List SendMsg} {es : List Event} :
    batchLoop sender ob (k :: l) s = .ok (ms, es) s' ↔ ∃ m1 e1 s1 m2 e2, batchLoop sender ob [k] s = .ok (m1, e1) s1 ∧
      batchLoop sender ob l s1 = .ok (m2, e2) s' ∧ ms = m1 ++ m2 ∧ es = e1 ++ e2 := by
  obtain ⟨tick, id⟩ := k
  simp only [batchLoop]
  cases hc : claimOrder sender tick id s with
  | ok r s1 =>
    obtain ⟨a, m, o⟩ := r
    simp only [EM.bind_eq_ok, EM.pure_eq_ok]
    constructor
    · rintro ⟨⟨m2, e2⟩, s2, h1, h2, rfl⟩
      simp only [Prod.mk.injEq] at h2
      obtain ⟨rfl, rfl⟩ := h2
      exact ⟨_, _, s1, m2, e2, ⟨([], []), s1, ⟨rfl, rfl⟩, rfl, rfl⟩, h1, by simp, by simp⟩
    · rintro ⟨m1, e1, s2, m2, e2, ⟨r, s3, ⟨rfl, rfl⟩, h3, rfl⟩, h4, rfl, rfl⟩
      simp only [Prod.mk.injEq] at h3
      obtain ⟨rfl, rfl⟩ := h3
      exact ⟨(m2, e2), s', h4, by simp, rfl⟩
  | err e s1 =>
    cases e <;> simp only [EM.pure_eq_ok, reduceCtorEq, false_and, exists_false, Prod.mk.injEq] <;>
      (constructor
       · intro h
         exact ⟨[], [], s1, ms, es, ⟨⟨rfl, rfl⟩, rfl⟩, h, by simp, by simp⟩
       · rintro ⟨m1, e1, s2, m2, e2, ⟨⟨rfl, rfl⟩, rfl⟩, h4, rfl, rfl⟩
         simpa using h4)

/-- The sequence in which a batch lists its orders does not matter. -/
theorem batchLoop_perm {sender : Addr} {ob : Orderbook} {l l' : List (Int × Nat)} (hp : l.Perm l') {s s' : Store} {b : Book} {ms : List SendMsg}
    {es : List Event} (hr : Rel s b) (hob : s.orderbook = some ob) (hc : ∀ t, s.trees.cnt t + 2 * l.length < U64)
    (h : batchLoop sender ob l s = .ok (ms, es) s') :
    ∃ ms' es', batchLoop sender ob l' s = .ok (ms', es') s' ∧ ms.Perm ms' ∧ es.Perm es' := by
  induction hp generalizing s b ms es with
  | nil => exact ⟨ms, es, h, .refl _, .refl _⟩
  | @cons k l l' hp ih =>
    obtain ⟨m1, e1, s1, m2, e2, h1, h2, rfl, rfl⟩ := batchLoop_cons.1 h
    have ha := attempt hr hob h1
    have hcnt : ∀ t, s1.trees.cnt t + 2 * l.length < U64 := by
      intro t
      have h3 := hc t
      rw [List.length_cons] at h3
      obtain ⟨b', hrun⟩ := batchLoop_ok hr h1
      have := hrun.same.cnt t
      simp only [List.length_singleton] at this
      omega
    obtain ⟨m3, e3, h4, p1, p2⟩ := ih ha.rel (by rw [ha.conf.orderbook]; exact hob) hcnt h2
    exact ⟨_, _, batchLoop_cons.2 ⟨m1, e1, s1, m3, e3, h1, h4, rfl, rfl⟩, p1.append_left _, p2.append_left _⟩
  | @swap c a l =>
    obtain ⟨m1, e1, s1, m, e, h1, h2, rfl, rfl⟩ := batchLoop_cons.1 h
    obtain ⟨m2, e2, s2, m3, e3, h3, h4, rfl, rfl⟩ := batchLoop_cons.1 h2
    by_cases hne : a = c
    · subst hne
      exact ⟨_, _, h, .refl _, .refl _⟩
    have ha := attempt hr hob h1
    have hac := attempt ha.rel (by rw [ha.conf.orderbook]; exact hob) h3
    have hlen : (a :: c :: l).length = l.length + 2 := rfl
    rw [hlen] at hc
    obtain ⟨⟨m4, e4⟩, s3, h5⟩ := batchLoop_total (sender := sender) (ob := ob) (l := [c]) hr (fun t => by
      have := hc t; simp only [List.length_singleton]; omega)
    have hcc := attempt hr hob h5
    have hcnt : ∀ t, s3.trees.cnt t ≤ s.trees.cnt t + 2 := by
      intro t
      obtain ⟨b', hrun⟩ := batchLoop_ok hr h5
      have := hrun.same.cnt t
      simp only [List.length_singleton] at this
      omega
    obtain ⟨⟨m5, e5⟩, s4, h6⟩ := batchLoop_total (sender := sender) (ob := ob) (l := [a]) hcc.rel (fun t => by
      have := hc t; have := hcnt t; simp only [List.length_singleton]; omega)
    have hca := attempt hcc.rel (by rw [hcc.conf.orderbook]; exact hob) h6
    obtain ⟨rfl, rfl, rfl, rfl, rfl⟩ := Att.comm hr ha hac hcc hca hne
    refine ⟨_, _, batchLoop_cons.2 ⟨m2, e2, s3, _, _, h5, batchLoop_cons.2 ⟨m1, e1, s2, m3, e3, h6, h4, rfl, rfl⟩, rfl, rfl⟩, ?_, ?_⟩
    · rw [← List.append_assoc, ← List.append_assoc]; exact (List.perm_append_comm).append_right _
    · rw [← List.append_assoc, ← List.append_assoc]; exact (List.perm_append_comm).append_right _
  | trans p1 p2 ih1 ih2 =>
    obtain ⟨m1, e1, h1, q1, q2⟩ := ih1 hr hob hc h
    obtain ⟨m2, e2, h2, r1, r2⟩ := ih2 hr hob (by rw [← p1.length_eq]; exact hc) h1
    exact ⟨m2, e2, h2, q1.trans r1, q2.trans r2⟩

end OB
