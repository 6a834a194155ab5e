import Verif.Proofs.Queue
import Verif.Proofs.SMap
import Verif.Proofs.Tree.Root
/- The refinement relation between the store and the FIFO queues. -/
namespace OB
open T TreeNode

theorem U128_lt_U256 : U128 < U256 := by unfold U128 U256; norm_num

/-- Values of a tick side (zero if the tick is unknown). -/
def tv (s : Store) (tick : Int) (dir : Dir) : TickValues := ((s.ticks.get? tick).getD .default).getValues dir

/-- Numeric part of the relation for one tick side; `r` = realized cancels. -/
structure SideRel (v : TickValues) (q : List Entry) (r : Nat) : Prop where
  ctv : v.ctv = D * sumBy Entry.placed q
  etas : v.etas = D * (sumBy Entry.filled q + r)
  crc : v.crc = D * r
  tal : v.tal = D * sumBy Entry.left q
  fifo : Fifo (sumBy Entry.filled q) q
  ok : ∀ x ∈ q, EntryOk x
  done : Done r (sumBy Entry.filled q) q
  sync_le : v.lastSync ≤ v.etas
  synced : v.lastSync = v.etas → rs (sumBy Entry.filled q) q ≤ r
  bound : v.ctv < U256

theorem SideRel.nil : SideRel .default [] 0 := by
  refine ⟨rfl, rfl, rfl, rfl, trivial, by simp, rfl, le_refl _, fun _ => le_refl _, ?_⟩
  show 0 < U256
  unfold U256; norm_num

theorem SideRel.sum_le {v : TickValues} {q : List Entry} {r : Nat} (h : SideRel v q r) {R : Nat}
    (hR : R ≤ sumBy Entry.gap q) : D * (sumBy Entry.filled q + R) ≤ v.ctv := by
  rw [h.ctv]
  refine Nat.mul_le_mul_left _ ?_
  have h1 := sum_cap_gap h.ok
  have h2 := sum_filled_left h.ok
  omega

/-- Result of syncing one side. -/
structure SyncPost (s : Store) (trees' : TreeSt) (tick : Int) (dir : Dir) (v v' : TickValues) (q : List Entry) (r r' : Nat)
    (rt : RT) : Prop where
  rel : SideRel v' q r'
  rs_le : rs (sumBy Entry.filled q) q ≤ r'
  le : r ≤ r'
  rep : RootRep trees' tick dir rt
  frame : SideFrame s.trees trees' tick dir
  fresh : trees'.Fresh tick
  cnt : trees'.cnt tick ≤ s.trees.cnt tick + 1
  ctv : v'.ctv = v.ctv
  tal : v'.tal = v.tal
  exact : v.lastSync ≠ v.etas → r' = rz (sumBy Entry.filled q) q ∧ v'.lastSync = v.etas
  same : v.lastSync = v.etas → v' = v ∧ trees' = s.trees

theorem syncSide_spec {s : Store} {tick : Int} {dir : Dir} {v : TickValues} {q : List Entry} {r : Nat} {rt : RT}
    (hr : SideRel v q r) (hrep : RootRep s.trees tick dir rt) (hl : rt.leaves = scale (leavesOf 0 q))
    (hf : s.trees.Fresh tick) :
    (¬ s.trees.cnt tick + 1 < U64 ∧ ∃ s', syncSide tick dir v v.etas s = .err .panic s') ∨
    ∃ v' r' trees', syncSide tick dir v v.etas s = .ok v' { s with trees := trees' } ∧
      SyncPost s trees' tick dir v v' q r r' rt := by
  by_cases hls : v.lastSync = v.etas
  · right
    refine ⟨v, r, s.trees, ?_, hr, hr.synced hls, le_refl _, hrep, SideFrame.refl .., hf, Nat.le_succ _, rfl, rfl,
      fun h => absurd hls h, fun _ => ⟨rfl, rfl⟩⟩
    unfold syncSide
    rw [if_pos hls]
    rfl
  by_cases h64 : rt = .empty → s.trees.cnt tick + 1 < U64
  · right
    obtain ⟨root, st1, e1, rep1, frame1, pre1, cnt1, fresh1⟩ := getOrInit_spec hrep hf h64
    have hwalk := walk_leavesOf (P := 0) hr.ok hr.done
    rw [Nat.zero_add] at hwalk
    have hS := sum_cap_gap hr.ok
    have hSl := sum_filled_left hr.ok
    have hrz := rz_le_gap (sumBy Entry.filled q) q
    have hrle := hr.done.le_rz
    have hpre : getPrefixSum st1 root v.etas v.crc = .ok (D * rz (sumBy Entry.filled q) q) := by
      have := pre1 v.etas v.crc
      rw [hl, hr.etas, hr.crc, walkSpec_scale, hwalk.1, sumv_scale, leavesOf_sum, ← Nat.mul_sub, ← Nat.mul_add] at this
      rw [hr.etas, hr.crc]
      refine this (doneOk_scale hwalk.2) ?_ ?_
      · intro y hy
        simp only [scale, List.mem_map] at hy
        obtain ⟨z, hz, rfl⟩ := hy
        have := leavesOf_bounds hr.ok z hz
        rw [← Nat.mul_add]
        refine lt_of_le_of_lt (Nat.mul_le_mul_left D (m := sumBy Entry.placed q) (by omega)) ?_
        rw [← hr.ctv]; exact hr.bound
      · refine lt_of_le_of_lt (Nat.mul_le_mul_left D (m := sumBy Entry.placed q) (by omega)) ?_
        rw [← hr.ctv]; exact hr.bound
    set R := rz (sumBy Entry.filled q) q with hR
    have hle := hr.sum_le (R := R) hrz
    have heq : v.etas + (D * R - D * r) = D * (sumBy Entry.filled q + R) := by
      rw [hr.etas, ← Nat.mul_sub, ← Nat.mul_add]; congr 1; omega
    refine ⟨{ v with etas := D * (sumBy Entry.filled q + R), crc := D * R, lastSync := v.etas }, R, st1, ?_, ?_⟩
    · unfold syncSide
      rw [if_neg hls]
      rw [EM.bind_ok_of (liftTree_ok_of e1)]
      simp only [EM.get_bind, hpre, EM.lift_ok_bind]
      have hsub : checkedSub (D * R) v.crc = .ok (D * R - D * r) := by
        rw [hr.crc]; exact checkedSub_ok (Nat.mul_le_mul_left _ hrle)
      simp only [hsub, EM.lift_ok_bind]
      have hadd : checkedAdd v.etas (D * R - D * r) = .ok (D * (sumBy Entry.filled q + R)) := by
        rw [checkedAdd_ok, heq]; rw [heq]; exact lt_of_le_of_lt hle hr.bound
      simp only [hadd, EM.lift_ok_bind, hle, decide_true, EM.ensure_true_bind, EM.pure_apply]
    · refine ⟨⟨hr.ctv, rfl, rfl, hr.tal, hr.fifo, hr.ok, done_rz _ _, ?_, fun _ => rs_le_rz _ _, hr.bound⟩, rs_le_rz _ _, hrle, rep1,
        frame1, fresh1, cnt1, rfl, rfl, fun _ => ⟨rfl, rfl⟩, fun h => absurd h hls⟩
      show v.etas ≤ D * (sumBy Entry.filled q + R)
      rw [← heq]; exact Nat.le_add_right _ _
  · left
    rw [Classical.not_imp] at h64
    obtain ⟨rfl, h64⟩ := h64
    refine ⟨h64, s, ?_⟩
    unfold syncSide
    rw [if_neg hls]
    refine EM.bind_err_of ?_
    unfold liftTree
    rw [getOrInit_exhausted hrep h64]

/-- The trees of a tick after the root of one side has been initialised if it was missing. -/
def rootInit (st : TreeSt) (tick : Int) (dir : Dir) : TreeSt :=
  match getRootNode st tick dir with
  | .ok _ => st
  | .error _ =>
    { st with
      counter := fun t => if t = tick then some ((st.counter tick).getD 0 + 1) else st.counter t
      roots := fun t d => if t = tick ∧ d = dir then some ((st.counter tick).getD 0 + 1) else st.roots t d }

/-- The trees of a tick after a sync, given the tick's values. -/
def treeSync (tick : Int) (v : Dir → TickValues) (st : TreeSt) : TreeSt :=
  let st1 := if (v .bid).lastSync = (v .bid).etas then st else rootInit st tick .bid
  if (v .ask).lastSync = (v .ask).etas then st1 else rootInit st1 tick .ask

theorem getOrInit_trees {st st' : TreeSt} {tick : Int} {dir : Dir} {n : TreeNode} (h : getOrInitRootNode tick dir st = .ok n st') :
    st' = rootInit st tick dir := by
  unfold getOrInitRootNode at h
  simp only [EM.get_bind] at h
  unfold rootInit
  cases hg : getRootNode st tick dir with
  | ok m =>
    simp only [hg] at h
    rw [EM.pure_eq_ok] at h
    simp only
    exact h.2
  | error e =>
    simp only [hg] at h
    rw [EM.bind_eq_ok] at h
    obtain ⟨id, st1, h1, h⟩ := h
    unfold generateNodeId at h1
    simp only [EM.get_bind] at h1
    rw [EM.bind_eq_ok] at h1
    obtain ⟨c, st2, h2, h1⟩ := h1
    rw [EM.lift_eq_ok, u64Succ_eq_ok] at h2
    obtain ⟨⟨-, rfl⟩, rfl⟩ := h2
    rw [EM.bind_eq_ok] at h1
    obtain ⟨u, st3, h3, h1⟩ := h1
    rw [EM.modify_eq_ok] at h3
    rw [EM.pure_eq_ok] at h1
    obtain ⟨rfl, rfl⟩ := h1
    rw [EM.bind_eq_ok] at h
    obtain ⟨u', st4, h4, h⟩ := h
    unfold TreeNode.saveRoot at h4
    rw [EM.modify_eq_ok] at h4
    rw [EM.pure_eq_ok] at h
    obtain ⟨-, rfl⟩ := h
    rw [h4, h3]
    rfl

theorem syncSide_trees {s s' : Store} {tick : Int} {dir : Dir} {v v' : TickValues} {target : Nat}
    (e : syncSide tick dir v target s = .ok v' s') : s'.trees = if v.lastSync = target then s.trees else rootInit s.trees tick dir := by
  unfold syncSide at e
  split at e
  · rw [if_pos ‹_›]
    rw [EM.pure_eq_ok] at e
    obtain ⟨-, rfl⟩ := e
    rfl
  rw [if_neg ‹_›]
  rw [EM.bind_eq_ok] at e
  obtain ⟨root, s1, h1, e⟩ := e
  rw [liftTree_eq_ok] at h1
  obtain ⟨st1, h1, rfl⟩ := h1
  simp only [EM.get_bind] at e
  rw [EM.bind_eq_ok] at e
  obtain ⟨new, s2, h2, e⟩ := e
  rw [EM.lift_eq_ok] at h2
  obtain ⟨-, rfl⟩ := h2
  rw [EM.bind_eq_ok] at e
  obtain ⟨rl, s3, h3, e⟩ := e
  rw [EM.lift_eq_ok] at h3
  obtain ⟨-, rfl⟩ := h3
  rw [EM.bind_eq_ok] at e
  obtain ⟨et, s4, h4, e⟩ := e
  rw [EM.lift_eq_ok] at h4
  obtain ⟨-, rfl⟩ := h4
  rw [EM.bind_eq_ok] at e
  obtain ⟨u, s5, h5, e⟩ := e
  rw [EM.ensure_eq_ok] at h5
  obtain ⟨-, rfl⟩ := h5
  rw [EM.pure_eq_ok] at e
  obtain ⟨-, rfl⟩ := e
  exact getOrInit_trees h1

/-- Syncing a side keeps every stored tree as it is. -/
theorem syncSide_keeps {s s' : Store} {tick : Int} {dir : Dir} {v v' : TickValues} {target : Nat} {rt0 : RT}
    (e : syncSide tick dir v target s = .ok v' s') (hf : s.trees.Fresh tick) (hrep : RootRep s.trees tick dir rt0) :
    ∀ t d rt, RootRep s.trees t d rt → RootRep s'.trees t d rt := by
  unfold syncSide at e
  split at e
  · rw [EM.pure_eq_ok] at e
    obtain ⟨-, rfl⟩ := e
    exact fun _ _ _ h => h
  rw [EM.bind_eq_ok] at e
  obtain ⟨root, s1, h1, e⟩ := e
  rw [liftTree_eq_ok] at h1
  obtain ⟨st1, h1, rfl⟩ := h1
  simp only [EM.get_bind] at e
  rw [EM.bind_eq_ok] at e
  obtain ⟨new, s2, h2, e⟩ := e
  rw [EM.lift_eq_ok] at h2
  obtain ⟨-, rfl⟩ := h2
  rw [EM.bind_eq_ok] at e
  obtain ⟨rl, s3, h3, e⟩ := e
  rw [EM.lift_eq_ok] at h3
  obtain ⟨-, rfl⟩ := h3
  rw [EM.bind_eq_ok] at e
  obtain ⟨et, s4, h4, e⟩ := e
  rw [EM.lift_eq_ok] at h4
  obtain ⟨-, rfl⟩ := h4
  rw [EM.bind_eq_ok] at e
  obtain ⟨u, s5, h5, e⟩ := e
  rw [EM.ensure_eq_ok] at h5
  obtain ⟨-, rfl⟩ := h5
  rw [EM.pure_eq_ok] at e
  obtain ⟨-, rfl⟩ := e
  have h64 : ∀ rt, RootRep s.trees tick dir rt → rt = .empty → s.trees.cnt tick + 1 < U64 := by
    rintro rt hr rfl
    by_contra hc
    rw [getOrInit_exhausted hr hc] at h1
    simp at h1
  intro t d rt hr
  show RootRep st1 t d rt
  by_cases htd : t ≠ tick ∨ d ≠ dir
  · obtain ⟨root', st1', e1, -, f1, -⟩ := getOrInit_spec hrep hf (h64 rt0 hrep)
    rw [h1] at e1
    simp only [Res.ok.injEq] at e1
    obtain ⟨rfl, rfl⟩ := e1
    exact hr.frame f1 htd
  · rw [not_or, not_not, not_not] at htd
    obtain ⟨rfl, rfl⟩ := htd
    obtain ⟨root', st1', e1, r1, -⟩ := getOrInit_spec hr hf (h64 rt hr)
    rw [h1] at e1
    simp only [Res.ok.injEq] at e1
    obtain ⟨rfl, rfl⟩ := e1
    exact r1

/-! ### The relation -/

/-- The stored order of a live entry that has `P` placed units before it in its queue. -/
def orderOf (tick : Int) (dir : Dir) (P : Nat) (x : Entry) : LimitOrder :=
  { tickId := tick, orderId := x.id, dir, owner := x.owner, quantity := x.placed - x.claimed, etas := D * (P + x.claimed),
    claimBounty := x.bounty, placedQuantity := x.placed, placedAt := x.placedAt }

/-- One tick side of the store represents the queue `q`. -/
def SideOk (s : Store) (tick : Int) (dir : Dir) (q : List Entry) : Prop :=
  ∃ r rt, SideRel (tv s tick dir) q r ∧ RootRep s.trees tick dir rt ∧ rt.leaves = scale (leavesOf 0 q)

/-- The stored orders of a tick are the live entries of its queues. -/
def OrdersOk (s : Store) (b : Book) : Prop :=
  ∀ tick id o, s.orders.get? (tick, id) = some o ↔
    ∃ dir p x q, b tick dir = p ++ x :: q ∧ x.Live ∧ x.id = id ∧ o = orderOf tick dir (sumBy Entry.placed p) x

structure IdsOk (s : Store) (b : Book) : Prop where
  inc : ∀ t d, (b t d).Pairwise (fun x y => x.id < y.id)
  lt : ∀ t d x, x ∈ b t d → x.id < s.orderId.getD 0
  disj : ∀ t d t' d' x x', x ∈ b t d → x' ∈ b t' d' → x.id = x'.id → t = t' ∧ d = d'

structure ConfOk (s : Store) : Prop where
  fee : getMakerFee s ≤ MAX_MAKER_FEE_PERCENTAGE
  recipient : s.makerFeeRecipient ≠ none
  moderator : s.moderator ≠ none

/-- The book's pointers and denoms. -/
structure PtrOk (ob : Orderbook) (b : Book) : Prop where
  denoms : ob.quoteDenom ≠ ob.baseDenom
  bid : ∀ t, sumBy Entry.left (b t .bid) ≠ 0 → t ≤ ob.nextBidTick
  ask : ∀ t, sumBy Entry.left (b t .ask) ≠ 0 → ob.nextAskTick ≤ t
  bidLo : MIN_TICK ≤ ob.nextBidTick
  bidHi : ob.nextBidTick ≤ MAX_TICK
  askLo : MIN_TICK ≤ ob.nextAskTick
  askHi : ob.nextAskTick ≤ MAX_TICK

/-- Total tick liquidity of a direction (atomics). -/
def sumTal (s : Store) (d : Dir) : Nat := SMap.total (fun _ ts => (ts.getValues d).tal) s.ticks

structure Rel (s : Store) (b : Book) : Prop where
  sides : ∀ t d, SideOk s t d (b t d)
  fresh : ∀ t, s.trees.Fresh t
  known : ∀ t, s.ticks.get? t ≠ none ↔ (b t .bid ≠ [] ∨ b t .ask ≠ [])
  ticksSorted : SMap.Sorted s.ticks
  ordersSorted : SMap.Sorted s.orders
  orders : OrdersOk s b
  ids : IdsOk s b
  range : ∀ t d, b t d ≠ [] → MIN_TICK ≤ t ∧ t ≤ MAX_TICK
  bounty : ∀ t d, ∀ x ∈ b t d, bountyOk x.bounty = true
  liq : ∀ d, getDirectionalLiquidity s d = sumTal s d
  liqLt : ∀ d, getDirectionalLiquidity s d < U256
  conf : ConfOk s
  ptr : ∃ ob, s.orderbook = some ob ∧ PtrOk ob b

theorem Rel.known_of_ne {s : Store} {b : Book} (h : Rel s b) {t : Int} {d : Dir} (hq : b t d ≠ []) :
    ∃ ts, s.ticks.get? t = some ts := by
  rw [← Option.ne_none_iff_exists']
  rw [h.known]
  cases d
  · exact Or.inl hq
  · exact Or.inr hq

theorem tv_of_get {s : Store} {t : Int} {ts : TickState} (h : s.ticks.get? t = some ts) (d : Dir) :
    tv s t d = ts.getValues d := by simp [tv, h]

theorem tv_congr {s s' : Store} {t : Int} (h : s'.ticks.get? t = s.ticks.get? t) (d : Dir) : tv s' t d = tv s t d := by
  simp [tv, h]

@[simp] theorem getValues_setValues_self (ts : TickState) (d : Dir) (v : TickValues) :
    (ts.setValues d v).getValues d = v := by
  cases d <;> simp [TickState.setValues, TickState.getValues]
theorem getValues_setValues_ne {d d' : Dir} (ts : TickState) (v : TickValues) (h : d' ≠ d) :
    (ts.setValues d v).getValues d' = ts.getValues d' := by
  cases d <;> cases d' <;> simp_all [TickState.setValues, TickState.getValues]
theorem getValues_setValues (d d' : Dir) (ts : TickState) (v : TickValues) :
    (ts.setValues d v).getValues d' = if d' = d then v else ts.getValues d' := by
  split
  · subst_vars; simp
  · rw [getValues_setValues_ne _ _ ‹_›]

/-- Only the trees of one tick change. -/
structure TickFrame (st st' : TreeSt) (tick : Int) : Prop where
  nodes : ∀ t, t ≠ tick → ∀ q, st'.nodes t q = st.nodes t q
  counter : ∀ t, t ≠ tick → st'.counter t = st.counter t
  roots : ∀ t d, t ≠ tick → st'.roots t d = st.roots t d

theorem SideFrame.tick {st st' : TreeSt} {tick : Int} {dir : Dir} (f : SideFrame st st' tick dir) : TickFrame st st' tick :=
  ⟨f.nodes, f.counter, fun t d h => f.roots t d (Or.inl h)⟩
theorem TickFrame.refl (st : TreeSt) (tick : Int) : TickFrame st st tick :=
  ⟨fun _ _ _ => rfl, fun _ _ => rfl, fun _ _ _ => rfl⟩
theorem TickFrame.trans {st st1 st2 : TreeSt} {tick : Int} (f : TickFrame st st1 tick) (g : TickFrame st1 st2 tick) :
    TickFrame st st2 tick :=
  ⟨fun t h q => by rw [g.nodes t h, f.nodes t h], fun t h => by rw [g.counter t h, f.counter t h],
    fun t d h => by rw [g.roots t d h, f.roots t d h]⟩

theorem RootRep.tickFrame {st st' : TreeSt} {tick t : Int} {d : Dir} {rt : RT} (h : RootRep st t d rt)
    (f : TickFrame st st' tick) (hne : t ≠ tick) : RootRep st' t d rt := by
  have hn : st'.nodes t = st.nodes t := funext (f.nodes t hne)
  have hc : st'.cnt t = st.cnt t := by simp [TreeSt.cnt, f.counter t hne]
  have hr := f.roots t d hne
  cases rt <;> simp only [RootRep, hn, hc, hr] at * <;> exact h

theorem TreeSt.Fresh.tickFrame {st st' : TreeSt} {tick t : Int} (h : st.Fresh t) (f : TickFrame st st' tick) (hne : t ≠ tick) :
    st'.Fresh t := by
  intro q hq
  rw [f.nodes t hne]
  refine h q ?_
  simpa [TreeSt.cnt, f.counter t hne] using hq

/-- A tick side whose values and trees did not change. -/
theorem SideOk.frame {s s' : Store} {tick t : Int} {d : Dir} {q : List Entry} (h : SideOk s t d q)
    (hne : t ≠ tick) (ht : s'.ticks.get? t = s.ticks.get? t) (f : TickFrame s.trees s'.trees tick) : SideOk s' t d q := by
  obtain ⟨r, rt, h1, h2, h3⟩ := h
  exact ⟨r, rt, by rw [tv_congr ht]; exact h1, h2.tickFrame f hne, h3⟩

theorem sumTal_insert {s : Store} (hs : SMap.Sorted s.ticks) (tick : Int) (ts : TickState) (d : Dir) :
    SMap.total (fun _ ts => (ts.getValues d).tal) (s.ticks.insert tick ts) + (tv s tick d).tal =
      sumTal s d + (ts.getValues d).tal := by
  have := SMap.total_insert hs (fun _ ts => (ts.getValues d).tal) tick ts
  unfold sumTal tv
  cases hg : s.ticks.get? tick with
  | none =>
    simp only [hg, Option.map_none, Option.getD_none] at this ⊢
    have h0 : (TickState.default.getValues d).tal = 0 := by cases d <;> rfl
    omega
  | some x => simpa [hg] using this

/-- What a sync of `tick` does. -/
structure Synced (s s' : Store) (b : Book) (tick : Int) : Prop where
  rel : Rel s' b
  store : s' = { s with ticks := s'.ticks, trees := s'.trees }
  ticks_ne : ∀ t, t ≠ tick → s'.ticks.get? t = s.ticks.get? t
  known : s'.ticks.get? tick ≠ none
  frame : TickFrame s.trees s'.trees tick
  cnt : s'.trees.cnt tick ≤ s.trees.cnt tick + 2
  sides : ∀ d, ∃ r r', SideRel (tv s tick d) (b tick d) r ∧ SideRel (tv s' tick d) (b tick d) r' ∧
    rs (sumBy Entry.filled (b tick d)) (b tick d) ≤ r' ∧ r ≤ r' ∧
    ((tv s tick d).lastSync ≠ (tv s tick d).etas →
      r' = rz (sumBy Entry.filled (b tick d)) (b tick d) ∧ (tv s' tick d).lastSync = (tv s tick d).etas) ∧
    ((tv s tick d).lastSync = (tv s tick d).etas → tv s' tick d = tv s tick d)
  keep : ∀ t d rt, RootRep s.trees t d rt → RootRep s'.trees t d rt
  trees : s'.trees = treeSync tick (tv s tick) s.trees

theorem syncTick_spec {s : Store} {b : Book} (h : Rel s b) {tick : Int} {ts : TickState}
    (hts : s.ticks.get? tick = some ts) :
    (¬ s.trees.cnt tick + 2 < U64 ∧
      ∃ s', syncTick tick (ts.getValues .bid).etas (ts.getValues .ask).etas s = .err .panic s') ∨
    ∃ s', syncTick tick (ts.getValues .bid).etas (ts.getValues .ask).etas s = .ok () s' ∧ Synced s s' b tick := by
  have hvb := tv_of_get hts .bid
  have hva := tv_of_get hts .ask
  obtain ⟨r1, rt1, a1, a2, a3⟩ := h.sides tick .bid
  obtain ⟨r2, rt2, c1, c2, c3⟩ := h.sides tick .ask
  rw [hvb] at a1
  rw [hva] at c1
  unfold syncTick
  simp only [EM.get_bind, hts]
  by_cases hboth : (ts.getValues .bid).lastSync = (ts.getValues .bid).etas ∧ (ts.getValues .ask).lastSync = (ts.getValues .ask).etas
  · right
    rw [if_pos hboth]
    refine ⟨s, rfl, h, rfl, fun _ _ => rfl, by simp [hts], TickFrame.refl .., by omega, ?_, fun _ _ _ h => h, by
      unfold treeSync; rw [hvb, hva, if_pos hboth.1, if_pos hboth.2]⟩
    intro d
    cases d
    · rw [hvb]
      exact ⟨r1, r1, a1, a1, a1.synced hboth.1, le_refl _, fun hc => absurd hboth.1 hc, fun _ => rfl⟩
    · rw [hva]
      exact ⟨r2, r2, c1, c1, c1.synced hboth.2, le_refl _, fun hc => absurd hboth.2 hc, fun _ => rfl⟩
  rw [if_neg hboth]
  rcases syncSide_spec (s := s) a1 a2 a3 (h.fresh tick) with ⟨hx, s', hs'⟩ | ⟨v1, r1', tr1, e1, p1⟩
  · left
    refine ⟨by omega, s', ?_⟩
    rw [EM.bind_err_of hs']
  rw [EM.bind_ok_of e1]
  have c2' : RootRep tr1 tick .ask rt2 := c2.frame p1.frame (Or.inr (by simp))
  rcases syncSide_spec (s := { s with trees := tr1 }) c1 c2' c3 p1.fresh with ⟨hx, s', hs'⟩ | ⟨v2, r2', tr2, e2, p2⟩
  · left
    have hcn := p1.cnt
    refine ⟨by simp only at hx; omega, s', ?_⟩
    rw [EM.bind_err_of hs']
  rw [EM.bind_ok_of e2]
  right
  set ts' := (ts.setValues .bid v1).setValues .ask v2 with hts'
  have hb' : ts'.getValues .bid = v1 := by rw [hts', getValues_setValues_ne _ _ (by simp), getValues_setValues_self]
  have ha' : ts'.getValues .ask = v2 := by rw [hts', getValues_setValues_self]
  have htf : TickFrame s.trees tr2 tick := p1.frame.tick.trans p2.frame.tick
  have a2' : RootRep tr2 tick .bid rt1 := p1.rep.frame p2.frame (Or.inr (by simp))
  have c2'' : RootRep tr2 tick .ask rt2 := p2.rep
  set s' : Store := { s with trees := tr2, ticks := s.ticks.insert tick ts' } with hs'
  have hget : s'.ticks.get? tick = some ts' := by simp [hs']
  have hgetne : ∀ t, t ≠ tick → s'.ticks.get? t = s.ticks.get? t := fun t ht => SMap.get?_insert_ne _ _ ht
  have htvb : tv s' tick .bid = v1 := by rw [tv_of_get hget, hb']
  have htva : tv s' tick .ask = v2 := by rw [tv_of_get hget, ha']
  have hcnt : tr2.cnt tick ≤ s.trees.cnt tick + 2 := by
    have h1 := p1.cnt; have h2 := p2.cnt
    simp only at h2; omega
  have htal : ∀ d, (ts'.getValues d).tal = (tv s tick d).tal := by
    intro d; cases d
    · rw [hb', p1.tal, hvb]
    · rw [ha', p2.tal, hva]
  have htr : s'.trees = treeSync tick (tv s tick) s.trees := by
    have t1 := syncSide_trees e1
    have t2 := syncSide_trees e2
    simp only at t1 t2
    unfold treeSync
    simp only [hvb, hva]
    rw [← t1]
    exact t2
  refine ⟨s', rfl, ?_, rfl, hgetne, by simp [hget], htf, hcnt, ?_, ?_, htr⟩
  rotate_left 2
  · intro t d rt hrt
    exact syncSide_keeps e2 p1.fresh c2' t d rt (syncSide_keeps e1 (h.fresh tick) a2 t d rt hrt)
  · refine ⟨?_, ?_, ?_, h.ticksSorted.insert _ _, h.ordersSorted, h.orders, ⟨h.ids.inc, h.ids.lt, h.ids.disj⟩, h.range,
      h.bounty, ?_, h.liqLt, ⟨h.conf.fee, h.conf.recipient, h.conf.moderator⟩, h.ptr⟩
    · intro t d
      by_cases ht : t = tick
      · subst ht
        cases d
        · exact ⟨r1', rt1, by rw [htvb]; exact p1.rel, a2', a3⟩
        · exact ⟨r2', rt2, by rw [htva]; exact p2.rel, c2'', c3⟩
      · exact (h.sides t d).frame ht (hgetne t ht) htf
    · intro t
      by_cases ht : t = tick
      · subst ht; exact p2.fresh
      · exact (h.fresh t).tickFrame htf ht
    · intro t
      by_cases ht : t = tick
      · subst ht
        have := h.known t
        rw [hts] at this
        rw [hget]
        simpa using this
      · rw [hgetne t ht]; exact h.known t
    · intro d
      have h1 := h.liq d
      have h2 := sumTal_insert h.ticksSorted tick ts' d
      rw [htal d] at h2
      show getDirectionalLiquidity s d = SMap.total _ (s.ticks.insert tick ts')
      omega
  · intro d
    cases d
    · rw [htvb, hvb]
      exact ⟨r1, r1', a1, p1.rel, p1.rs_le, p1.le, p1.exact, fun hh => (p1.same hh).1⟩
    · rw [htva, hva]
      exact ⟨r2, r2', c1, p2.rel, p2.rs_le, p2.le, p2.exact, fun hh => (p2.same hh).1⟩

end OB
