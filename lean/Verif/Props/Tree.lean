import Verif.Proofs.TreeObs
import Verif.Proofs.AuthObs
import Verif.Proofs.Demo
/- C30-C33: the sumtree of cancelled orders. -/
namespace OB
open Spec

/-! ### C30 -/

/-- C30: on every valid tree, for every target and every realized prefix `done` of its leaves (each ending at or before the target), the
prefix sum is the realized total plus what realizing the remaining leaves one at a time gives. -/
theorem C30_walk_is_sequential {st : TreeSt} {tick : Int} {dir : Dir} {h : Nat} {done rest : List (Nat × Nat)}
    (hv : ValidTree st tick dir h (done ++ rest)) {x : Nat} (hd : ∀ y ∈ done, y.1 + y.2 ≤ x)
    (hle : ∀ y ∈ done ++ rest, y.1 + y.2 < 2 ^ 256) (hov : x + totalOf rest < 2 ^ 256) (hne : done ++ rest ≠ []) :
    ∃ root, getRootNode st tick dir = .ok root ∧ getPrefixSum st root x (totalOf done) = .ok (totalOf done + realize x rest) := by
  obtain ⟨rt, h1, h2, h3⟩ := ValidTree.rootRep hv
  have hpos := h1.sorted.1
  rw [h3] at hpos
  obtain ⟨root, h4, -, h5⟩ := h1.getRoot (by rw [h3]; exact hne)
  refine ⟨root, h4, ?_⟩
  rw [h3] at h5
  rw [totalOf_eq, h5 x (sumv done) (doneOk_done hpos hd) hle ?_, walkSpec_done hpos]
  rw [sumv_append, Nat.add_sub_cancel_left]
  exact hov

/-- C30: the same through the way syncs reach the root (creating it on a side without cancellations). -/
theorem C30_walk_from_init {st st1 : TreeSt} {tick : Int} {dir : Dir} {h : Nat} {done rest : List (Nat × Nat)}
    (hv : ValidTree st tick dir h (done ++ rest)) {x : Nat} (hd : ∀ y ∈ done, y.1 + y.2 ≤ x)
    (hle : ∀ y ∈ done ++ rest, y.1 + y.2 < 2 ^ 256) (hov : x + totalOf rest < 2 ^ 256) {root : TreeNode}
    (hr : getOrInitRootNode tick dir st = .ok root st1) :
    getPrefixSum st1 root x (totalOf done) = .ok (totalOf done + realize x rest) := by
  by_cases hne : done ++ rest = []
  · obtain ⟨rfl, rfl⟩ := List.append_eq_nil_iff.1 hne
    obtain ⟨rt, h1, h2, h3⟩ := ValidTree.rootRep hv
    obtain rfl := RT.leaves_eq_nil h3
    by_cases h64 : st.cnt tick + 1 < U64
    · rw [getOrInit_fresh h1 h64] at hr
      simp only [Res.ok.injEq] at hr
      obtain ⟨rfl, rfl⟩ := hr
      exact prefixOk_fresh _ _ _ _ x 0 (by simp [DoneOk]) (by simp) hov
    · rw [getOrInit_exhausted h1 h64] at hr; simp at hr
  · obtain ⟨root', h1, h2⟩ := C30_walk_is_sequential hv hd hle hov hne
    unfold getOrInitRootNode at hr
    simp only [EM.get_bind, h1] at hr
    rw [EM.pure_eq_ok] at hr
    obtain ⟨rfl, rfl⟩ := hr
    exact h2

/-! ### C31 -/

/-- C31: in every reachable state the sumtree stored for every tick side is a valid balanced search tree, and its leaves are exactly the
cancelled orders of that side, in queue order, each at its place in the queue with what was left of it. No node is stored under an id that
was not generated yet, and the trees of the two sides of a tick have no node in common. -/
theorem C31_stored_trees_valid {ch : Chain} {n : Nat} {w : World} {b : Book} (h : Traced ch n w b) (tick : Int) :
    (∀ dir, ∃ height, ValidTree w.store.trees tick dir height (cancelledLeaves 0 (b tick dir))) ∧ Unspoiled w.store.trees tick ∧
    (∀ h1 L1 ks1 h2 L2 ks2, ValidOn w.store.trees tick .bid h1 L1 ks1 → ValidOn w.store.trees tick .ask h2 L2 ks2 → ∀ k ∈ ks1, k ∉ ks2) := by
  refine ⟨fun dir => SideOk.valid (h.rel.sides tick dir), h.rel.fresh tick, ?_⟩
  intro h1 L1 ks1 h2 L2 ks2 v1 v2 k hk1 hk2
  have e1 := ValidOn.dir v1 k hk1
  have e2 := ValidOn.dir v2 k hk2
  obtain ⟨n1, g1, g2⟩ := e1
  obtain ⟨n2, g3, g4⟩ := e2
  rw [g1] at g3
  obtain rfl := Option.some.inj g3
  rw [g2] at g4; simp at g4

/-- C31: the leaves of a valid tree are in order and do not overlap; so the list of leaves of a tree is determined by its contents. -/
theorem C31_leaves_sorted {st : TreeSt} {tick : Int} {dir : Dir} {h : Nat} {L : List (Nat × Nat)} (hv : ValidTree st tick dir h L) :
    (∀ x ∈ L, 0 < x.2) ∧ L.Pairwise (fun a b => a.1 + a.2 ≤ b.1) := by
  obtain ⟨rt, h1, -, rfl⟩ := ValidTree.rootRep hv
  exact h1.sorted

/-- C31: a tick side has only one valid tree: height, leaves and node ids are determined by the storage. -/
theorem C31_tree_unique {st : TreeSt} {tick : Int} {dir : Dir} {h h' : Nat} {L L' : List (Nat × Nat)} {ks ks' : List Nat}
    (hv : ValidOn st tick dir h L ks) (hv' : ValidOn st tick dir h' L' ks') : h = h' ∧ L = L' ∧ ks = ks' :=
  ValidOn.unique hv hv'

/-- C31: the insertion that a cancel performs, on any valid tree (not only reachable ones) and for any interval not overlapping its
leaves: it succeeds, the result is a valid tree with exactly this leaf added, and the nodes of other ticks, the other side's tree and root
are untouched. -/
theorem C31_insert_keeps_valid {st : TreeSt} {tick : Int} {dir : Dir} {h : Nat} {L : List (Nat × Nat)} (hv : ValidTree st tick dir h L)
    (hu : Unspoiled st tick) (hc : (st.counter tick).getD 0 + 2 < 2 ^ 64) {e v : Nat} (hpos : 0 < v) (hd : Apart e v L)
    (hle : ∀ y ∈ L, y.1 + y.2 < 2 ^ 256) (hh : e + v < 2 ^ 256) (hs : totalOf L + v < 2 ^ 256) :
    ∃ st' h' L', (∀ fuel, 1 ≤ fuel → h ≤ fuel + 1 → insertCancel tick dir e v fuel st = .ok () st') ∧
      L'.Perm ((e, v) :: L) ∧ ValidTree st' tick dir h' L' ∧ Unspoiled st' tick ∧
      (∀ h2 L2 ks2, ValidOn st tick dir.opposite h2 L2 ks2 → ValidOn st' tick dir.opposite h2 L2 ks2) ∧
      (∀ t, t ≠ tick → st'.nodes t = st.nodes t ∧ st'.counter t = st.counter t ∧ st'.roots t = st.roots t) := by
  obtain ⟨st', h', L', g1, g2, g3, g4, -, g6⟩ := insertCancel_spec hv hu hc hpos hd hle hh hs
  refine ⟨st', h', L', g6, g1, g2, g3, ?_, ?_⟩
  · intro h2 L2 ks2 hv2
    refine validOn_of_keep (fun rt hrt => hrt.frame g4 (Or.inr ?_)) hv2
    cases dir <;> simp [Dir.opposite]
  · intro t ht
    exact ⟨funext (g4.nodes t ht), g4.counter t ht, funext fun d => g4.roots t d (Or.inl ht)⟩

/-! ### C32 -/

/-- C32: in every reachable state the tree of a side with `c` cancelled orders has a height of at most `2 log2 c + 2`. -/
theorem C32_height_logarithmic {ch : Chain} {n : Nat} {w : World} {b : Book} (h : Traced ch n w b) (tick : Int) (dir : Dir) :
    ∃ height, ValidTree w.store.trees tick dir height (cancelledLeaves 0 (b tick dir)) ∧
      height ≤ 2 * Nat.log2 ((b tick dir).filter Entry.cancelled).length + 2 := by
  obtain ⟨height, hv⟩ := SideOk.valid (h.rel.sides tick dir)
  refine ⟨height, hv, ?_⟩
  have := ValidTree.height_le hv
  rwa [cancelledLeaves_length] at this

/-- C32: on every valid tree the prefix-sum walk never recurses deeper than the height, whatever its arguments: cutting the recursion off
at depth `h` does not change the result. -/
theorem C32_walk_depth {st : TreeSt} {tick : Int} {dir : Dir} {h : Nat} {L : List (Nat × Nat)} (hv : ValidTree st tick dir h L)
    {root : TreeNode} (hr : getRootNode st tick dir = .ok root) (x R : Nat) :
    prefixSumWalk st h root root.getValue x R ≠ .error .diverge ∧ ∀ fuel, h ≤ fuel →
      prefixSumWalk st fuel root root.getValue x R = prefixSumWalk st h root root.getValue x R := by
  obtain ⟨rt, h1, rfl, rfl⟩ := ValidTree.rootRep hv
  have hd := (h1.walk_depth' hr x R).1
  exact ⟨hd, fun fuel hf => walk_fuel hf hd⟩

/-- C32: on every valid tree the insertion recurses at most `max 1 (h - 1)` deep: with the recursion cut off there it still succeeds, with
the same result as the uncut one. -/
theorem C32_insert_depth {st : TreeSt} {tick : Int} {dir : Dir} {h : Nat} {L : List (Nat × Nat)} (hv : ValidTree st tick dir h L)
    (hu : Unspoiled st tick) (hc : (st.counter tick).getD 0 + 2 < 2 ^ 64) {e v : Nat} (hpos : 0 < v) (hd : Apart e v L)
    (hle : ∀ y ∈ L, y.1 + y.2 < 2 ^ 256) (hh : e + v < 2 ^ 256) (hs : totalOf L + v < 2 ^ 256) :
    ∃ st', ∀ fuel, max 1 (h - 1) ≤ fuel → insertCancel tick dir e v fuel st = .ok () st' := by
  obtain ⟨st', h', L', -, -, -, -, -, g6⟩ := insertCancel_spec hv hu hc hpos hd hle hh hs
  exact ⟨st', fun fuel hf => g6 fuel (by omega) (by omega)⟩

/-! ### C33 -/

/-- C33: in every reachable state that has room, these are all the ways a cancel can fail; none of them comes from the tree (insertion errors,
wrong node types, missing children or nodes), from an arithmetic overflow or from the refund transfer. -/
theorem C33_cancel_errors {ch : Chain} {n : Nat} {w : World} {b : Book} (h : Traced ch n w b) (hn : w.HasRoom) {sender : Addr}
    {funds : List Coin} {time : Nat} {tick : Int} {id : Nat} {e : Err}
    (hs : step ch w (.execute sender funds time (.cancelLimit tick id)) = .error e) :
    (e = .std ∧ sender = ch.contract) ∨ (e = .decode ∧ (ExecuteMsg.cancelLimit tick id).wellTyped = false) ∨ (e = .bank ∧ funds ≠ []) ∨
    (e = .inactive ∧ isActive w.store = false) ∨ (e = .payment .nonPayable ∧ funds ≠ []) ∨
    (e = .orderNotFound tick id ∧ w.store.orders.get? (tick, id) = none) ∨
    (e = .unauthorized ∧ ∃ o, w.store.orders.get? (tick, id) = some o ∧ sender ≠ o.owner) ∨
    (e = .cancelFilledOrder ∧ ∃ dir, ∃ x ∈ b tick dir, x.id = id ∧ x.Live ∧ x.owner = sender ∧ x.claimed < x.filled) := by
  obtain ⟨ob, hob, -⟩ := h.rel.ptr
  rcases step_execute_error hs with ⟨h1, rfl⟩ | ⟨h1, rfl⟩ | ⟨h1, rfl⟩ | hx
  · exact Or.inl ⟨rfl, h1⟩
  · exact Or.inr (Or.inl ⟨rfl, h1⟩)
  · exact Or.inr (Or.inr (Or.inl ⟨rfl, h1⟩))
  right; right; right
  cases ha : isActive w.store with
  | false =>
    rw [execute_inactive ha (by simp)] at hx
    rcases hx with ⟨s', hx⟩ | ⟨i, rfl, r, s', hx⟩
    · simp only [Res.err.injEq] at hx; exact Or.inl ⟨hx.1.symm, rfl⟩
    · simp at hx
  | true =>
    right
    have hex : execute (ch.env time) ⟨sender, funds⟩ (.cancelLimit tick id) w.store = cancelLimit (ch.env time) ⟨sender, funds⟩ tick id w.store :=
      execute_active ha
    rw [hex] at hx
    by_cases hf : funds = []
    swap
    · rw [cancelLimit_payable (info := ⟨sender, funds⟩) hf] at hx
      rcases hx with ⟨s', hx⟩ | ⟨i, rfl, r, s', hx⟩
      · simp only [Res.err.injEq] at hx; exact Or.inl ⟨hx.1.symm, hf⟩
      · simp at hx
    subst hf
    right
    rcases h.rel.lookup tick id with ⟨h1, -⟩ | ⟨dir, p, x, q, h1, h2, rfl, h4⟩
    · rw [cancelLimit_none h1] at hx
      rcases hx with ⟨s', hx⟩ | ⟨i, rfl, r, s', hx⟩
      · simp only [Res.err.injEq] at hx; exact Or.inl ⟨hx.1.symm, h1⟩
      · simp at hx
    right
    by_cases ho : sender = x.owner
    swap
    · rw [cancelLimit_unauthorized h4 ho] at hx
      rcases hx with ⟨s', hx⟩ | ⟨i, rfl, r, s', hx⟩
      · simp only [Res.err.injEq] at hx; exact Or.inl ⟨hx.1.symm, _, h4, ho⟩
      · simp at hx
    subst ho
    right
    have hxm : x ∈ b tick dir := by rw [h1]; simp
    by_cases hc : x.filled = x.claimed
    · obtain ⟨w', resp, hok⟩ := h.cancel_step hn.few ha hxm (h.owner_ne _ _ _ hxm) h2 hc time
      rw [hok] at hs; simp at hs
    · rcases cancelLimit_some h.rel (ch.env time) h1 h2 hob with ⟨h5, -⟩ | ⟨s1, -, ⟨h6, h7⟩ | ⟨h6, -⟩⟩
      · have := hn.room.cnt_lt tick; omega
      · rw [h7] at hx
        rcases hx with ⟨s', hx⟩ | ⟨i, rfl, r, s', hx⟩
        · simp only [Res.err.injEq] at hx; exact ⟨hx.1.symm, dir, x, hxm, rfl, h2, rfl, h6⟩
        · simp at hx
      · exact absurd h6 hc

/-! ### Non-vacuity: a book with nine orders of one side cancelled from the oldest on (a plain search tree would degenerate to a list). -/

namespace Demo

/-- Ten bids at tick 0, of which the first nine are cancelled in order; an ask at the same tick is cancelled in between. -/
def manyCancels : List Op :=
  (List.range 10).map (fun _ => place "alice" 0 .bid 100 none) ++ [place "bob" 0 .ask 7 none, cancel "bob" 0 10] ++
  (List.range 9).map (fun i => cancel "alice" 0 i)

end Demo

example : cancelledLeaves 0 ((Demo.trace Demo.manyCancels).2 0 .bid) = (List.range 9).map fun i => (i * 100 * 10 ^ 18, 100 * 10 ^ 18) := by
  decide +kernel

/-- The hypotheses of C30 hold for the demo: two of nine cancellations are realized, the position has reached the third; walking realizes
all the others. -/
example : ∃ root, getRootNode (Demo.trace Demo.manyCancels).1.store.trees 0 .bid = .ok root ∧
    getPrefixSum (Demo.trace Demo.manyCancels).1.store.trees root (200 * 10 ^ 18) (200 * 10 ^ 18) = .ok (900 * 10 ^ 18) := by
  obtain ⟨height, hv⟩ := (C31_stored_trees_valid (Demo.traced Demo.manyCancels) 0).1 .bid
  have e : cancelledLeaves 0 ((Demo.trace Demo.manyCancels).2 0 .bid) =
    ([0, 1].map fun i => (i * 100 * 10 ^ 18, 100 * 10 ^ 18)) ++ [2, 3, 4, 5, 6, 7, 8].map fun i => (i * 100 * 10 ^ 18, 100 * 10 ^ 18) := by
    decide +kernel
  rw [e] at hv
  exact C30_walk_is_sequential (x := 200 * 10 ^ 18) hv (by decide +kernel) (by decide +kernel) (by decide +kernel) (by decide +kernel)

/-- Its height is 5, and the walk indeed needs a recursion (the result is not found at the root alone). -/
example : ((getRootNode (Demo.trace Demo.manyCancels).1.store.trees 0 .bid).toOption.map TreeNode.getWeight) = some 5 := by decide +kernel

example : ((getRootNode (Demo.trace Demo.manyCancels).1.store.trees 0 .bid).toOption.map fun root =>
    ((prefixSumWalk (Demo.trace Demo.manyCancels).1.store.trees 1 root root.getValue (150 * 10 ^ 18) (100 * 10 ^ 18)).toOption,
     (prefixSumWalk (Demo.trace Demo.manyCancels).1.store.trees 5 root root.getValue (150 * 10 ^ 18) (100 * 10 ^ 18)).toOption)) =
    some (none, some (900 * 10 ^ 18)) := by decide +kernel

/-- Unspoiled storage with room for another cancellation, and an interval apart from all leaves (order 9). -/
example : Unspoiled (Demo.trace Demo.manyCancels).1.store.trees 0 ∧
    ((Demo.trace Demo.manyCancels).1.store.trees.counter 0).getD 0 + 2 < 2 ^ 64 ∧
    Apart (900 * 10 ^ 18) (100 * 10 ^ 18) (cancelledLeaves 0 ((Demo.trace Demo.manyCancels).2 0 .bid)) := by
  refine ⟨(C31_stored_trees_valid (Demo.traced Demo.manyCancels) 0).2.1, by decide +kernel, ?_⟩
  unfold Apart
  decide +kernel

/-- Cancels do fail: order 3 of the demo has an unclaimed fill; order 0 is gone; zed owns nothing. -/
example : (step Demo.ch (Demo.trace Demo.history).1 (Demo.cancel "dave" 0 3)).toOption.isNone ∧
    (step Demo.ch (Demo.trace Demo.history).1 (Demo.cancel "alice" 0 0)).toOption.isNone ∧
    (step Demo.ch (Demo.trace Demo.history).1 (Demo.cancel "zed" (-5000000) 4)).toOption.isNone := by decide +kernel

end OB
