import Verif.Proofs.Octets
import Verif.Proofs.RawQuery
/- Iterations over the bytes give what iterations over the raw storage give. -/
namespace OB
open Spec

theorem get?_mapk {V W : Type} {K : Type} [Key K] [DecidableEq K] (m : SMap K V) (f : K → W) (x : K) :
    SMap.get? (m.map fun e => (e.1, f e.1)) x = (SMap.get? m x).map fun _ => f x := by
  induction m with
  | nil => rfl
  | cons e m ih =>
    obtain ⟨k, v⟩ := e
    simp only [List.map_cons, SMap.get?]
    by_cases h : x = k
    · subst h; simp
    · rw [if_neg h, if_neg h, ih]

theorem range_prefix {r : Raw} {p : Bytes} (hc : Clean r p) {lo hi : Option Bytes} {e : Bytes × Val} (he : e ∈ r)
    (h1 : bytesLt e.1 (match lo with | none => p | some l => p ++ l) = false)
    (h2 : bytesLt e.1 (match hi with | none => Raw.upperBound p | some h => p ++ (h ++ [0])) = true) : p <+: e.1 := by
  have hge : bytesLt e.1 p = false := by
    cases lo with
    | none => exact h1
    | some l =>
      simp only at h1
      by_contra hne
      rw [Bool.not_eq_false] at hne
      have : bytesLt p (p ++ l) = true ∨ p = p ++ l := by
        cases l with
        | nil => right; simp
        | cons a l =>
          left
          have := bytesLt_append p [] (a :: l)
          rw [List.append_nil] at this
          rw [this]; rfl
      rcases this with h | h
      · rw [bytesLt_trans _ _ _ hne h] at h1; cases h1
      · rw [← h, hne] at h1; cases h1
  cases hi with
  | none => exact hc.2 e he hge h2
  | some h => exact prefix_of_between hge h2

section
variable {info : Option Bytes} {inf : Option Val} {r : Raw} {R : Octets} {s : Store}

theorem Enc.eq_map (h : Enc info r R) (hr : Holds inf r s) (hi : inf.isSome = info.isSome) :
    R = r.map fun e => (e.1, (SMap.get? R e.1).getD []) := by
  have hinfo : r.load .contractInfo = inf := hr.load .contractInfo trivial
  have h0 := h.load .contractInfo trivial
  rw [if_pos rfl] at h0
  apply SMap.Sorted.ext h.sorted
  · unfold SMap.Sorted
    rw [List.pairwise_map]
    exact hr.sorted
  · intro k
    rw [get?_mapk r (fun k => (SMap.get? R k).getD []) k]
    cases e : SMap.get? r k with
    | some v =>
      obtain ⟨c, hc, rfl⟩ := hr.cells k v (SMap.get?_mem e)
      have h1 := h.load c hc
      have h2 : r.load c = some v := e
      by_cases hn : c = .contractInfo
      · subst hn
        rw [hinfo] at h2
        rw [h2] at hi
        cases info with
        | none => cases hi
        | some b => rw [h0]; rfl
      · rw [if_neg hn, h2] at h1
        rw [h1]; rfl
    | none =>
      cases e2 : SMap.get? R k with
      | none => rfl
      | some b =>
        exfalso
        obtain ⟨c, hc, rfl⟩ := h.cells k b (SMap.get?_mem e2)
        have h1 := h.load c hc
        have h2 : r.load c = none := e
        by_cases hn : c = .contractInfo
        · subst hn
          rw [hinfo] at h2
          subst h2
          rw [h0] at e2
          subst e2
          cases hi
        · rw [if_neg hn, h2, e2] at h1
          cases h1

/-- Iteration over a prefix: the same keys; the values encoded. -/
theorem Enc.range (h : Enc info r R) (hr : Holds inf r s) (hi : inf.isSome = info.isSome) {p : Bytes} (hc : Clean r p) (lo up : Option Bytes)
    {A : Type} (dec : Bytes × Val → A) (decO : Bytes × Bytes → A)
    (hdec : ∀ x v c, CellOk c → p ++ x = c.key → s.cell inf c = some v → c ≠ .contractInfo → dec (x, v) = decO (x, c.octets v))
    (hp : ∀ c : Cell, p <+: c.key → c ≠ .contractInfo) :
    (R.range p lo up).map decO = (r.range p lo up).map dec ∧ (R.range p lo up).length = (r.range p lo up).length := by
  have e := h.eq_map hr hi
  have hlist : R.range p lo up = ((r.filter fun e => !bytesLt e.1 (match lo with | none => p | some l => p ++ l) &&
      bytesLt e.1 (match up with | none => Raw.upperBound p | some h => p ++ (h ++ [0]))).map
        fun e => (e.1.drop p.length, (SMap.get? R e.1).getD [])) := by
    show ((R.filter _).map _) = _
    conv_lhs => rw [e]
    rw [List.filter_map, List.map_map]
    rfl
  rw [hlist]
  constructor
  · show _ = ((r.filter _).map _).map dec
    rw [List.map_map, List.map_map]
    apply List.map_congr_left
    rintro ⟨k, v⟩ hk
    rw [List.mem_filter] at hk
    obtain ⟨hm, hb⟩ := hk
    simp only [Bool.and_eq_true, Bool.not_eq_true'] at hb
    obtain ⟨x, rfl⟩ := range_prefix hc hm hb.1 hb.2
    obtain ⟨c, hck, hk, hv⟩ := hr.mem hm
    have hn : c ≠ .contractInfo := hp c (by rw [← hk]; exact List.prefix_append _ _)
    have h1 := h.load c hck
    have h2 : r.load c = some v := by rw [hr.load c hck, hv]
    rw [if_neg hn, h2] at h1
    simp only [Function.comp, List.drop_left]
    rw [hk, h1]
    exact (hdec x v c hck hk hv hn).symm
  · show _ = ((r.filter _).map _).length
    rw [List.length_map, List.length_map]
    rfl

theorem cell_other {c : Cell} (hn : c ≠ .contractInfo) : s.cell inf c = s.cell none c := by
  cases c <;> first | rfl | exact absurd rfl hn

theorem ns_not_info {ns : String} {q : Bytes} (hns : (strBytes ns).length < 256) (hne : ns ≠ "contract_info") :
    ∀ c : Cell, lenPrefix (strBytes ns) ++ q <+: c.key → c ≠ .contractInfo := by
  rintro c ⟨w, hw⟩ rfl
  rw [List.append_assoc] at hw
  exact hne (Cell.key_inv hns hw.symm).2.1.symm

theorem oct_ticks (h : Enc info r R) (hr : Holds inf r s) (hi : inf.isSome = info.isSome) (hs : StOk s) (lo up : Option Bytes) :
    (R.range (withKey [strBytes "tick_state"] []) lo up).map Octets.tickEntry =
      (r.range (withKey [strBytes "tick_state"] []) lo up).map Raw.tickEntry := by
  have hp : withKey [strBytes "tick_state"] [] = lenPrefix (strBytes "tick_state") := by simp [withKey]
  have hc : Clean r (withKey [strBytes "tick_state"] []) := by rw [hp]; exact clean_str r [] _
  refine (h.range hr hi hc lo up Raw.tickEntry Octets.tickEntry ?_ ?_).1
  · intro x v c hck hk hv hn
    rw [hp] at hk
    obtain ⟨-, hns, hrest⟩ := Cell.key_inv (by decide) hk.symm
    cases c <;> (try (exfalso; simp only [Cell.ns] at hns; revert hns; decide))
    rename_i t
    simp only [Cell.rest] at hrest
    subst hrest
    simp only [Store.cell, Option.map_eq_some_iff] at hv
    obtain ⟨y, hy, rfl⟩ := hv
    have hread : fromOctets readTickState ((Cell.tick t).octets (.tick y)) = some y := by
      unfold Cell.octets
      rw [fromOctets_to]
      exact fromText_of (d := 10) ((within_tickState y).mono (by omega)) (read_tickState (hs.ticks t y hy).2)
    simp only [Raw.tickEntry, Octets.tickEntry, hread, i64Of_i64Bytes hck]
    rfl
  · rw [hp, ← List.append_nil (lenPrefix _)]
    exact ns_not_info (by decide) (by decide)

theorem oct_orders (h : Enc info r R) (hr : Holds inf r s) (hi : inf.isSome = info.isSome) (hs : StOk s) (tick : Int) (lo up : Option Bytes) :
    (R.range (withKey [strBytes "orders", i64Bytes tick] []) lo up).map Octets.orderEntry =
      (r.range (withKey [strBytes "orders", i64Bytes tick] []) lo up).map Raw.orderEntry := by
  have hc := clean_orders hr tick
  refine (h.range hr hi hc lo up Raw.orderEntry Octets.orderEntry ?_ ?_).1
  · intro x v c hck hk hv hn
    rw [withKey_cons, List.append_assoc] at hk
    obtain ⟨-, hns, -⟩ := Cell.key_inv (by decide) hk.symm
    cases c <;> (try (exfalso; simp only [Cell.ns] at hns; revert hns; decide))
    rename_i k
    simp only [Store.cell, Option.map_eq_some_iff] at hv
    obtain ⟨y, hy, rfl⟩ := hv
    have hread : fromOctets readLimitOrder ((Cell.order k).octets (.order y)) = some y := by
      unfold Cell.octets
      rw [fromOctets_to]
      exact fromText_of (d := 10) ((within_limitOrder y).mono (by omega)) (read_limitOrder (hs.orders k y hy).2.2)
    simp only [Raw.orderEntry, Octets.orderEntry, hread]
    cases Raw.u64Of x <;> rfl
  · rw [withKey_cons]
    exact ns_not_info (by decide) (by decide)

theorem oct_lookup (h : Enc info r R) (hr : Holds inf r s) (hi : inf.isSome = info.isSome) (hs : StOk s) (pk : Bytes) :
    ((SMap.get? R (withKey [strBytes "orders"] pk)).bind fun b => fromOctets readLimitOrder b) =
      match SMap.get? r (withKey [strBytes "orders"] pk) with | some (.order o) => some o | _ => none := by
  rw [h.eq_map hr hi, get?_mapk r (fun k => (SMap.get? R k).getD [])]
  cases e : SMap.get? r (withKey [strBytes "orders"] pk) with
  | none => rfl
  | some v =>
    obtain ⟨c, hck, hk, hv⟩ := hr.mem (SMap.get?_mem e)
    have hl := h.load c hck
    rw [hk] at e ⊢
    rw [withKey_cons] at hk
    obtain ⟨-, hns, -⟩ := Cell.key_inv (by decide) hk.symm
    cases c <;> (try (exfalso; simp only [Cell.ns] at hns; revert hns; decide))
    rename_i k
    simp only [Store.cell, Option.map_eq_some_iff] at hv
    obtain ⟨y, hy, rfl⟩ := hv
    have hread : fromOctets readLimitOrder ((Cell.order k).octets (.order y)) = some y := by
      unfold Cell.octets
      rw [fromOctets_to]
      exact fromText_of (d := 10) ((within_limitOrder y).mono (by omega)) (read_limitOrder (hs.orders k y hy).2.2)
    rw [if_neg (by simp)] at hl
    rw [hl, show r.load (.order k) = some (.order y) from e]
    simp only [Option.map_some, Option.getD_some, Option.bind_some, hread]

theorem oct_index (h : Enc info r R) (hr : Holds inf r s) (hi : inf.isSome = info.isSome) (hs : StOk s) (f : FilterOwnerOrders)
    (lo up : Option Bytes) :
    (R.range (Raw.indexPrefix f) lo up).map R.indexEntry = (r.range (Raw.indexPrefix f) lo up).map r.indexEntry ∧
    (R.range (Raw.indexPrefix f) lo up).length = (r.range (Raw.indexPrefix f) lo up).length := by
  have hc : Clean r (Raw.indexPrefix f) := by
    cases f with
    | all a =>
      have : Raw.indexPrefix (.all a) = lenPrefix (strBytes "orders_owner") ++ lenPrefix (strBytes a) := by simp [Raw.indexPrefix, withKey]
      rw [this]; exact clean_str r _ _
    | byTick t a =>
      have : Raw.indexPrefix (.byTick t a) = (lenPrefix (strBytes "orders_tick_and_owner") ++ lenPrefix (i64Bytes t)) ++ lenPrefix (strBytes a) := by
        simp [Raw.indexPrefix, withKey]
      rw [this]; exact clean_str r _ _
  have hent : ∀ x n, r.indexEntry (x, .pkLen n) = (do
      let k ← Raw.pkOf (x.drop (x.length - n))
      let b ← SMap.get? R (withKey [strBytes "orders"] (x.drop (x.length - n)))
      let o ← fromOctets readLimitOrder b
      pure (k, o)) := by
    intro x n
    have := oct_lookup h hr hi hs (x.drop (x.length - n))
    simp only [Raw.indexEntry]
    cases Raw.pkOf (x.drop (x.length - n)) with
    | none => rfl
    | some k =>
      simp only [Option.bind_eq_bind, Option.bind_some]
      have e2 : ((SMap.get? R (withKey [strBytes "orders"] (x.drop (x.length - n)))).bind fun b => (fromOctets readLimitOrder b).bind fun o => pure (k, o)) =
          ((SMap.get? R (withKey [strBytes "orders"] (x.drop (x.length - n)))).bind fun b => fromOctets readLimitOrder b).map fun o => (k, o) := by
        cases SMap.get? R (withKey [strBytes "orders"] (x.drop (x.length - n))) with
        | none => rfl
        | some b =>
          simp only [Option.bind_some]
          cases fromOctets readLimitOrder b <;> rfl
      rw [e2, this]
      cases SMap.get? r (withKey [strBytes "orders"] (x.drop (x.length - n))) with
      | none => rfl
      | some v => cases v <;> rfl
  have hlen : ∀ c : Cell, fromOctets (Json.readNat (2 ^ 32)) (c.octets (.pkLen 18)) = some 18 := by
    intro c
    unfold Cell.octets
    rw [fromOctets_to]
    have hj : c.json (.pkLen 18) = Json.ofNat 18 := by cases c <;> rfl
    rw [hj]
    exact fromText_of (d := 10) trivial rfl
  refine h.range hr hi hc lo up r.indexEntry R.indexEntry ?_ ?_
  · intro x v c hck hk hv hn
    have hv18 : v = .pkLen 18 := by
      have hpk : ∀ k o, SMap.get? s.orders k = some o → ∀ (P : Prop) [Decidable P], (if P then some (Val.pkLen (pkBytes k).length) else none) = some v →
          v = .pkLen 18 := by
        intro k o _ P _ h
        split_ifs at h
        cases h
        rw [pkBytes_length]
      cases f with
      | all a =>
        simp only [Raw.indexPrefix, withKey_cons, withKey_nil, List.append_assoc, List.append_nil] at hk
        obtain ⟨-, hns, -⟩ := Cell.key_inv (by decide) hk.symm
        cases c <;> (try (exfalso; simp only [Cell.ns] at hns; revert hns; decide))
        simp only [Store.cell] at hv
        split at hv
        · next o ho' => exact hpk _ o ho' _ hv
        · cases hv
      | byTick t a =>
        simp only [Raw.indexPrefix, withKey_cons, withKey_nil, List.append_assoc, List.append_nil] at hk
        obtain ⟨-, hns, -⟩ := Cell.key_inv (by decide) hk.symm
        cases c <;> (try (exfalso; simp only [Cell.ns] at hns; revert hns; decide))
        simp only [Store.cell] at hv
        split at hv
        · next o ho' => exact hpk _ o ho' _ hv
        · cases hv
    subst hv18
    rw [hent]
    unfold Octets.indexEntry
    rw [hlen c]
    rfl
  · cases f with
    | all a =>
      rw [show Raw.indexPrefix (.all a) = lenPrefix (strBytes "orders_owner") ++ lenPrefix (strBytes a) by simp [Raw.indexPrefix, withKey]]
      exact ns_not_info (by decide) (by decide)
    | byTick t a =>
      rw [show Raw.indexPrefix (.byTick t a) = lenPrefix (strBytes "orders_tick_and_owner") ++ (lenPrefix (i64Bytes t) ++ lenPrefix (strBytes a)) by
        simp [Raw.indexPrefix, withKey]]
      exact ns_not_info (by decide) (by decide)

theorem mapM_of_map {A A' B : Type} {dec : A → Option B} {dec' : A' → Option B} {L : List A} {L' : List A'} (h : L.map dec = L'.map dec') :
    L.mapM dec = L'.mapM dec' := by
  induction L generalizing L' with
  | nil => cases L' with
    | nil => rfl
    | cons => simp at h
  | cons a L ih =>
    cases L' with
    | nil => simp at h
    | cons b L' =>
      simp only [List.map_cons, List.cons.injEq] at h
      rw [List.mapM_cons, List.mapM_cons, h.1, ih h.2]

theorem filterMap_of_map {A A' B : Type} {dec : A → Option B} {dec' : A' → Option B} {L : List A} {L' : List A'} (h : L.map dec = L'.map dec') :
    L.filterMap dec = L'.filterMap dec' := by
  have := congrArg (List.filterMap id) h
  rw [List.filterMap_map, List.filterMap_map] at this
  simpa [Function.comp_def] using this

/-- Iterating over the bytes is iterating over the raw storage. -/
theorem oct_queries (h : Enc info r R) (hr : Holds inf r s) (hi : inf.isSome = info.isSome) (hs : StOk s) :
    (∀ lo up limit, R.allTicks lo up limit = r.allTicks lo up limit) ∧ (∀ lo up desc, R.tickRange lo up desc = r.tickRange lo up desc) ∧
    (∀ tick lo up limit, R.ordersByTick tick lo up limit = r.ordersByTick tick lo up limit) ∧
    (∀ f lo up size, R.getOrdersByOwner f lo up size = r.getOrdersByOwner f lo up size) ∧
    ∀ owner lo up size, R.ordersByOwner owner lo up size = r.ordersByOwner owner lo up size := by
  have hg : ∀ f lo up size, R.getOrdersByOwner f lo up size = r.getOrdersByOwner f lo up size := by
    intro f lo up size
    unfold Octets.getOrdersByOwner Raw.getOrdersByOwner
    rw [filterMap_of_map (dec' := r.indexEntry) (L' := (r.range (Raw.indexPrefix f) (lo.map pkBytes) (up.map pkBytes)).take
      (asUsize (size.getD DEFAULT_PAGE_SIZE)))]
    rw [List.map_take, List.map_take, (oct_index h hr hi hs f _ _).1]
  refine ⟨fun lo up limit => ?_, fun lo up desc => ?_, fun tick lo up limit => ?_, hg, fun owner lo up size => ?_⟩
  · unfold Octets.allTicks Raw.allTicks
    have := oct_ticks h hr hi hs (lo.map i64Bytes) (up.map i64Bytes)
    cases limit with
    | none => exact mapM_of_map this
    | some n => exact mapM_of_map (by rw [List.map_take, List.map_take, this])
  · unfold Octets.tickRange Raw.tickRange
    have := oct_ticks h hr hi hs (some (i64Bytes lo)) (some (i64Bytes up))
    cases desc with
    | false => exact mapM_of_map this
    | true => exact mapM_of_map (by simp only [if_true]; rw [List.map_reverse, List.map_reverse, this])
  · unfold Octets.ordersByTick Raw.ordersByTick
    have := oct_orders h hr hi hs tick (lo.map u64Bytes) (up.map u64Bytes)
    have hl := congrArg List.length this
    rw [List.length_map, List.length_map] at hl
    simp only [hl]
    rw [mapM_of_map (dec' := Raw.orderEntry) (L' := (r.range (withKey [strBytes "orders", i64Bytes tick] []) (lo.map u64Bytes) (up.map u64Bytes)).take
      ((limit.map asUsize).getD (r.range (withKey [strBytes "orders", i64Bytes tick] []) (lo.map u64Bytes) (up.map u64Bytes)).length))]
    rw [List.map_take, List.map_take, this]
  · unfold Octets.ordersByOwner Raw.ordersByOwner
    rw [hg, (oct_index h hr hi hs (.all owner) none none).2]

end
end OB
