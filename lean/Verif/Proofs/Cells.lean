import Verif.Proofs.Range
/- The keys of the storage cells. -/
namespace OB
open Spec

theorem withKey_cons (a : Bytes) (l : List Bytes) (x : Bytes) : withKey (a :: l) x = lenPrefix a ++ withKey l x := by
  simp [withKey]

@[simp] theorem withKey_nil (x : Bytes) : withKey [] x = x := by simp [withKey]

theorem withKey_append (l : List Bytes) (x : Bytes) : withKey l x = withKey l [] ++ x := by simp [withKey]

theorem pow16 : (2 : Nat) ^ 16 = 65536 := by norm_num

theorem i64_short (t : Int) : (i64Bytes t).length < 2 ^ 16 := by rw [i64Bytes_length]; norm_num

theorem addr_short {a : Addr} (h : AddrOk a) : (strBytes a).length < 2 ^ 16 := by rw [strBytes_length]; exact h

theorem pkBytes_inj {k k' : Int × Nat} (h1 : TickOk k.1) (h2 : IdOk k.2) (h1' : TickOk k'.1) (h2' : IdOk k'.2)
    (h : pkBytes k = pkBytes k') : k = k' := by
  unfold pkBytes at h
  rw [withKey_cons, withKey_cons] at h
  obtain ⟨e1, e2⟩ := lenPrefix_append_inj (i64_short _) (i64_short _) h
  exact Prod.ext (i64Bytes_inj h1 h1' e1) (u64Bytes_inj h2 h2' (by simpa using e2))

@[simp] theorem pkBytes_length (k : Int × Nat) : (pkBytes k).length = 18 := by
  simp [pkBytes, withKey, lenPrefix]

theorem bytesLt_block {a b x y : Bytes} (h : a.length = b.length) :
    bytesLt (a ++ x) (b ++ y) = (bytesLt a b || (decide (a = b) && bytesLt x y)) := by
  induction a generalizing b with
  | nil =>
    cases b with
    | nil => simp [bytesLt]
    | cons => simp at h
  | cons c a ih =>
    cases b with
    | nil => simp at h
    | cons d b =>
      simp only [List.length_cons, Nat.add_right_cancel_iff] at h
      simp only [List.cons_append, bytesLt, ih h]
      by_cases hcd : c = d
      · subst hcd; simp
      · simp [hcd]

theorem pkBytes_lt {k k' : Int × Nat} (h1 : TickOk k.1) (h2 : IdOk k.2) (h1' : TickOk k'.1) (h2' : IdOk k'.2) :
    bytesLt (pkBytes k) (pkBytes k') = Key.lt k k' := by
  unfold pkBytes
  rw [withKey_cons, withKey_cons, withKey_nil, withKey_nil]
  unfold lenPrefix
  rw [i64Bytes_length, i64Bytes_length, List.append_assoc, List.append_assoc, bytesLt_append, bytesLt_block (by simp),
    i64Bytes_lt h1 h1', u64Bytes_lt h2 h2']
  have : decide (i64Bytes k.1 = i64Bytes k'.1) = decide (k.1 = k'.1) := by
    rw [Bool.eq_iff_iff, decide_eq_true_eq, decide_eq_true_eq]
    exact ⟨i64Bytes_inj h1 h1', fun h => by rw [h]⟩
  rw [this]
  rfl

theorem pkOf_pkBytes {k : Int × Nat} (h1 : TickOk k.1) (h2 : IdOk k.2) : Raw.pkOf (pkBytes k) = some k := by
  have hb : pkBytes k = beBytes 2 8 ++ (i64Bytes k.1 ++ u64Bytes k.2) := by
    simp [pkBytes, withKey, lenPrefix]
  unfold Raw.pkOf
  have t2 : (pkBytes k).take 2 = beBytes 2 8 := by rw [hb]; exact List.take_left' (by simp)
  have d2 : (pkBytes k).drop 2 = i64Bytes k.1 ++ u64Bytes k.2 := by rw [hb]; exact List.drop_left' (by simp)
  have hn : Raw.beNat (beBytes 2 8) = 8 := by rw [beNat_beBytes]; norm_num
  simp only [t2, d2, hn]
  rw [List.take_left' (by simp), List.drop_left' (by simp), i64Of_i64Bytes h1, u64Of_u64Bytes h2]
  rfl

/-- Cells of a `Map` or of an index. -/
def Cell.isMap : Cell → Bool
  | .tick _ | .dirLiq _ | .order _ | .ownerIdx _ _ | .tickOwnerIdx _ _ _ | .node _ _ | .root _ _ | .counter _ => true
  | _ => false

/-- What follows the namespace in the key. -/
def Cell.rest : Cell → Bytes
  | .tick t => i64Bytes t
  | .dirLiq d => strBytes d.name
  | .order k => pkBytes k
  | .ownerIdx a k => withKey [strBytes a] (pkBytes k)
  | .tickOwnerIdx t a k => withKey [i64Bytes t, strBytes a] (pkBytes k)
  | .node t id => pkBytes (t, id)
  | .root t d => withKey [i64Bytes t] (strBytes d.name)
  | .counter t => i64Bytes t
  | _ => []

theorem Cell.key_map {c : Cell} (h : c.isMap = true) : c.key = lenPrefix (strBytes c.ns) ++ c.rest := by
  cases c <;> first | (simp [Cell.isMap] at h; done) | simp [Cell.key, Cell.rest, Cell.ns, withKey, pkBytes]

theorem Cell.key_item {c : Cell} (h : c.isMap = false) : c.key = strBytes c.ns := by
  cases c <;> first | (simp [Cell.isMap] at h; done) | rfl

theorem Cell.ns_len (c : Cell) : (strBytes c.ns).length < 256 := by
  cases c <;> simp only [Cell.ns] <;> decide

theorem Cell.ns_head (c : Cell) : (strBytes c.ns).head? ≠ some 0 := by
  cases c <;> simp only [Cell.ns] <;> decide

theorem lenPrefix_head {b : Bytes} (x : Bytes) (h : b.length < 256) : (lenPrefix b ++ x).head? = some 0 := by
  unfold lenPrefix
  simp only [beBytes, List.cons_append, List.head?_cons, Option.some.injEq]
  rw [show b.length / 256 ^ 1 = 0 by simpa using h]
  rfl

/-- Only cells of a namespace have keys in that namespace. -/
theorem Cell.key_inv {c : Cell} {ns : String} {x : Bytes} (hns : (strBytes ns).length < 256)
    (h : c.key = lenPrefix (strBytes ns) ++ x) : c.isMap = true ∧ c.ns = ns ∧ c.rest = x := by
  cases hm : c.isMap with
  | false =>
    exfalso
    rw [Cell.key_item hm] at h
    apply c.ns_head
    rw [h, lenPrefix_head x hns]
  | true =>
    rw [Cell.key_map hm] at h
    have hl := c.ns_len
    obtain ⟨e1, e2⟩ := lenPrefix_append_inj (by omega) (by omega) h
    exact ⟨rfl, strBytes_inj e1, e2⟩

theorem dirName_inj {d d' : Dir} (h : strBytes d.name = strBytes d'.name) : d = d' := by
  have := strBytes_inj h
  cases d <;> cases d' <;> first | rfl | (exfalso; revert this; decide)

/-- Different cells have different keys. -/
theorem Cell.key_inj {c c' : Cell} (hc : CellOk c) (hc' : CellOk c') (h : c.key = c'.key) : c = c' := by
  cases hm : c.isMap with
  | false =>
    have hm' : c'.isMap = false := by
      by_contra hne
      rw [Bool.not_eq_false] at hne
      rw [Cell.key_map hne] at h
      have := (Cell.key_inv c'.ns_len h).1
      rw [hm] at this; cases this
    rw [Cell.key_item hm, Cell.key_item hm'] at h
    have := strBytes_inj h
    cases c <;> (try (simp [Cell.isMap] at hm; done)) <;> cases c' <;> first | rfl | (exfalso; revert this; decide) | (simp [Cell.isMap] at hm'; done)
  | true =>
    rw [Cell.key_map hm] at h
    obtain ⟨hm', hns, hr⟩ := Cell.key_inv c.ns_len h.symm
    clear h
    cases c <;> (try (simp [Cell.isMap] at hm; done)) <;> cases c' <;> (try (simp [Cell.isMap] at hm'; done)) <;>
      (try (exfalso; simp only [Cell.ns] at hns; revert hns; decide)) <;> simp only [CellOk, Cell.rest] at hc hc' hr
    case tick.tick t t' => rw [i64Bytes_inj hc' hc hr]
    case dirLiq.dirLiq d d' => rw [dirName_inj hr]
    case order.order k k' => rw [pkBytes_inj hc'.1 hc'.2 hc.1 hc.2 hr]
    case ownerIdx.ownerIdx a k a' k' =>
      rw [withKey_cons, withKey_cons] at hr
      obtain ⟨e1, e2⟩ := lenPrefix_append_inj (addr_short hc'.1) (addr_short hc.1) hr
      rw [strBytes_inj e1, pkBytes_inj hc'.2.1 hc'.2.2 hc.2.1 hc.2.2 (by simpa using e2)]
    case tickOwnerIdx.tickOwnerIdx t a k t' a' k' =>
      simp only [withKey_cons, withKey_nil] at hr
      obtain ⟨e0, hr⟩ := lenPrefix_append_inj (i64_short _) (i64_short _) hr
      obtain ⟨e1, e2⟩ := lenPrefix_append_inj (addr_short hc'.2.1) (addr_short hc.2.1) hr
      rw [i64Bytes_inj hc'.1 hc.1 e0, strBytes_inj e1, pkBytes_inj hc'.2.2.1 hc'.2.2.2 hc.2.2.1 hc.2.2.2 (by simpa using e2)]
    case node.node t i t' i' =>
      have := pkBytes_inj (k := (t', i')) (k' := (t, i)) hc'.1 hc'.2 hc.1 hc.2 hr
      simp only [Prod.mk.injEq] at this
      rw [this.1, this.2]
    case root.root t d t' d' =>
      rw [withKey_cons, withKey_cons] at hr
      obtain ⟨e0, hr⟩ := lenPrefix_append_inj (i64_short _) (i64_short _) hr
      have hd : d' = d := dirName_inj (by simpa using hr)
      rw [i64Bytes_inj hc' hc e0, hd]
    case counter.counter t t' => rw [i64Bytes_inj hc' hc hr]

end OB
