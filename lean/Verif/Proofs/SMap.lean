import Verif.Proofs.Basic
/- Sorted association lists. -/
namespace OB
namespace SMap
variable {K V : Type} [Key K] [DecidableEq K]

@[simp] theorem get?_insert_self (m : SMap K V) (x : K) (y : V) : (m.insert x y).get? x = some y := by
  induction m with
  | nil => simp [SMap.insert, get?]
  | cons p m ih =>
    obtain ⟨k, v⟩ := p
    simp only [SMap.insert]
    split
    · simp [get?]
    · split
      · simp [get?]
      · rename_i h _
        simp [get?, h, ih]

theorem get?_insert_ne (m : SMap K V) {x z : K} (y : V) (h : z ≠ x) : (m.insert x y).get? z = m.get? z := by
  induction m with
  | nil => simp [SMap.insert, get?, h]
  | cons p m ih =>
    obtain ⟨k, v⟩ := p
    simp only [SMap.insert]
    split
    · rename_i hx; subst hx; simp [get?, h]
    · split
      · simp [get?, h]
      · simp [get?, ih]

theorem get?_insert (m : SMap K V) (x z : K) (y : V) : (m.insert x y).get? z = if z = x then some y else m.get? z := by
  split
  · rename_i h; subst h; simp
  · rename_i h; exact get?_insert_ne m y h

@[simp] theorem get?_erase_self (m : SMap K V) (x : K) : (m.erase x).get? x = none := by
  induction m with
  | nil => rfl
  | cons p m ih =>
    obtain ⟨k, v⟩ := p
    simp only [erase] at *
    by_cases hk : k = x
    · subst hk; simpa [List.filter_cons] using ih
    · simp [List.filter_cons, hk, get?, Ne.symm hk, ih]

theorem get?_erase_ne (m : SMap K V) {x z : K} (h : z ≠ x) : (m.erase x).get? z = m.get? z := by
  induction m with
  | nil => rfl
  | cons p m ih =>
    obtain ⟨k, v⟩ := p
    simp only [erase] at *
    by_cases hk : k = x
    · subst hk; simp [List.filter_cons, get?, h, ih]
    · simp [List.filter_cons, hk, get?, ih]

theorem get?_erase (m : SMap K V) (x z : K) : (m.erase x).get? z = if z = x then none else m.get? z := by
  split
  · rename_i h; subst h; simp
  · rename_i h; exact get?_erase_ne m h

theorem mem_insert_keys {m : SMap K V} {x : K} {y : V} {p : K × V} (hp : p ∈ m.insert x y) : p = (x, y) ∨ p ∈ m := by
  induction m with
  | nil => simp [SMap.insert] at hp; exact Or.inl hp
  | cons q m ih =>
    obtain ⟨k, v⟩ := q
    simp only [SMap.insert] at hp
    split at hp
    · simp at hp; rcases hp with h | h
      · exact Or.inl h
      · exact Or.inr (by simp [h])
    · split at hp
      · simp at hp; rcases hp with h | h | h
        · exact Or.inl h
        · exact Or.inr (by simp [h])
        · exact Or.inr (by simp [h])
      · simp at hp; rcases hp with h | h
        · exact Or.inr (by simp [h])
        · rcases ih h with h | h
          · exact Or.inl h
          · exact Or.inr (by simp [h])

theorem lt_of_not_lt {a b : K} (h1 : a ≠ b) (h2 : ¬ Key.lt a b = true) : Key.lt b a = true := by
  by_contra h
  exact h1 (Key.tri a b (by simpa using h2) (by simpa using h))

theorem Sorted.insert {m : SMap K V} (h : Sorted m) (x : K) (y : V) : Sorted (m.insert x y) := by
  induction m with
  | nil => simp [SMap.insert, Sorted]
  | cons p m ih =>
    obtain ⟨k, v⟩ := p
    unfold Sorted at *
    rw [List.pairwise_cons] at h
    simp only [SMap.insert]
    split
    · rename_i hx; subst hx
      rw [List.pairwise_cons]; exact h
    · rename_i hne
      split
      · rename_i hlt
        rw [List.pairwise_cons, List.pairwise_cons]
        refine ⟨?_, h⟩
        simp only [List.mem_cons, forall_eq_or_imp]
        refine ⟨hlt, fun a ha => Key.trans _ _ _ hlt (h.1 a ha)⟩
      · rename_i hnlt
        rw [List.pairwise_cons]
        refine ⟨fun a ha => ?_, ih h.2⟩
        rcases mem_insert_keys ha with rfl | ha
        · exact lt_of_not_lt hne hnlt
        · exact h.1 a ha

theorem Sorted.erase {m : SMap K V} (h : Sorted m) (x : K) : Sorted (m.erase x) := List.Pairwise.filter _ h

theorem Sorted.filter {m : SMap K V} (h : Sorted m) (f : K × V → Bool) : Sorted (m.filter f) := List.Pairwise.filter _ h

theorem get?_mem {m : SMap K V} {x : K} {y : V} (h : m.get? x = some y) : (x, y) ∈ m := by
  induction m with
  | nil => simp [get?] at h
  | cons p m ih =>
    obtain ⟨k, v⟩ := p
    simp only [get?] at h
    split at h
    · cases h; subst_vars; simp
    · simp [ih h]

theorem Sorted.get? {m : SMap K V} (hs : Sorted m) {x : K} {y : V} (h : (x, y) ∈ m) : m.get? x = some y := by
  induction m with
  | nil => simp at h
  | cons p m ih =>
    obtain ⟨k, v⟩ := p
    unfold Sorted at hs
    rw [List.pairwise_cons] at hs
    simp only [List.mem_cons, Prod.mk.injEq] at h
    simp only [SMap.get?]
    rcases h with ⟨rfl, rfl⟩ | h
    · simp
    · have := hs.1 _ h
      rw [if_neg]
      · exact ih hs.2 h
      · rintro rfl
        simp [Key.irrefl] at this

theorem Sorted.mem_iff {m : SMap K V} (hs : Sorted m) {x : K} {y : V} : (x, y) ∈ m ↔ m.get? x = some y :=
  ⟨hs.get?, get?_mem⟩

theorem mem_keys_iff {m : SMap K V} {x : K} : x ∈ keys m ↔ m.get? x ≠ none := by
  induction m with
  | nil => simp [keys, get?]
  | cons p m ih =>
    obtain ⟨k, v⟩ := p
    simp only [keys, List.map_cons, List.mem_cons] at *
    simp only [get?]
    split
    · simp_all
    · simp_all

theorem Sorted.keys_nodup {m : SMap K V} (hs : Sorted m) : (keys m).Nodup := by
  unfold keys List.Nodup
  rw [List.pairwise_map]
  refine List.Pairwise.imp ?_ hs
  intro a b hab h
  rw [h, Key.irrefl] at hab
  simp at hab

/-- Sum of a measure over the map. -/
def total (f : K → V → Nat) (m : SMap K V) : Nat := (m.map fun p => f p.1 p.2).sum

theorem total_insert {m : SMap K V} (hs : Sorted m) (f : K → V → Nat) (x : K) (y : V) :
    total f (SMap.insert m x y) + ((SMap.get? m x).map (f x)).getD 0 = total f m + f x y := by
  induction m with
  | nil => simp [SMap.insert, total, SMap.get?]
  | cons p m ih =>
    obtain ⟨k, v⟩ := p
    have hs0 := hs
    unfold Sorted at hs
    rw [List.pairwise_cons] at hs
    simp only [SMap.insert, SMap.get?]
    by_cases hx : x = k
    · subst hx
      simp [total]; omega
    · rw [if_neg hx, if_neg hx]
      by_cases hlt : Key.lt x k = true
      · rw [if_pos hlt]
        have : SMap.get? m x = none := by
          by_contra hc
          obtain ⟨z, hz⟩ := Option.ne_none_iff_exists'.1 hc
          have h1 := hs.1 _ (get?_mem hz)
          have := Key.trans _ _ _ hlt h1
          simp [Key.irrefl] at this
        simp [total, this]; omega
      · rw [if_neg hlt]
        have := ih hs.2
        simp only [total, List.map_cons, List.sum_cons] at *
        omega

theorem total_congr {m : SMap K V} {f g : K → V → Nat} (h : ∀ x y, (x, y) ∈ m → f x y = g x y) : total f m = total g m := by
  unfold total
  congr 1
  exact List.map_congr_left (fun p hp => h p.1 p.2 hp)

theorem le_total {m : SMap K V} {f : K → V → Nat} {x : K} {y : V} (h : m.get? x = some y) : f x y ≤ total f m := by
  have := get?_mem h
  unfold total
  exact List.single_le_sum (by simp) _ (List.mem_map.2 ⟨(x, y), this, rfl⟩)

end SMap
end OB
