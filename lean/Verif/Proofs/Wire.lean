import Verif.SpecWire
import Verif.Proofs.Json
import Verif.Proofs.Text
/- The typed readers against Verif/SpecWire.lean. -/
namespace OB
open Spec Json

theorem i64Ok_iff (t : Int) : i64Ok t = true ↔ -2 ^ 63 ≤ t ∧ t < 2 ^ 63 := by
  unfold i64Ok
  simp only [Bool.and_eq_true, decide_eq_true_eq]

theorem readI64_iff {v : Json} {t : Int} : readI64 v = some t ↔ IntJ t v := by
  cases v with
  | num neg n =>
    simp only [readI64, IntJ]
    constructor
    · intro h
      by_cases hc : i64Ok (if neg = true then -(n : Int) else n) = true
      · rw [if_pos hc] at h
        cases h
        exact ⟨_, _, rfl, rfl, (i64Ok_iff _).1 hc⟩
      · rw [if_neg hc] at h
        cases h
    · rintro ⟨neg', n', e, rfl, h⟩
      cases e
      rw [if_pos ((i64Ok_iff _).2 h)]
  | _ => simp [readI64, IntJ]

theorem readNat_iff {k : Nat} {v : Json} {n : Nat} : readNat (2 ^ k) v = some n ↔ NatJ k n v := by
  unfold readNat NatJ
  constructor
  · intro h
    split at h
    · split_ifs at h with hc
      cases h
      exact ⟨rfl, hc⟩
    · cases h
  · rintro ⟨rfl, h⟩
    simp only [if_pos h]

theorem readNat64_iff {v : Json} {n : Nat} : readNat U64 v = some n ↔ NatJ 64 n v := readNat_iff

theorem readBool_iff {v : Json} {b : Bool} : readBool v = some b ↔ BoolJ b v := by
  cases v <;> simp [readBool, BoolJ]

theorem readString_iff {v : Json} {s : String} : readString v = some s ↔ StrJ s v := by
  cases v <;> simp [readString, StrJ]

theorem readDir_iff {v : Json} {d : Dir} : readDir v = some d ↔ DirJ d v := by
  constructor
  · intro h
    unfold readDir at h
    split at h <;> cases h <;> rfl
  · intro h
    unfold DirJ at h
    subst h
    cases d <;> rfl

theorem readUint_iff {bound : Nat} {l : List Char} {n : Nat} : readUint bound l = some n ↔ plusNumber l = some n ∧ n < bound := by
  have e : ∀ l, readDigits bound l = some n ↔ number l = some n ∧ n < bound := by
    intro l
    rw [readDigits_eq, Option.filter_eq_some_iff, decide_eq_true_eq]
  unfold readUint plusNumber
  split
  · exact e _
  · next h => 
    split
    · next h' => exact absurd rfl (h _)
    · exact e _

theorem readUintStr_iff {k : Nat} {v : Json} {n : Nat} : readUintStr (2 ^ k) v = some n ↔ UintJ k n v := by
  cases v with
  | str s => simp [readUintStr, UintJ, readUint_iff]
  | _ => simp [readUintStr, UintJ]

theorem readUint128_iff {v : Json} {n : Nat} : readUintStr U128 v = some n ↔ UintJ 128 n v := readUintStr_iff
theorem readUint256_iff {v : Json} {n : Nat} : readUintStr U256 v = some n ↔ UintJ 256 n v := readUintStr_iff
theorem readUint64_iff {v : Json} {n : Nat} : readUintStr U64 v = some n ↔ UintJ 64 n v := readUintStr_iff

theorem number_fold (t : List Char) (h : ∀ c ∈ t, c ∈ ['0', '1', '2', '3', '4', '5', '6', '7', '8', '9']) (m : Nat) :
    t.foldl (fun n c => 10 * n + (c.toNat - '0'.toNat)) m < (m + 1) * 10 ^ t.length := by
  induction t generalizing m with
  | nil => simp
  | cons c t ih =>
    have h1 := ih (fun x hx => h x (List.mem_cons_of_mem _ hx)) (10 * m + (c.toNat - '0'.toNat))
    have h2 : c.toNat - '0'.toNat ≤ 9 := by
      have := h c List.mem_cons_self
      simp only [List.mem_cons, List.not_mem_nil, or_false] at this
      rcases this with rfl | rfl | rfl | rfl | rfl | rfl | rfl | rfl | rfl | rfl <;> decide
    rw [List.foldl_cons, List.length_cons, pow_succ]
    refine lt_of_lt_of_le h1 ?_
    have : 10 * m + (c.toNat - '0'.toNat) + 1 ≤ (m + 1) * 10 := by omega
    calc _ ≤ ((m + 1) * 10) * 10 ^ t.length := Nat.mul_le_mul_right _ this
      _ = _ := by ring

theorem number_lt {t : List Char} {n : Nat} (h : number t = some n) : n < 10 ^ t.length := by
  unfold number at h
  split_ifs at h with hc
  cases h
  have := number_fold t hc.2 0
  simpa using this

theorem plusNumber_lt {t : List Char} {n : Nat} (h : plusNumber t = some n) : n < 10 ^ t.length := by
  unfold plusNumber at h
  split at h
  · exact lt_of_lt_of_le (number_lt h) (Nat.pow_le_pow_right (by omega) (by simp))
  · exact number_lt h

theorem number_nodot {t : List Char} {n : Nat} (h : number t = some n) : '.' ∉ t := by
  unfold number at h
  split_ifs at h with hc
  intro hd
  exact absurd (hc.2 _ hd) (by decide)

theorem plusNumber_nodot {t : List Char} {n : Nat} (h : plusNumber t = some n) : '.' ∉ t := by
  unfold plusNumber at h
  split at h
  · have := number_nodot h
    intro hm
    rcases List.mem_cons.1 hm with e | e
    · exact absurd e (by decide)
    · exact this e
  · exact number_nodot h

theorem take_nodot {l r : List Char} (h : '.' ∉ l) :
    (l ++ '.' :: r).takeWhile (· ≠ '.') = l ∧ (l ++ '.' :: r).dropWhile (· ≠ '.') = '.' :: r ∧
      l.takeWhile (· ≠ '.') = l ∧ l.dropWhile (· ≠ '.') = [] := by
  have hne : ∀ c ∈ l, decide (c ≠ '.') = true := by
    intro c hc
    rw [decide_eq_true_eq]
    exact fun e => h (e ▸ hc)
  refine ⟨?_, ?_, ?_, ?_⟩
  · rw [List.takeWhile_append_of_pos hne]; simp
  · rw [List.dropWhile_append_of_pos hne]; simp
  · exact List.takeWhile_eq_self_iff.2 hne
  · exact List.dropWhile_eq_nil_iff.2 hne

theorem atomics_iff {x n f k : Nat} (hk : k ≤ 18) :
    (x : ℚ) / 10 ^ 18 = n + f / 10 ^ k ↔ x = n * 10 ^ 18 + f * 10 ^ (18 - k) := by
  have h10 : (10 : ℚ) ^ 18 = 10 ^ (18 - k) * 10 ^ k := by rw [← pow_add]; congr 1; omega
  have hk0 : (10 : ℚ) ^ k ≠ 0 := by positivity
  have hk1 : (10 : ℚ) ^ (18 - k) ≠ 0 := by positivity
  rw [div_eq_iff (by positivity), add_mul]
  have : (f : ℚ) / 10 ^ k * 10 ^ 18 = f * 10 ^ (18 - k) := by
    rw [h10]; field_simp
  rw [this]
  constructor
  · intro h; exact_mod_cast h
  · intro h; exact_mod_cast h

theorem readDecimal_iff {bound : Nat} (hb : 10 ^ 18 ≤ bound) {l : List Char} {x : Nat} :
    readDecimal bound l = some x ↔ x < bound ∧ ((∃ n, plusNumber l = some n ∧ x = n * 10 ^ 18) ∨
      ∃ whole frac n f, l = whole ++ '.' :: frac ∧ plusNumber whole = some n ∧ plusNumber frac = some f ∧ frac.length ≤ 18 ∧
        (x : ℚ) / 10 ^ 18 = n + f / 10 ^ frac.length) := by
  have hsplit := List.takeWhile_append_dropWhile (p := fun c : Char => decide (c ≠ '.')) (l := l)
  constructor
  · intro h
    unfold readDecimal at h
    split at h
    · cases h
    · next whole hw =>
      obtain ⟨hw, hwb⟩ := readUint_iff.1 hw
      split_ifs at h with h1
      split at h
      · next hd =>
        cases h
        refine ⟨h1, Or.inl ⟨whole, ?_, rfl⟩⟩
        rw [hd, List.append_nil] at hsplit
        rw [← hsplit]; exact hw
      · next c frac hd =>
        have hc : c = '.' := by
          have h8 : ∀ (l : List Char) (c : Char) (r : List Char), l.dropWhile (fun c => decide (c ≠ '.')) = c :: r → c = '.' := by
            intro l
            induction l with
            | nil => intro c r h; simp at h
            | cons a l ih =>
              intro c r h
              rw [List.dropWhile_cons] at h
              split_ifs at h with h9
              · exact ih _ _ h
              · cases h; simpa using h9
          exact h8 _ _ _ hd
        subst hc
        by_cases h2 : '.' ∈ frac
        · rw [if_pos h2] at h; cases h
        rw [if_neg h2] at h
        cases hf : readUint bound frac with
        | none => rw [hf] at h; cases h
        | some f =>
          rw [hf] at h
          obtain ⟨hf, hfb⟩ := readUint_iff.1 hf
          simp only at h
          split_ifs at h with h3 h4
          cases h
          refine ⟨h4, Or.inr ⟨_, frac, whole, f, ?_, hw, hf, h3, (atomics_iff h3).2 rfl⟩⟩
          rw [← hd]; exact hsplit.symm
  · rintro ⟨hx, ⟨n, hn, rfl⟩ | ⟨whole, frac, n, f, rfl, hn, hf, hl, he⟩⟩
    · obtain ⟨-, -, h3, h4⟩ := take_nodot (r := []) (plusNumber_nodot hn)
      unfold readDecimal
      have : n < bound := by omega
      rw [h3, h4, readUint_iff.2 ⟨hn, this⟩]
      simp only [if_pos hx]
    · rw [atomics_iff hl] at he
      obtain ⟨h3, h4, -, -⟩ := take_nodot (r := frac) (plusNumber_nodot hn)
      have h5 : n * 10 ^ 18 < bound := by omega
      have h6 : n < bound := by omega
      have h7 : f < bound := lt_of_lt_of_le (lt_of_lt_of_le (plusNumber_lt hf) (Nat.pow_le_pow_right (by omega) hl)) hb
      unfold readDecimal
      rw [h3, h4, readUint_iff.2 ⟨hn, h6⟩]
      simp only [if_pos h5, if_neg (plusNumber_nodot hf), readUint_iff.2 ⟨hf, h7⟩, if_pos hl, ← he, if_pos hx]

theorem readDec_iff {k : Nat} (hk : 60 ≤ k) {v : Json} {x : Nat} : readDec (2 ^ k) v = some x ↔ DecJ k x v := by
  have hb : 10 ^ 18 ≤ 2 ^ k := le_trans (by norm_num) (Nat.pow_le_pow_right (by omega) hk : 2 ^ 60 ≤ 2 ^ k)
  cases v with
  | str s =>
    simp only [readDec, DecJ, readDecimal_iff hb, Json.str.injEq]
    constructor
    · intro h; exact ⟨s, rfl, h⟩
    · rintro ⟨_, rfl, h⟩; exact h
  | _ => simp [readDec, DecJ]

theorem readDec256_iff {v : Json} {x : Nat} : readDec U256 v = some x ↔ DecJ 256 x v := readDec_iff (by omega)
theorem readDec128_iff {v : Json} {x : Nat} : readDec U128 v = some x ↔ DecJ 128 x v := readDec_iff (by omega)

theorem readOpt_iff {α : Type} {rd : Json → Option α} {P : α → Json → Prop} (h : ∀ v x, rd v = some x ↔ P x v) (h0 : rd .null = none)
    {v : Json} {o : Option α} : readOpt rd v = some o ↔ OptJ P o v := by
  unfold readOpt
  split
  · cases o with
    | none => simp [OptJ]
    | some x =>
      simp only [OptJ, ← h, h0]
      simp
  · next hv =>
    cases o with
    | none =>
      simp only [OptJ]
      constructor
      · intro e; simp at e
      · intro e; exact absurd e hv
    | some x => simp [OptJ, ← h]

theorem readList_iff {α : Type} {rd : Json → Option α} {P : α → Json → Prop} (h : ∀ v x, rd v = some x ↔ P x v) {v : Json} {l : List α} :
    readList rd v = some l ↔ ListJ P l v := by
  have e : ∀ (vs : List Json) (l : List α), vs.mapM rd = some l ↔ List.Forall₂ P l vs := by
    intro vs
    induction vs with
    | nil => intro l; cases l <;> simp
    | cons a vs ih =>
      intro l
      rw [List.mapM_cons]
      simp only [Option.bind_eq_bind, Option.bind_eq_some_iff, Option.pure_def, Option.some.injEq]
      cases l with
      | nil => simp
      | cons x l =>
        rw [List.forall₂_cons]
        constructor
        · rintro ⟨y, hy, z, hz, e⟩
          cases e
          exact ⟨(h _ _).1 hy, (ih _).1 hz⟩
        · rintro ⟨h1, h2⟩
          exact ⟨x, (h _ _).2 h1, l, (ih _).2 h2, rfl⟩
  cases v with
  | arr vs =>
    simp only [readList, ListJ, e]
    constructor
    · intro h; exact ⟨vs, rfl, h⟩
    · rintro ⟨_, e, h⟩; cases e; exact h
  | _ => simp [readList, ListJ]

theorem readPair_iff {α β : Type} {ra : Json → Option α} {rb : Json → Option β} {P : α → Json → Prop} {Q : β → Json → Prop}
    (ha : ∀ v x, ra v = some x ↔ P x v) (hb : ∀ v x, rb v = some x ↔ Q x v) {v : Json} {x : α × β} :
    readPair ra rb v = some x ↔ ∃ a b, v = .arr [a, b] ∧ P x.1 a ∧ Q x.2 b := by
  constructor
  · intro h
    unfold readPair at h
    split at h
    · next a b =>
      simp only [Option.bind_eq_bind, Option.bind_eq_some_iff, Option.some.injEq] at h
      obtain ⟨y, hy, z, hz, rfl⟩ := h
      exact ⟨a, b, rfl, (ha _ _).1 hy, (hb _ _).1 hz⟩
    · cases h
  · rintro ⟨a, b, rfl, h1, h2⟩
    simp only [readPair, (ha _ _).2 h1, (hb _ _).2 h2]
    rfl

theorem readKey_iff {v : Json} {k : Int × Nat} : readKey v = some k ↔ KeyJ k v :=
  readPair_iff (fun _ _ => readI64_iff) (fun _ _ => readNat64_iff)

/-! ### Objects -/

theorem req_iff {α : Type} {f : String → Option Json} {k : String} {rd : Json → Option α} {P : α → Json → Prop}
    (h : ∀ v x, rd v = some x ↔ P x v) {x : α} : req f k rd = some x ↔ Need (P x) (f k) := by
  unfold req
  cases f k with
  | none => simp [Need]
  | some v => simp [Need, h]

theorem opt_iff {α : Type} {f : String → Option Json} {k : String} {rd : Json → Option α} {P : α → Json → Prop}
    (h : ∀ v x, rd v = some x ↔ P x v) (h0 : rd .null = none) {o : Option α} : opt f k rd = some o ↔ May P o (f k) := by
  unfold opt
  cases f k with
  | none =>
    simp only [May, Option.some.injEq]
    exact eq_comm
  | some v => exact readOpt_iff h h0

theorem fields_iff {names : List String} {fs : List (String × (Option Json → Prop))} (hn : fs.map Prod.fst = names) {v : Json} :
    (∃ f, fields names v = some f ∧ ∀ e ∈ fs, e.2 (f e.1)) ↔ Fields fs v := by
  cases v with
  | obj l =>
    simp only [fields, Fields]
    constructor
    · rintro ⟨f, hf, h⟩
      split_ifs at hf with hc
      cases hf
      refine ⟨l, rfl, hc.2, fun k hk => ?_, h⟩
      rw [hn]
      exact of_decide_eq_true (List.all_eq_true.1 hc.1 k hk)
    · rintro ⟨l', e, h1, h2, h3⟩
      cases e
      refine ⟨_, if_pos ⟨?_, h1⟩, h3⟩
      rw [List.all_eq_true]
      intro k hk
      rw [hn] at h2
      exact decide_eq_true (h2 k hk)
  | _ => simp [fields, Fields]

theorem unit_iff {α : Type} {x y : α} {v : Json} : unit x v = some y ↔ Fields [] v ∧ x = y := by
  unfold unit
  rw [Option.map_eq_some_iff, ← fields_iff (names := []) (fs := []) rfl]
  constructor
  · rintro ⟨f, hf, rfl⟩; exact ⟨⟨f, hf, by simp⟩, rfl⟩
  · rintro ⟨⟨f, hf, -⟩, rfl⟩; exact ⟨f, hf, rfl⟩

theorem readEnum_iff {α : Type} {table : List (String × (Json → Option α))} (hn : (table.map Prod.fst).Nodup) {j : Json} {m : α} :
    readEnum table j = some m ↔ ∃ e ∈ table, Named e.1 (fun v => e.2 v = some m) j := by
  have hl : ∀ (table : List (String × (Json → Option α))), (table.map Prod.fst).Nodup → ∀ k rd, table.lookup k = some rd ↔ (k, rd) ∈ table := by
    intro table hn k rd
    induction table with
    | nil => simp
    | cons e t ih =>
      obtain ⟨a, b⟩ := e
      rw [List.map_cons, List.nodup_cons] at hn
      rw [List.lookup_cons]
      by_cases h : (k == a) = true
      · have := eq_of_beq h
        subst this
        simp only [h, Option.some.injEq, List.mem_cons, Prod.mk.injEq, true_and]
        constructor
        · intro e; exact Or.inl e.symm
        · rintro (e | e)
          · exact e.symm
          · exact absurd (List.mem_map.2 ⟨_, e, rfl⟩) hn.1
      · have h' : k ≠ a := fun e => h (by rw [e]; exact beq_self_eq_true a)
        simp only [h, ih hn.2, List.mem_cons, Prod.mk.injEq, h', false_and, false_or]
  unfold readEnum
  simp only [Option.bind_eq_some_iff, hl table hn]
  constructor
  · rintro ⟨⟨k, v⟩, hv, rd, hr, h⟩
    unfold variant at hv
    split at hv
    · cases hv
      exact ⟨(k, rd), hr, v, rfl, h⟩
    · cases hv
  · rintro ⟨⟨k, rd⟩, hr, v, rfl, h⟩
    exact ⟨(k, v), rfl, rd, hr, h⟩

end OB
