import Verif.SpecWire
import Verif.Proofs.Json
import Verif.Proofs.Text
/- The parser against the grammar of Verif/SpecWire.lean. -/
namespace OB
open Spec Json

/-! ### Whitespace -/

theorem isSpace_iff (c : Char) : isSpace c = true ↔ c = ' ' ∨ c = '\n' ∨ c = '\t' ∨ c = '\r' := by
  unfold isSpace
  simp only [Bool.or_eq_true, decide_eq_true_eq]
  tauto

theorem skip_spec (l : List Char) : ∃ a, Blank a ∧ l = a ++ skip l := by
  refine ⟨l.takeWhile isSpace, fun c hc => (isSpace_iff c).1 (List.mem_takeWhile_imp hc), ?_⟩
  unfold skip
  exact (List.takeWhile_append_dropWhile).symm

theorem skip_blank {a : List Char} (h : Blank a) (r : List Char) : skip (a ++ r) = skip r := by
  unfold skip
  exact List.dropWhile_append_of_pos fun c hc => (isSpace_iff c).2 (h c hc)

theorem skip_all {a : List Char} (h : Blank a) : skip a = [] := by
  have := skip_blank h []
  simpa [skip] using this

/-- The first character is there and is no whitespace. -/
def Solid (l : List Char) : Prop := ∃ c r, l = c :: r ∧ isSpace c = false

theorem skip_solid {l : List Char} (h : Solid l) (r : List Char) : skip (l ++ r) = l ++ r := by
  obtain ⟨c, l, rfl, hc⟩ := h
  exact skip_cons hc _

/-! ### Strings -/

theorem ofNat_valid {n : Nat} (h : n.isValidChar) : (Char.ofNat n).toNat = n := by
  unfold Char.ofNat
  rw [dif_pos h]
  rfl

theorem hexVal_iff {c : Char} {n : Nat} : hexVal c = some n ↔ HexDigit c n := by
  constructor
  · intro h
    have e : c = Char.ofNat c.toNat := (Char.ofNat_toNat c).symm
    unfold hexVal at h
    split_ifs at h with h1 h2 h3
    · rw [Char.isDigit_iff_toNat] at h1
      obtain ⟨h1, h2⟩ := h1
      have h1' : 48 ≤ c.toNat := h1
      have h2' : c.toNat ≤ 57 := h2
      cases h
      rw [e]
      generalize c.toNat = k at h1' h2'
      interval_cases k <;> exact ⟨by decide, Or.inl (by decide +kernel)⟩
    · cases h
      obtain ⟨h2, h3⟩ := h2
      rw [e]
      generalize c.toNat = k at h2 h3
      interval_cases k <;> exact ⟨by decide, Or.inr (by decide +kernel)⟩
    · cases h
      obtain ⟨h2, h3⟩ := h3
      rw [e]
      generalize c.toNat = k at h2 h3
      interval_cases k <;> exact ⟨by decide, Or.inl (by decide +kernel)⟩
  · rintro ⟨h1, h2⟩
    have k1 : ∀ n < 16, ("0123456789abcdef".toList[n]?).bind hexVal = some n := by decide +kernel
    have k2 : ∀ n < 16, ("0123456789ABCDEF".toList[n]?).bind hexVal = some n := by decide +kernel
    rcases h2 with h2 | h2
    · have := k1 n h1
      rw [h2] at this
      exact this
    · have := k2 n h1
      rw [h2] at this
      exact this

theorem hex4_iff {a b c d : Char} {n : Nat} : hex4 a b c d = some n ↔ Hex4 [a, b, c, d] n := by
  unfold hex4 Hex4
  simp only [Option.bind_eq_bind, Option.bind_eq_some_iff, Option.some.injEq, hexVal_iff]
  constructor
  · rintro ⟨w, hw, x, hx, y, hy, z, hz, rfl⟩
    exact ⟨a, b, c, d, w, x, y, z, rfl, hw, hx, hy, hz, by ring⟩
  · rintro ⟨a', b', c', d', w, x, y, z, e, hw, hx, hy, hz, rfl⟩
    cases e
    exact ⟨w, hw, x, hx, y, hy, z, hz, by ring⟩

theorem hex4_lt {a b c d : Char} {n : Nat} (h : Hex4 [a, b, c, d] n) : n < 65536 := by
  obtain ⟨a', b', c', d', w, x, y, z, e, hw, hx, hy, hz, rfl⟩ := h
  have := hw.1; have := hx.1; have := hy.1; have := hz.1
  omega

theorem hex4_list {t : List Char} {n : Nat} (h : Hex4 t n) : ∃ a b c d, t = [a, b, c, d] := by
  obtain ⟨a, b, c, d, w, x, y, z, e, -⟩ := h
  exact ⟨a, b, c, d, e⟩

/-- Reading strings accepts every raw character. -/
abbrev any : Char → Prop := fun _ => True

theorem readChars_sound {n : Nat} {l cs r : List Char} (h : readChars n l = some (cs, r)) :
    ∃ ts, List.Forall₂ (CharText any) cs ts ∧ l = ts.flatten ++ '"' :: r := by
  induction n generalizing l cs r with
  | zero => simp [readChars] at h
  | succ n ih =>
    have one : ∀ (x : Char) (u : List Char) (l' : List Char), (readChars n l').map (fun p => (x :: p.1, p.2)) = some (cs, r) →
        CharText any x u → ∃ ts, List.Forall₂ (CharText any) cs ts ∧ u ++ l' = ts.flatten ++ '"' :: r := by
      clear h
      intro x u l' h hu
      rw [Option.map_eq_some_iff] at h
      obtain ⟨⟨cs', r'⟩, h', e⟩ := h
      cases e
      obtain ⟨ts, h1, h2⟩ := ih h'
      exact ⟨u :: ts, .cons hu h1, by rw [h2]; simp⟩
    cases l with
    | nil => simp [readChars] at h
    | cons c l =>
    by_cases hq : c = '"'
    · subst hq
      simp only [readChars, Option.some.injEq, Prod.mk.injEq] at h
      obtain ⟨rfl, rfl⟩ := h
      exact ⟨[], .nil, rfl⟩
    by_cases hb : c = '\\'
    · subst hb
      cases l with
      | nil => simp [readChars] at h
      | cons e l =>
      have short : ∀ x, (e, x) ∈ shortEscapes → (readChars n l).map (fun p => (x :: p.1, p.2)) = some (cs, r) →
          ∃ ts, List.Forall₂ (CharText any) cs ts ∧ '\\' :: e :: l = ts.flatten ++ '"' :: r :=
        fun x hx h => one x ['\\', e] l h (.short hx)
      unfold readChars at h
      simp only at h
      split at h
      all_goals first
        | exact short _ (by decide) h
        | skip
      · split at h
        · next a b c d l' =>
          split at h
          · cases h
          · next x hx =>
            rw [hex4_iff] at hx
            split_ifs at h with h1 h2
            · split at h
              · next a' b' c' d' l'' =>
                split at h
                · cases h
                · next y hy =>
                  rw [hex4_iff] at hy
                  split_ifs at h with h3
                  have hv : (0x10000 + (x - 0xD800) * 1024 + (y - 0xDC00)).isValidChar := by right; omega
                  exact one _ ('\\' :: 'u' :: [a, b, c, d] ++ ('\\' :: 'u' :: [a', b', c', d'])) l'' h
                    (.pair hx hy h1.1 h1.2 h3.1 h3.2 (ofNat_valid hv))
              · cases h
            · have hlt := hex4_lt hx
              have hv : x.isValidChar := by
                rcases Nat.lt_or_ge x 0xD800 with h | h
                · exact Or.inl h
                · right; omega
              refine one _ ('\\' :: 'u' :: [a, b, c, d]) l' h (.code ?_)
              rw [ofNat_valid hv]
              exact hx
        · cases h
      · cases h
    rw [readChars] at h
    · exact one c [c] l h (.raw trivial hq hb)
    all_goals simp [hq, hb]

theorem toNat_valid (c : Char) : c.toNat < 0xD800 ∨ (0xDFFF < c.toNat ∧ c.toNat < 0x110000) := by
  have := c.valid
  exact this

theorem readChars_one {raw : Char → Prop} {n : Nat} {c : Char} {u : List Char} (h : CharText raw c u) (l : List Char) :
    readChars (n + 1) (u ++ l) = (readChars n l).map fun p => (c :: p.1, p.2) := by
  cases h with
  | raw h hq hb =>
    rw [List.cons_append, List.nil_append, readChars]
    all_goals simp [hq, hb]
  | @short e _ h =>
    simp only [shortEscapes, List.mem_cons, List.not_mem_nil, or_false, Prod.mk.injEq] at h
    rcases h with ⟨rfl, rfl⟩ | ⟨rfl, rfl⟩ | ⟨rfl, rfl⟩ | ⟨rfl, rfl⟩ | ⟨rfl, rfl⟩ | ⟨rfl, rfl⟩ | ⟨rfl, rfl⟩ | ⟨rfl, rfl⟩ <;> rfl
  | @code t _ h =>
    obtain ⟨a, b, c', d, rfl⟩ := hex4_list h
    have hv := toNat_valid c
    have h' := hex4_iff.2 h
    simp only [List.cons_append, List.nil_append, readChars, h']
    rw [if_neg (by omega), if_neg (by omega), Char.ofNat_toNat]
  | @pair t u x y _ hx hy h0 h1 h2 h3 hc =>
    obtain ⟨a, b, c', d, rfl⟩ := hex4_list hx
    obtain ⟨a', b', c'', d', rfl⟩ := hex4_list hy
    have hx' := hex4_iff.2 hx
    have hy' := hex4_iff.2 hy
    simp only [List.cons_append, List.nil_append, readChars, hx', hy']
    rw [if_pos ⟨h0, h1⟩, if_pos ⟨h2, h3⟩, ← hc, Char.ofNat_toNat]

theorem readChars_complete {raw : Char → Prop} {n : Nat} {cs : List Char} {ts : List (List Char)} (h : List.Forall₂ (CharText raw) cs ts)
    (hn : cs.length < n) (r : List Char) : readChars n (ts.flatten ++ '"' :: r) = some (cs, r) := by
  induction h generalizing n with
  | nil =>
    cases n with
    | zero => simp at hn
    | succ n => rfl
  | cons hc _ ih =>
    cases n with
    | zero => simp at hn
    | succ n =>
      rw [List.flatten_cons, List.append_assoc, readChars_one hc, ih (by simpa using hn)]
      rfl

theorem charText_ne {raw : Char → Prop} {c : Char} {u : List Char} (h : CharText raw c u) : 0 < u.length := by
  cases h <;> simp

theorem chars_len {raw : Char → Prop} {cs : List Char} {ts : List (List Char)} (h : List.Forall₂ (CharText raw) cs ts) :
    cs.length ≤ ts.flatten.length := by
  induction h with
  | nil => simp
  | cons hc _ ih =>
    have := charText_ne hc
    simp only [List.length_cons, List.flatten_cons, List.length_append]
    omega

theorem readStr_sound {l r : List Char} {s : String} (h : readStr l = some (s, r)) : ∃ t, StringText any s t ∧ l = t ++ r := by
  unfold readStr at h
  split at h
  · next l =>
    rw [Option.map_eq_some_iff] at h
    obtain ⟨⟨cs, r'⟩, h', e⟩ := h
    cases e
    obtain ⟨ts, h1, rfl⟩ := readChars_sound h'
    exact ⟨_, ⟨ts, by simpa using h1, rfl⟩, by simp⟩
  · cases h

theorem readStr_complete {raw : Char → Prop} {s : String} {t : List Char} (h : StringText raw s t) (r : List Char) :
    readStr (t ++ r) = some (s, r) := by
  obtain ⟨ts, h1, rfl⟩ := h
  have hl := chars_len h1
  simp only [readStr, List.cons_append, List.append_assoc, List.nil_append]
  rw [readChars_complete h1 (by simp only [List.length_append, List.length_cons]; omega)]
  simp

/-! ### Numbers -/

theorem readDigitsOf_sound {l r : List Char} {n : Nat} (h : readDigitsOf l = some (n, r)) : ∃ t, NumberText n t ∧ l = t ++ r := by
  unfold readDigitsOf at h
  split at h
  · cases h
    exact ⟨['0'], ⟨by decide, Or.inl rfl⟩, rfl⟩
  · next h0 =>
    simp only at h
    split_ifs at h with h1
    cases h
    refine ⟨l.takeWhile Char.isDigit, ⟨?_, Or.inr ?_⟩, List.takeWhile_append_dropWhile.symm⟩
    · rw [number_eq, if_pos ⟨h1, List.all_eq_true.2 fun c hc => List.mem_takeWhile_imp hc⟩]
    · intro c hc e
      subst e
      cases l with
      | nil => simp at hc
      | cons a l =>
        rw [List.takeWhile_cons] at hc
        split_ifs at hc with h2
        · simp only [List.head?_cons, Option.mem_def, Option.some.injEq] at hc
          subst hc
          exact h0 _ rfl
        · simp at hc

theorem readDigitsOf_complete {n : Nat} {t : List Char} (h : NumberText n t) {r : List Char} (hr : NoDigit r) :
    readDigitsOf (t ++ r) = some (n, r) := by
  obtain ⟨h1, rfl | h2⟩ := h
  · have : n = 0 := by
      have : number ['0'] = some 0 := by decide
      rw [this] at h1
      exact (Option.some.inj h1).symm
    subst this
    rfl
  · rw [number_eq] at h1
    split_ifs at h1 with hc
    cases h1
    obtain ⟨hne, hall⟩ := hc
    cases t with
    | nil => exact absurd rfl hne
    | cons a t =>
      have ha : a ≠ '0' := h2 a rfl
      have hall' := List.all_eq_true.1 hall
      have e1 : (a :: t ++ r).takeWhile Char.isDigit = a :: t := by
        rw [List.takeWhile_append_of_pos hall']
        cases r with
        | nil => simp
        | cons b r => rw [List.takeWhile_cons_of_neg (by simp [hr b rfl])]; simp
      have e2 : (a :: t ++ r).dropWhile Char.isDigit = r := by
        rw [List.dropWhile_append_of_pos hall']
        cases r with
        | nil => simp
        | cons b r => rw [List.dropWhile_cons_of_neg (by simp [hr b rfl])]
      unfold readDigitsOf
      split
      · next h => cases h; exact absurd rfl ha
      · simp only [e1, e2]
        rw [if_neg (by simp)]

/-! ### Lists of values -/

theorem commas_one (t : List Char) : commas [t] = t := by simp [commas, List.intercalate]
theorem commas_cons (t u : List Char) (ts : List (List Char)) : commas (t :: u :: ts) = t ++ ',' :: commas (u :: ts) := by
  simp [commas, List.intercalate]

theorem readItems_sound {rd : List Char → Option (Json × List Char)} {P : Json → List Char → Prop}
    (hrd : ∀ s x r, rd s = some (x, r) → ∃ a t, Blank a ∧ P x t ∧ s = a ++ t ++ r) {n : Nat} {s : List Char} {l : List Json} {r : List Char}
    (h : readItems rd n s = some (l, r)) : ∃ ts, l ≠ [] ∧ List.Forall₂ (fun y => Padded (P y)) l ts ∧ s = commas ts ++ ']' :: r := by
  induction n generalizing s l r with
  | zero => simp [readItems] at h
  | succ n ih =>
    unfold readItems at h
    cases hx : rd s with
    | none => rw [hx] at h; cases h
    | some p =>
      obtain ⟨x, r1⟩ := p
      rw [hx] at h
      simp only at h
      obtain ⟨a, t, ha, hP, rfl⟩ := hrd _ _ _ hx
      obtain ⟨b, hb, hr1⟩ := skip_spec r1
      have hpad : Padded (P x) (a ++ t ++ b) := ⟨a, t, b, ha, hP, hb, rfl⟩
      split at h
      · next r2 hs =>
        cases h
        refine ⟨[a ++ t ++ b], by simp, .cons hpad .nil, ?_⟩
        rw [commas_one, hr1, hs]; simp
      · next r2 hs =>
        rw [Option.map_eq_some_iff] at h
        obtain ⟨⟨l', r'⟩, h', e⟩ := h
        cases e
        obtain ⟨ts, hne, h1, rfl⟩ := ih h'
        refine ⟨(a ++ t ++ b) :: ts, by simp, .cons hpad h1, ?_⟩
        cases ts with
        | nil => cases h1; exact absurd rfl hne
        | cons u ts => rw [commas_cons, hr1, hs]; simp
      · cases h

theorem noDigit_blank {b : List Char} (h : Blank b) {c : Char} (hc : c.isDigit = false) (r : List Char) : NoDigit (b ++ c :: r) := by
  intro x hx
  cases b with
  | nil =>
    simp only [List.nil_append, List.head?_cons, Option.mem_def, Option.some.injEq] at hx
    exact hx ▸ hc
  | cons y b =>
    simp only [List.cons_append, List.head?_cons, Option.mem_def, Option.some.injEq] at hx
    subst hx
    rcases h y List.mem_cons_self with rfl | rfl | rfl | rfl <;> decide

theorem readItems_complete {rd : List Char → Option (Json × List Char)} {P : Json → List Char → Prop}
    (hrd : ∀ x t a r, P x t → Blank a → NoDigit r → rd (a ++ t ++ r) = some (x, r)) {l : List Json} {ts : List (List Char)}
    (h : List.Forall₂ (fun y => Padded (P y)) l ts) (hl : l ≠ []) {n : Nat} (hn : l.length ≤ n) (r : List Char) :
    readItems rd n (commas ts ++ ']' :: r) = some (l, r) := by
  induction h generalizing n with
  | nil => exact absurd rfl hl
  | @cons x t l ts hx ht ih =>
    cases n with
    | zero => simp at hn
    | succ n =>
      obtain ⟨a, u, b, ha, hP, hb, rfl⟩ := hx
      unfold readItems
      cases ht with
      | nil =>
        rw [commas_one]
        have e : a ++ u ++ b ++ ']' :: r = a ++ u ++ (b ++ ']' :: r) := by simp
        rw [e, hrd _ _ _ _ hP ha (noDigit_blank hb (by decide) r)]
        simp only [skip_blank hb, skip_cons (show isSpace ']' = false by decide)]
      | @cons x' t' l' ts' hx' ht' =>
        rw [commas_cons]
        have e : a ++ u ++ b ++ ',' :: commas (t' :: ts') ++ ']' :: r = a ++ u ++ (b ++ ',' :: (commas (t' :: ts') ++ ']' :: r)) := by simp
        rw [e, hrd _ _ _ _ hP ha (noDigit_blank hb (by decide) _)]
        simp only [skip_blank hb, skip_cons (show isSpace ',' = false by decide)]
        rw [ih (by simp) (by simpa using hn)]
        rfl

/-- The text of one entry of an object. -/
def EntryText (raw : Char → Prop) (P : Json → List Char → Prop) (y : String × Json) (u : List Char) : Prop :=
  ∃ k v, Padded (StringText raw y.1) k ∧ Padded (P y.2) v ∧ u = k ++ ':' :: v

theorem stringText_solid {raw : Char → Prop} {s : String} {t : List Char} (h : StringText raw s t) : Solid t := by
  obtain ⟨ts, -, rfl⟩ := h
  exact ⟨'"', _, rfl, by decide⟩

theorem readEntries_sound {rd : List Char → Option (Json × List Char)} {P : Json → List Char → Prop}
    (hrd : ∀ s x r, rd s = some (x, r) → ∃ a t, Blank a ∧ P x t ∧ s = a ++ t ++ r) {n : Nat} {s : List Char} {l : List (String × Json)}
    {r : List Char} (h : readEntries rd n s = some (l, r)) :
    ∃ ts, l ≠ [] ∧ List.Forall₂ (EntryText any P) l ts ∧ s = commas ts ++ '}' :: r := by
  induction n generalizing s l r with
  | zero => simp [readEntries] at h
  | succ n ih =>
    unfold readEntries at h
    obtain ⟨a0, ha0, hs0⟩ := skip_spec s
    cases hk : readStr (skip s) with
    | none => rw [hk] at h; cases h
    | some p =>
      obtain ⟨k, r0⟩ := p
      rw [hk] at h
      simp only at h
      obtain ⟨tk, hk1, hk2⟩ := readStr_sound hk
      obtain ⟨b0, hb0, hr0⟩ := skip_spec r0
      have hkey : Padded (StringText any k) (a0 ++ tk ++ b0) := ⟨a0, tk, b0, ha0, hk1, hb0, rfl⟩
      split at h
      · next r00 hcol =>
        cases hx : rd r00 with
        | none => rw [hx] at h; cases h
        | some p =>
          obtain ⟨x, r1⟩ := p
          rw [hx] at h
          simp only at h
          obtain ⟨a, t, ha, hP, rfl⟩ := hrd _ _ _ hx
          obtain ⟨b, hb, hr1⟩ := skip_spec r1
          have hpad : Padded (P x) (a ++ t ++ b) := ⟨a, t, b, ha, hP, hb, rfl⟩
          have hent : EntryText any P (k, x) (a0 ++ tk ++ b0 ++ ':' :: (a ++ t ++ b)) := ⟨_, _, hkey, hpad, rfl⟩
          split at h
          · next r2 hs =>
            cases h
            refine ⟨[_], by simp, .cons hent .nil, ?_⟩
            rw [commas_one, hs0, hk2, hr0, hcol, hr1, hs]; simp
          · next r2 hs =>
            rw [Option.map_eq_some_iff] at h
            obtain ⟨⟨l', r'⟩, h', e⟩ := h
            cases e
            obtain ⟨ts, hne, h1, rfl⟩ := ih h'
            refine ⟨_ :: ts, by simp, .cons hent h1, ?_⟩
            cases ts with
            | nil => cases h1; exact absurd rfl hne
            | cons u ts => rw [commas_cons, hs0, hk2, hr0, hcol, hr1, hs]; simp
          · cases h
      · cases h

theorem readEntries_complete {raw : Char → Prop} {rd : List Char → Option (Json × List Char)} {P : Json → List Char → Prop}
    (hrd : ∀ x t a r, P x t → Blank a → NoDigit r → rd (a ++ t ++ r) = some (x, r)) {l : List (String × Json)} {ts : List (List Char)}
    (h : List.Forall₂ (EntryText raw P) l ts) (hl : l ≠ []) {n : Nat} (hn : l.length ≤ n) (r : List Char) :
    readEntries rd n (commas ts ++ '}' :: r) = some (l, r) := by
  induction h generalizing n with
  | nil => exact absurd rfl hl
  | @cons x t l ts hx ht ih =>
    cases n with
    | zero => simp at hn
    | succ n =>
      obtain ⟨k, v, ⟨a0, tk, b0, ha0, hk, hb0, rfl⟩, ⟨a, u, b, ha, hP, hb, rfl⟩, rfl⟩ := hx
      unfold readEntries
      cases ht with
      | nil =>
        rw [commas_one]
        have e : a0 ++ tk ++ b0 ++ ':' :: (a ++ u ++ b) ++ '}' :: r = a0 ++ (tk ++ (b0 ++ ':' :: (a ++ u ++ (b ++ '}' :: r)))) := by simp
        rw [e, skip_blank ha0, skip_solid (stringText_solid hk), readStr_complete hk]
        simp only [skip_blank hb0, skip_cons (show isSpace ':' = false by decide)]
        rw [hrd _ _ _ _ hP ha (noDigit_blank hb (by decide) r)]
        simp only [skip_blank hb, skip_cons (show isSpace '}' = false by decide)]
      | @cons x' t' l' ts' hx' ht' =>
        rw [commas_cons]
        have e : a0 ++ tk ++ b0 ++ ':' :: (a ++ u ++ b) ++ ',' :: commas (t' :: ts') ++ '}' :: r =
          a0 ++ (tk ++ (b0 ++ ':' :: (a ++ u ++ (b ++ ',' :: (commas (t' :: ts') ++ '}' :: r))))) := by simp
        rw [e, skip_blank ha0, skip_solid (stringText_solid hk), readStr_complete hk]
        simp only [skip_blank hb0, skip_cons (show isSpace ':' = false by decide)]
        rw [hrd _ _ _ _ hP ha (noDigit_blank hb (by decide) _)]
        simp only [skip_blank hb, skip_cons (show isSpace ',' = false by decide)]
        rw [ih (by simp) (by simpa using hn)]
        rfl

/-! ### Values -/

theorem jsonText_head {raw : Char → Prop} {d : Nat} {j : Json} {t : List Char} (h : JsonText raw d j t) :
    ∃ c r, t = c :: r ∧ isSpace c = false ∧ c ≠ ']' := by
  match d, j, h with
  | d + 1, .null, h => simp only [JsonText] at h; subst h; exact ⟨'n', "ull".toList, by decide +kernel, by decide⟩
  | d + 1, .bool b, h =>
    simp only [JsonText] at h; subst h
    cases b
    · exact ⟨'f', "alse".toList, by decide +kernel, by decide⟩
    · exact ⟨'t', "rue".toList, by decide +kernel, by decide⟩
  | d + 1, .num neg n, h =>
    simp only [JsonText] at h
    obtain ⟨u, ⟨hu, -⟩, rfl⟩ := h
    cases neg
    · unfold number at hu
      split_ifs at hu with hc
      cases u with
      | nil => exact absurd rfl hc.1
      | cons c u =>
        refine ⟨c, u, rfl, ?_⟩
        have := hc.2 c List.mem_cons_self
        simp only [List.mem_cons, List.not_mem_nil, or_false] at this
        rcases this with rfl | rfl | rfl | rfl | rfl | rfl | rfl | rfl | rfl | rfl <;> decide
    · exact ⟨'-', u, rfl, by decide⟩
  | d + 1, .str s, h => 
    simp only [JsonText] at h
    obtain ⟨ts, -, rfl⟩ := h
    exact ⟨'"', _, rfl, by decide⟩
  | d + 1, .arr [], h => simp only [JsonText] at h; obtain ⟨a, -, rfl⟩ := h; exact ⟨'[', _, rfl, by decide⟩
  | d + 1, .obj [], h => simp only [JsonText] at h; obtain ⟨a, -, rfl⟩ := h; exact ⟨'{', _, rfl, by decide⟩
  | d + 1, .arr (x :: l), h => simp only [JsonText] at h; obtain ⟨a, -, rfl⟩ := h; exact ⟨'[', _, rfl, by decide⟩
  | d + 1, .obj (x :: l), h => simp only [JsonText] at h; obtain ⟨a, -, rfl⟩ := h; exact ⟨'{', _, rfl, by decide⟩

theorem readValue_sound {d : Nat} {s r : List Char} {j : Json} (h : readValue d s = some (j, r)) :
    ∃ a t, Blank a ∧ JsonText any d j t ∧ s = a ++ t ++ r := by
  induction d generalizing s r j with
  | zero => simp [readValue] at h
  | succ d ih =>
    obtain ⟨a, ha, hs⟩ := skip_spec s
    have done : ∀ t, JsonText any (d + 1) j t → skip s = t ++ r → ∃ a t, Blank a ∧ JsonText any (d + 1) j t ∧ s = a ++ t ++ r :=
      fun t ht e => ⟨a, t, ha, ht, by rw [hs, e, List.append_assoc]⟩
    unfold readValue at h
    split at h
    · next r1 e => cases h; exact done "null".toList (by simp [JsonText]) (by rw [e]; simp)
    · next r1 e => cases h; exact done "true".toList (by simp [JsonText]) (by rw [e]; simp)
    · next r1 e => cases h; exact done "false".toList (by simp [JsonText]) (by rw [e]; simp)
    · next r1 e =>
      rw [Option.map_eq_some_iff] at h
      obtain ⟨⟨x, r2⟩, h', e'⟩ := h
      cases e'
      obtain ⟨t, ht, e2⟩ := readStr_sound h'
      exact done t ht (by rw [e, e2])
    · next r1 e =>
      obtain ⟨b, hb, hr1⟩ := skip_spec r1
      split at h
      · next r2 e2 =>
        cases h
        refine done ('[' :: (b ++ [']'])) ?_ (by rw [e, hr1, e2]; simp)
        simp only [JsonText]
        exact ⟨b, hb, rfl⟩
      · rw [Option.map_eq_some_iff] at h
        obtain ⟨⟨l, r2⟩, h', e'⟩ := h
        cases e'
        obtain ⟨ts, hne, h1, rfl⟩ := readItems_sound (fun s x r hx => ih hx) h'
        cases l with
        | nil => exact absurd rfl hne
        | cons x l =>
          refine done ('[' :: (commas ts ++ [']'])) ?_ (by rw [e]; simp)
          simp only [JsonText]
          exact ⟨ts, h1, rfl⟩
    · next r1 e =>
      obtain ⟨b, hb, hr1⟩ := skip_spec r1
      split at h
      · next r2 e2 =>
        cases h
        refine done ('{' :: (b ++ ['}'])) ?_ (by rw [e, hr1, e2]; simp)
        simp only [JsonText]
        exact ⟨b, hb, rfl⟩
      · rw [Option.map_eq_some_iff] at h
        obtain ⟨⟨l, r2⟩, h', e'⟩ := h
        cases e'
        obtain ⟨ts, hne, h1, rfl⟩ := readEntries_sound (fun s x r hx => ih hx) h'
        cases l with
        | nil => exact absurd rfl hne
        | cons x l =>
          refine done ('{' :: (commas ts ++ ['}'])) ?_ (by rw [e]; simp)
          simp only [JsonText]
          exact ⟨ts, h1, rfl⟩
    · next r1 e =>
      rw [Option.map_eq_some_iff] at h
      obtain ⟨⟨n, r2⟩, h', e'⟩ := h
      cases e'
      obtain ⟨t, ht, rfl⟩ := readDigitsOf_sound h'
      refine done ('-' :: t) ?_ (by rw [e]; simp)
      simp only [JsonText]
      exact ⟨t, ht, rfl⟩
    · rw [Option.map_eq_some_iff] at h
      obtain ⟨⟨n, r2⟩, h', e'⟩ := h
      cases e'
      obtain ⟨t, ht, e2⟩ := readDigitsOf_sound h'
      refine done t ?_ e2
      simp only [JsonText]
      exact ⟨t, ht, rfl⟩

theorem padded_len {P : List Char → Prop} (hP : ∀ u, P u → 0 < u.length) {t : List Char} (h : Padded P t) : 0 < t.length := by
  obtain ⟨a, u, b, -, hu, -, rfl⟩ := h
  have := hP u hu
  simp only [List.length_append]
  omega

theorem commas_len {α : Type} {Q : α → List Char → Prop} (hQ : ∀ x u, Q x u → 0 < u.length) {l : List α} {ts : List (List Char)}
    (h : List.Forall₂ Q l ts) : l.length ≤ (commas ts).length := by
  induction h with
  | nil => simp
  | @cons x t l ts hx ht ih =>
    have := hQ _ _ hx
    cases ht with
    | nil => rw [commas_one]; simp; omega
    | cons hx' ht' =>
      rw [commas_cons]
      simp only [List.length_cons, List.length_append] at ih ⊢
      omega

theorem readValue_complete {raw : Char → Prop} {d : Nat} {j : Json} {t : List Char} (h : JsonText raw d j t) {a r : List Char} (ha : Blank a)
    (hr : NoDigit r) : readValue d (a ++ t ++ r) = some (j, r) := by
  induction d generalizing j t a r with
  | zero => simp [JsonText] at h
  | succ d ih =>
    obtain ⟨c0, t0, et, hc0, hc0'⟩ := jsonText_head h
    have hsolid : Solid t := ⟨c0, t0, et, hc0⟩
    unfold readValue
    rw [List.append_assoc, skip_blank ha, skip_solid hsolid]
    match j, h with
    | .null, h => simp only [JsonText] at h; subst h; simp
    | .bool b, h => simp only [JsonText] at h; subst h; cases b <;> simp
    | .num true n, h =>
      simp only [JsonText, if_true] at h
      obtain ⟨u, hu, rfl⟩ := h
      simp only [List.cons_append]
      rw [readDigitsOf_complete hu hr]; rfl
    | .num false n, h =>
      simp only [JsonText, Bool.false_eq_true, if_false] at h
      obtain ⟨u, hu, rfl⟩ := h
      have hrd := readDigitsOf_complete hu hr
      have hu1 := hu.1
      unfold number at hu1
      split_ifs at hu1 with hc
      subst et
      have := hc.2 c0 List.mem_cons_self
      simp only [List.mem_cons, List.not_mem_nil, or_false] at this
      simp only [List.cons_append] at hrd ⊢
      rcases this with rfl | rfl | rfl | rfl | rfl | rfl | rfl | rfl | rfl | rfl <;>
        exact (congrArg (Option.map fun p : Nat × List Char => (Json.num false p.1, p.2)) hrd)
    | .str s, h =>
      simp only [JsonText] at h
      have h2 := readStr_complete h r
      obtain ⟨ts, -, rfl⟩ := h
      simp only [List.cons_append] at h2 ⊢
      rw [h2]; rfl
    | .arr [], h =>
      simp only [JsonText] at h
      obtain ⟨b, hb, rfl⟩ := h
      simp [skip_blank hb, skip_cons (show isSpace ']' = false by decide)]
    | .obj [], h =>
      simp only [JsonText] at h
      obtain ⟨b, hb, rfl⟩ := h
      simp [skip_blank hb, skip_cons (show isSpace '}' = false by decide)]
    | .arr (x :: l), h =>
      simp only [JsonText] at h
      obtain ⟨ts, hts, rfl⟩ := h
      have hlen := commas_len (fun y u (hu : Padded (JsonText raw d y) u) => padded_len (fun v hv => by
        obtain ⟨c, r, e, -⟩ := jsonText_head hv
        rw [e]; simp) hu) hts
      have e : '[' :: (commas ts ++ [']']) ++ r = '[' :: (commas ts ++ ']' :: r) := by simp
      have hit := readItems_complete (rd := readValue d) (fun x t a r hx ha hr => ih hx ha hr) hts (by simp)
        (n := (commas ts ++ ']' :: r).length) (by rw [List.length_append]; omega) r
      rw [e]
      simp only
      obtain ⟨c, r', es, hc⟩ : ∃ c r', skip (commas ts ++ ']' :: r) = c :: r' ∧ c ≠ ']' := by
        cases hts with
        | @cons _ t' _ ts' hx hl =>
          obtain ⟨a1, u, b1, ha1, hu, hb1, rfl⟩ := hx
          obtain ⟨c, u', rfl, hc1, hc2⟩ := jsonText_head hu
          cases ts' with
          | nil =>
            rw [commas_one, List.append_assoc, List.append_assoc, skip_blank ha1]
            exact ⟨c, _, skip_cons hc1 _, hc2⟩
          | cons v ts' =>
            rw [commas_cons, List.append_assoc, List.append_assoc, List.append_assoc, skip_blank ha1]
            exact ⟨c, _, skip_cons hc1 _, hc2⟩
      rw [es]
      split
      · next he => simp only [List.cons.injEq] at he; exact absurd he.1 hc
      · rw [hit]; rfl
    | .obj (x :: l), h =>
      simp only [JsonText] at h
      obtain ⟨ts, hts, rfl⟩ := h
      have hts' : List.Forall₂ (EntryText raw (JsonText raw d)) (x :: l) ts := hts
      have hlen := commas_len (fun y u (hu : EntryText raw (JsonText raw d) y u) => by
        obtain ⟨k, v, -, -, rfl⟩ := hu
        simp) hts'
      have e : '{' :: (commas ts ++ ['}']) ++ r = '{' :: (commas ts ++ '}' :: r) := by simp
      have hit := readEntries_complete (rd := readValue d) (fun x t a r hx ha hr => ih hx ha hr) hts' (by simp)
        (n := (commas ts ++ '}' :: r).length) (by rw [List.length_append]; omega) r
      rw [e]
      simp only
      obtain ⟨r', es⟩ : ∃ r', skip (commas ts ++ '}' :: r) = '"' :: r' := by
        cases hts' with
        | @cons _ t' _ ts' hx hl =>
          obtain ⟨k, v, ⟨a0, tk, b0, ha0, ⟨us, -, rfl⟩, hb0, rfl⟩, -, rfl⟩ := hx
          cases ts' with
          | nil =>
            rw [commas_one, List.append_assoc, List.append_assoc, List.append_assoc, skip_blank ha0]
            exact ⟨_, skip_cons (by decide) _⟩
          | cons v ts' =>
            rw [commas_cons, List.append_assoc, List.append_assoc, List.append_assoc, List.append_assoc, skip_blank ha0]
            exact ⟨_, skip_cons (by decide) _⟩
      rw [es]
      rw [hit]; rfl

theorem parse_iff {t : List Char} {j : Json} : parse t = some j ↔ Readable t j := by
  unfold parse Readable
  constructor
  · intro h
    split at h
    · next j' r e =>
      split_ifs at h with h1
      cases h
      obtain ⟨a, u, ha, hu, rfl⟩ := readValue_sound e
      obtain ⟨b, hb, hr⟩ := skip_spec r
      rw [h1, List.append_nil] at hr
      subst hr
      exact ⟨a, u, r, ha, hu, hb, rfl⟩
    · cases h
  · rintro ⟨a, u, b, ha, hu, hb, rfl⟩
    have hnd : NoDigit b := by
      intro c hc
      cases b with
      | nil => simp at hc
      | cons y b =>
        simp only [List.head?_cons, Option.mem_def, Option.some.injEq] at hc
        subst hc
        rcases hb y List.mem_cons_self with rfl | rfl | rfl | rfl <;> decide
    rw [show maxDepth = 128 from rfl, readValue_complete hu ha hnd]
    simp only [skip_all hb, if_true]

end OB
