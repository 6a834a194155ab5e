import Verif.Model.Json
import Verif.Proofs.Text
/- Reading back what was written as JSON. -/
namespace OB
open Spec
namespace Json

theorem ofNat_toNat (c : Char) : Char.ofNat c.toNat = c := Char.ofNat_toNat c

theorem hexVal_hexDigit {n : Nat} (h : n < 16) : hexVal (hexDigit n) = some n := by
  interval_cases n <;> decide +kernel

/-- An escaped string is read back, up to its closing quote. -/
theorem readChars_esc (s rest : List Char) {n : Nat} (hn : s.length < n) :
    readChars n (s.flatMap escChar ++ '"' :: rest) = some (s, rest) := by
  induction s generalizing n with
  | nil =>
    obtain ⟨n, rfl⟩ : ∃ m, n = m + 1 := ⟨n - 1, by simp at hn; omega⟩
    simp [readChars]
  | cons c s ih =>
    obtain ⟨n, rfl⟩ : ∃ m, n = m + 1 := ⟨n - 1, by simp at hn; omega⟩
    have ih := ih (n := n) (by simp at hn; omega)
    rw [List.flatMap_cons, List.append_assoc]
    generalize s.flatMap escChar ++ '"' :: rest = X at ih
    have hc := ofNat_toNat c
    unfold escChar
    split_ifs with h1 h2 h3 h4 h5 h6 h7 h8
    · subst h1; simp [readChars, ih]
    · subst h2; simp [readChars, ih]
    · rw [h3] at hc; simp [readChars, ih]; exact hc
    · rw [h4] at hc; simp [readChars, ih]; exact hc
    · rw [h5] at hc; simp [readChars, ih]; exact hc
    · rw [h6] at hc; simp [readChars, ih]; exact hc
    · rw [h7] at hc; simp [readChars, ih]; exact hc
    · have hx : hex4 '0' '0' (hexDigit (c.toNat / 16)) (hexDigit (c.toNat % 16)) = some c.toNat := by
        unfold hex4
        rw [hexVal_hexDigit (by omega), hexVal_hexDigit (by omega)]
        have h0 : hexVal '0' = some 0 := by decide +kernel
        rw [h0]
        simp only [Option.bind_eq_bind, Option.bind_some, Option.some.injEq]
        omega
      simp only [List.cons_append, List.nil_append, readChars, hx]
      rw [if_neg (by omega), if_neg (by omega), ih]
      simp [hc]
    · simp only [List.cons_append, List.nil_append]
      rw [readChars]
      · rw [ih]; rfl
      · exact h1
      · intro a b hh; exact absurd hh h2
      · intro hh; exact absurd hh h2

theorem readStr_text (s : String) (rest : List Char) : readStr (strText s ++ rest) = some (s, rest) := by
  unfold strText
  simp only [List.cons_append, List.append_assoc, List.nil_append, readStr]
  rw [readChars_esc]
  · simp
  · have : ∀ l : List Char, l.length ≤ (l.flatMap escChar).length := by
      intro l
      induction l with
      | nil => simp
      | cons c l ih =>
        rw [List.flatMap_cons, List.length_append, List.length_cons]
        have : 0 < (escChar c).length := by unfold escChar; split_ifs <;> simp
        omega
    have := this s.toList
    simp only [List.length_append, List.length_cons]
    omega

/-- What follows a number: no digit. -/
def NoDigit (l : List Char) : Prop := ∀ c ∈ l.head?, c.isDigit = false

theorem digitsText_head {k n : Nat} (hk : 0 < k) (h : n < 2 ^ k) (h0 : n ≠ 0) : ∃ c r, digitsText k n = c :: r ∧ c ≠ '0' := by
  induction k generalizing n with
  | zero => omega
  | succ k ih =>
    unfold digitsText
    split_ifs with h10
    · refine ⟨_, [], rfl, ?_⟩
      interval_cases n <;> first | omega | decide +kernel
    · have hk' : 0 < k := by
        rcases Nat.eq_zero_or_pos k with rfl | h; · simp at h; omega
        · exact h
      obtain ⟨c, r, e, hc⟩ := ih hk' (n := n / 10) (by rw [Nat.pow_succ] at h; omega) (by omega)
      exact ⟨c, r ++ _, by rw [e]; rfl, hc⟩

theorem natText_head {n : Nat} (h0 : n ≠ 0) : ∃ c r, natText n = c :: r ∧ c ≠ '0' :=
  digitsText_head (by omega) Nat.lt_log2_self h0

theorem readDigitsOf_text (n : Nat) {rest : List Char} (hr : NoDigit rest) : readDigitsOf (natText n ++ rest) = some (n, rest) := by
  by_cases h0 : n = 0
  · subst h0
    have : natText 0 = ['0'] := by decide +kernel
    rw [this]; rfl
  · obtain ⟨c, r, e, hc⟩ := natText_head h0
    have hd := natText_digits n
    have hnum := number_natText n
    rw [number_eq, if_pos ⟨natText_ne_nil n, hd⟩] at hnum
    have htd : (natText n ++ rest).takeWhile Char.isDigit = natText n ∧ (natText n ++ rest).dropWhile Char.isDigit = rest := by
      have hall : ∀ x ∈ natText n, x.isDigit = true := by simpa using hd
      rw [List.takeWhile_append_of_pos hall, List.dropWhile_append_of_pos hall]
      cases rest with
      | nil => simp
      | cons x rest =>
        have := hr x (by simp)
        simp [this]
    unfold readDigitsOf
    rw [e]
    simp only [List.cons_append]
    split
    · next he => simp only [List.cons.injEq] at he; exact absurd he.1 hc
    · rw [← List.cons_append, ← e, htd.1, htd.2, if_neg (natText_ne_nil n)]
      simpa using hnum

/-- Nesting at most `d`. -/
def Within : Nat → Json → Prop
  | 0, _ => False
  | d + 1, .arr l => ∀ x ∈ l, Within d x
  | d + 1, .obj l => ∀ x ∈ l, Within d x.2
  | _ + 1, _ => True

theorem text_head (j : Json) : ∃ c r, j.text = c :: r ∧ isSpace c = false ∧ c ≠ ']' ∧ c ≠ '}' := by
  cases j with
  | null => exact ⟨'n', ['u', 'l', 'l'], by simp [text], by decide⟩
  | bool b => cases b
              · exact ⟨'f', ['a', 'l', 's', 'e'], by simp [text, boolText], by decide⟩
              · exact ⟨'t', ['r', 'u', 'e'], by simp [text, boolText], by decide⟩
  | num neg n =>
    cases neg with
    | true => exact ⟨'-', natText n, by simp [text], by decide⟩
    | false =>
      cases e : natText n with
      | nil => exact absurd e (natText_ne_nil n)
      | cons c r =>
        have hc : c.isDigit = true := by
          have := natText_digits n
          rw [e] at this
          simp only [List.all_cons, Bool.and_eq_true] at this
          exact this.1
        refine ⟨c, r, by simp [text, e], ?_⟩
        have := mem_digits hc
        simp only [List.mem_cons, List.not_mem_nil, or_false] at this
        rcases this with rfl | rfl | rfl | rfl | rfl | rfl | rfl | rfl | rfl | rfl <;> decide
  | str s => exact ⟨'"', _, by simp only [text, strText]; rfl, by decide⟩
  | arr l => exact ⟨'[', _, by simp only [text]; rfl, by decide⟩
  | obj l => exact ⟨'{', _, by simp only [text]; rfl, by decide⟩

theorem skip_cons {c : Char} (h : isSpace c = false) (r : List Char) : skip (c :: r) = c :: r := by
  unfold skip; rw [List.dropWhile_cons_of_neg (by simp [h])]

theorem skip_text (j : Json) (rest : List Char) : skip (j.text ++ rest) = j.text ++ rest := by
  obtain ⟨c, r, e, h, -⟩ := text_head j
  rw [e, List.cons_append, skip_cons h]

theorem text_pos (j : Json) : 0 < j.text.length := by
  obtain ⟨c, r, e, -⟩ := text_head j
  rw [e]; simp

theorem items_len (l : List Json) : l.length ≤ (itemsText l).length := by
  induction l with
  | nil => simp
  | cons x l ih =>
    have := text_pos x
    cases l with
    | nil => simp [itemsText]
    | cons y l => simp only [itemsText, List.length_append, List.length_cons] at *; omega

theorem entries_len (l : List (String × Json)) : l.length ≤ (entriesText l).length := by
  induction l with
  | nil => simp
  | cons x l ih =>
    cases l with
    | nil => simp [entriesText]; omega
    | cons y l => simp only [entriesText, List.length_append, List.length_cons] at *; omega

theorem readItems_text {rd : List Char → Option (Json × List Char)} {l : List Json} (hl : l ≠ [])
    (h : ∀ x ∈ l, ∀ rest, NoDigit rest → rd (x.text ++ rest) = some (x, rest)) {n : Nat} (hn : l.length ≤ n) (rest : List Char) :
    readItems rd n (itemsText l ++ rest) = some (l, rest) := by
  induction l generalizing n with
  | nil => exact absurd rfl hl
  | cons x l ih =>
    obtain ⟨n, rfl⟩ : ∃ m, n = m + 1 := ⟨n - 1, by simp at hn; omega⟩
    cases l with
    | nil =>
      simp only [itemsText, List.append_assoc, readItems, List.cons_append, List.nil_append]
      rw [h x (by simp) _ (by intro c hc; simp at hc; subst hc; decide)]
      simp only [skip_cons (show isSpace ']' = false by decide)]
    | cons y l =>
      simp only [itemsText, List.append_assoc, readItems, List.cons_append]
      rw [h x (by simp) _ (by intro c hc; simp at hc; subst hc; decide)]
      simp only [skip_cons (show isSpace ',' = false by decide)]
      rw [ih (by simp) (fun z hz => h z (List.mem_cons_of_mem _ hz)) (by simp at hn ⊢; omega)]
      rfl

theorem readEntries_text {rd : List Char → Option (Json × List Char)} {l : List (String × Json)} (hl : l ≠ [])
    (h : ∀ x ∈ l, ∀ rest, NoDigit rest → rd (x.2.text ++ rest) = some (x.2, rest)) {n : Nat} (hn : l.length ≤ n) (rest : List Char) :
    readEntries rd n (entriesText l ++ rest) = some (l, rest) := by
  have hq : ∀ (s : String) (r : List Char), skip (strText s ++ r) = strText s ++ r := fun s r => by
    unfold strText; rw [List.cons_append, skip_cons (by decide)]
  induction l generalizing n with
  | nil => exact absurd rfl hl
  | cons x l ih =>
    obtain ⟨n, rfl⟩ : ∃ m, n = m + 1 := ⟨n - 1, by simp at hn; omega⟩
    cases l with
    | nil =>
      simp only [entriesText, List.append_assoc, readEntries, List.cons_append, List.nil_append]
      rw [hq, readStr_text]
      simp only [skip_cons (show isSpace ':' = false by decide)]
      rw [h x (by simp) _ (by intro c hc; simp at hc; subst hc; decide)]
      simp only [skip_cons (show isSpace '}' = false by decide)]
    | cons y l =>
      simp only [entriesText, List.append_assoc, readEntries, List.cons_append]
      rw [hq, readStr_text]
      simp only [skip_cons (show isSpace ':' = false by decide)]
      rw [h x (by simp) _ (by intro c hc; simp at hc; subst hc; decide)]
      simp only [skip_cons (show isSpace ',' = false by decide)]
      rw [ih (by simp) (fun z hz => h z (List.mem_cons_of_mem _ hz)) (by simp at hn ⊢; omega)]
      rfl

/-- A written value is read back, whatever follows that cannot continue a number. -/
theorem readValue_text {d : Nat} {j : Json} (hd : Within d j) {rest : List Char} (hr : NoDigit rest) :
    readValue d (j.text ++ rest) = some (j, rest) := by
  induction d generalizing j rest with
  | zero => exact hd.elim
  | succ d ih =>
    unfold readValue
    rw [skip_text]
    cases j with
    | null => simp [text]
    | bool b => cases b <;> simp [text, boolText]
    | str s =>
      have e : (Json.str s).text ++ rest = '"' :: (s.toList.flatMap escChar ++ ['"'] ++ rest) := by simp [text, strText]
      have := readStr_text s rest
      simp only [strText, List.cons_append] at this
      rw [e]
      simp only [this, Option.map_some]
    | num neg n =>
      cases neg with
      | true =>
        simp only [text, if_true, List.cons_append]
        rw [readDigitsOf_text n hr]; rfl
      | false =>
        have hrd := readDigitsOf_text n hr
        simp only [text, Bool.false_eq_true, if_false]
        cases e : natText n with
        | nil => exact absurd e (natText_ne_nil n)
        | cons c r =>
          have hc : c.isDigit = true := by
            have := natText_digits n
            rw [e] at this
            simp only [List.all_cons, Bool.and_eq_true] at this
            exact this.1
          rw [e] at hrd
          simp only [List.cons_append] at hrd ⊢
          have := mem_digits hc
          simp only [List.mem_cons, List.not_mem_nil, or_false] at this
          rcases this with rfl | rfl | rfl | rfl | rfl | rfl | rfl | rfl | rfl | rfl <;>
            exact (congrArg (Option.map fun p : Nat × List Char => (Json.num false p.1, p.2)) hrd)
    | arr l =>
      cases l with
      | nil => simp [text, itemsText, skip_cons (show isSpace ']' = false by decide)]
      | cons x l =>
        simp only [text, List.cons_append]
        have hh : ∃ c r, itemsText (x :: l) ++ rest = c :: r ∧ isSpace c = false ∧ c ≠ ']' := by
          obtain ⟨c, r, e, h1, h2, -⟩ := text_head x
          cases l with
          | nil => exact ⟨c, _, by simp only [itemsText, e, List.cons_append]; rfl, h1, h2⟩
          | cons y l => exact ⟨c, _, by simp only [itemsText, e, List.cons_append]; rfl, h1, h2⟩
        have hit := readItems_text (rd := readValue d) (l := x :: l) (by simp) (fun z hz r hr => ih (hd z hz) hr)
          (n := (itemsText (x :: l) ++ rest).length) (by have := items_len (x :: l); rw [List.length_append]; omega) rest
        obtain ⟨c, r, e, h1, h2⟩ := hh
        rw [e] at hit ⊢
        rw [skip_cons h1]
        split
        · next he => simp only [List.cons.injEq] at he; exact absurd he.1 h2
        · rw [hit]; rfl
    | obj l =>
      cases l with
      | nil => simp [text, entriesText, skip_cons (show isSpace '}' = false by decide)]
      | cons x l =>
        simp only [text, List.cons_append]
        have hh : ∃ r, entriesText (x :: l) ++ rest = '"' :: r := by
          cases l with
          | nil => exact ⟨_, by simp only [entriesText, strText, List.cons_append]; rfl⟩
          | cons y l => exact ⟨_, by simp only [entriesText, strText, List.cons_append]; rfl⟩
        have hit := readEntries_text (rd := readValue d) (l := x :: l) (by simp) (fun z hz r hr => ih (hd z hz) hr)
          (n := (entriesText (x :: l) ++ rest).length) (by have := entries_len (x :: l); rw [List.length_append]; omega) rest
        obtain ⟨r, e⟩ := hh
        rw [e] at hit ⊢
        rw [skip_cons (by decide)]
        rw [hit]; rfl

theorem parse_text {j : Json} (h : Within maxDepth j) : parse j.text = some j := by
  have := readValue_text h (rest := []) (by intro c hc; simp at hc)
  rw [List.append_nil] at this
  unfold parse
  rw [this]
  simp [skip]

theorem Within.succ {d : Nat} {j : Json} (h : Within d j) : Within (d + 1) j := by
  induction d generalizing j with
  | zero => exact h.elim
  | succ d ih =>
    cases j with
    | arr l => exact fun x hx => ih (h x hx)
    | obj l => exact fun x hx => ih (h x hx)
    | _ => trivial

theorem Within.mono {d e : Nat} {j : Json} (h : Within d j) (hde : d ≤ e) : Within e j := by
  induction e with
  | zero => rw [Nat.le_zero.1 hde] at h; exact h
  | succ e ih =>
    rcases Nat.lt_or_ge d (e + 1) with hlt | hge
    · exact (ih (by omega)).succ
    · rw [Nat.le_antisymm hde hge] at h; exact h

end Json
end OB
