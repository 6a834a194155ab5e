import Verif.SpecText
import Verif.Model.Query
import Mathlib.Data.List.TakeWhile
import Mathlib.Tactic.IntervalCases
import Mathlib.Tactic.FieldSimp
import Mathlib.Tactic.Ring
import Mathlib.Tactic.NormNum
/- Lemmas about the text forms of numbers. -/
namespace OB
open Spec

theorem digitsText_eq {k n : Nat} (h : n < 2 ^ k) (hk : 0 < k) : digitsText k n = Nat.toDigits 10 n := by
  induction k generalizing n with
  | zero => omega
  | succ k ih =>
    unfold digitsText
    split
    · next hn => exact (Nat.toDigits_of_lt_base hn).symm
    · next hn =>
      rw [Nat.toDigits_of_base_le (by omega) (by omega)]
      have hk' : k ≠ 0 := by rintro rfl; omega
      have h2 : n / 10 < 2 ^ k := by rw [Nat.pow_succ] at h; omega
      rw [ih h2 (by omega)]

theorem natText_eq (n : Nat) : natText n = Nat.toDigits 10 n := digitsText_eq Nat.lt_log2_self (by omega)

theorem mem_digits {c : Char} (h : c.isDigit = true) : c ∈ ['0', '1', '2', '3', '4', '5', '6', '7', '8', '9'] := by
  have h1 : c = Char.ofNat c.toNat := (Char.ofNat_toNat c).symm
  rw [Char.isDigit_iff_toNat] at h
  obtain ⟨h2, h3⟩ := h
  rw [h1]
  generalize c.toNat = n at h2 h3
  have h2' : 48 ≤ n := h2
  have h3' : n ≤ 57 := h3
  interval_cases n <;> decide

theorem isDigit_of_mem {c : Char} (h : c ∈ ['0', '1', '2', '3', '4', '5', '6', '7', '8', '9']) : c.isDigit = true := by
  simp only [List.mem_cons, List.not_mem_nil, or_false] at h
  rcases h with rfl | rfl | rfl | rfl | rfl | rfl | rfl | rfl | rfl | rfl <;> decide

theorem number_eq (t : List Char) : number t = if t ≠ [] ∧ t.all Char.isDigit then some (Nat.ofDigitChars 10 t 0) else none := by
  unfold number
  have e : (t ≠ [] ∧ ∀ c ∈ t, c ∈ ['0', '1', '2', '3', '4', '5', '6', '7', '8', '9']) ↔ (t ≠ [] ∧ t.all Char.isDigit = true) := by
    rw [List.all_eq_true]
    exact and_congr_right fun _ => ⟨fun h c hc => isDigit_of_mem (h c hc), fun h c hc => mem_digits (h c hc)⟩
  simp only [e, Nat.ofDigitChars_eq_foldl]

theorem natText_digits (n : Nat) : (natText n).all Char.isDigit = true := by
  rw [List.all_eq_true]
  intro c hc
  rw [natText_eq] at hc
  exact Nat.isDigit_of_mem_toDigits (by omega) (by omega) hc

theorem natText_ne_nil (n : Nat) : natText n ≠ [] := natText_eq n ▸ Nat.toDigits_ne_nil

theorem number_natText (n : Nat) : number (natText n) = some n := by
  rw [number_eq, if_pos ⟨natText_ne_nil n, natText_digits n⟩, natText_eq]
  exact congrArg some Nat.ofDigitChars_ten_toDigits

theorem natText_inj {m n : Nat} (h : natText m = natText n) : m = n := by
  have := congrArg number h
  rw [number_natText, number_natText] at this
  exact Option.some.inj this

theorem not_digit_head {l : List Char} (h : l.all Char.isDigit = true) {c : Char} (hc : c.isDigit = false) : c ∉ l := by
  intro hm
  rw [List.all_eq_true] at h
  rw [h c hm] at hc
  exact absurd hc (by decide)

theorem integer_intText (t : Int) : integer (intText t) = some t := by
  unfold intText
  split
  · next h =>
    show Option.map (fun n : Nat => -(n : Int)) (number (natText t.natAbs)) = some t
    rw [number_natText]
    exact congrArg some (by omega : -(t.natAbs : Int) = t)
  · next h =>
    unfold integer
    split
    · next t' heq =>
      exact absurd (List.mem_cons_self (a := '-') (l := t')) (heq ▸ not_digit_head (natText_digits _) (by decide))
    · rw [number_natText]
      exact congrArg some (by omega : (t.natAbs : Int) = t)

theorem readUint_eq {bound : Nat} {l : List Char} (h : '+' ∉ l) : readUint bound l = readDigits bound l := by
  unfold readUint
  split
  · next l' => exact absurd List.mem_cons_self h
  · rfl

theorem readDigits_eq (bound : Nat) (l : List Char) : readDigits bound l = (number l).filter fun n => n < bound := by
  unfold readDigits
  rw [number_eq]
  by_cases h : l ≠ [] ∧ l.all Char.isDigit = true
  · rw [if_pos h, if_pos h]
    simp only [Option.filter_some, decide_eq_true_eq]
  · rw [if_neg h, if_neg h]; rfl

theorem readUint_natText (bound n : Nat) : readUint bound (natText n) = if n < bound then some n else none := by
  rw [readUint_eq (not_digit_head (natText_digits n) (by decide)), readDigits_eq, number_natText]
  simp only [Option.filter_some, decide_eq_true_eq]

/-! ### Decimals -/

theorem trimZeros_spec (l : List Char) : ∃ k, l = trimZeros l ++ List.replicate k '0' := by
  refine ⟨(l.reverse.takeWhile (· == '0')).length, ?_⟩
  have h : l.reverse.takeWhile (· == '0') = List.replicate (l.reverse.takeWhile (· == '0')).length '0' := by
    rw [List.eq_replicate_iff]
    refine ⟨rfl, fun c hc => ?_⟩
    have := List.mem_takeWhile_imp hc
    exact eq_of_beq this
  have h2 : l.reverse = l.reverse.takeWhile (· == '0') ++ l.reverse.dropWhile (· == '0') := List.takeWhile_append_dropWhile.symm
  have h3 := congrArg List.reverse h2
  rw [List.reverse_reverse, List.reverse_append] at h3
  rw [h, List.reverse_replicate] at h3
  exact h3

/-- The fraction digits: at most 18, and they are the fraction. -/
theorem frac_spec {f : Nat} (hf : f < 10 ^ 18) (h0 : f ≠ 0) :
    let t := trimZeros (padLeft 18 (natText f))
    t ≠ [] ∧ t.all Char.isDigit = true ∧ t.length ≤ 18 ∧ Nat.ofDigitChars 10 t 0 * 10 ^ (18 - t.length) = f := by
  intro t
  have hlen : (natText f).length ≤ 18 := natText_eq f ▸ (Nat.length_toDigits_le_iff (by omega) (by omega)).2 hf
  obtain ⟨k, hk⟩ := trimZeros_spec (padLeft 18 (natText f))
  have hk' : padLeft 18 (natText f) = t ++ List.replicate k '0' := hk
  have hl : t.length + k = 18 := by
    have := congrArg List.length hk'
    rw [padLeft, List.length_append, List.length_append, List.length_replicate, List.length_replicate] at this
    omega
  have hv : Nat.ofDigitChars 10 t 0 * 10 ^ k = f := by
    have := congrArg (fun l => Nat.ofDigitChars 10 l 0) hk'
    simp only [padLeft, Nat.ofDigitChars_append, Nat.ofDigitChars_replicate_zero, Nat.mul_zero] at this
    rw [Nat.mul_comm, ← this, natText_eq]
    exact Nat.ofDigitChars_ten_toDigits
  have hd : t.all Char.isDigit = true := by
    rw [List.all_eq_true]
    intro c hc
    have : c ∈ padLeft 18 (natText f) := hk' ▸ List.mem_append_left _ hc
    rw [padLeft, List.mem_append] at this
    rcases this with h | h
    · rw [List.eq_of_mem_replicate h]; decide
    · exact List.all_eq_true.1 (natText_digits f) c h
  refine ⟨?_, hd, by omega, ?_⟩
  · intro h
    rw [h] at hv
    exact h0 (by rw [← hv]; simp)
  · rw [show 18 - t.length = k by omega]
    exact hv

theorem takeWhile_digits {l r : List Char} (h : l.all Char.isDigit = true) :
    (l ++ '.' :: r).takeWhile (· ≠ '.') = l ∧ (l ++ '.' :: r).dropWhile (· ≠ '.') = '.' :: r ∧
      l.takeWhile (· ≠ '.') = l ∧ l.dropWhile (· ≠ '.') = [] := by
  have hne : ∀ c ∈ l, decide (c ≠ '.') = true := by
    intro c hc
    have := not_digit_head h (c := '.') (by decide)
    simp only [decide_eq_true_eq]
    rintro rfl
    exact this hc
  refine ⟨?_, ?_, ?_, ?_⟩
  · rw [List.takeWhile_append_of_pos hne]; simp
  · rw [List.dropWhile_append_of_pos hne]; simp
  · exact List.takeWhile_eq_self_iff.2 hne
  · exact List.dropWhile_eq_nil_iff.2 hne

theorem decimal_decText (x : Nat) : decimal (decText x) = some ((x : ℚ) / 10 ^ 18) := by
  have hx := Nat.div_add_mod x (10 ^ 18)
  unfold decText
  split
  · next h =>
    obtain ⟨-, -, h1, h2⟩ := takeWhile_digits (r := []) (natText_digits (x / 10 ^ 18))
    unfold decimal
    rw [List.span_eq_takeWhile_dropWhile, h1, h2]
    simp only [number_natText, Option.map_some]
    congr 1
    rw [eq_div_iff (by norm_num)]
    have : x / 10 ^ 18 * 10 ^ 18 = x := by omega
    exact_mod_cast this
  · next h =>
    obtain ⟨h1, h2, h3, h4⟩ := frac_spec (Nat.mod_lt x (by norm_num : 0 < 10 ^ 18)) h
    generalize trimZeros (padLeft 18 (natText (x % 10 ^ 18))) = t at h1 h2 h3 h4
    obtain ⟨h5, h6, -, -⟩ := takeWhile_digits (r := t) (natText_digits (x / 10 ^ 18))
    unfold decimal
    rw [List.span_eq_takeWhile_dropWhile, h5, h6]
    simp only [number_natText]
    rw [number_eq t, if_pos ⟨h1, h2⟩]
    show some _ = some _
    congr 1
    rw [eq_div_iff (by norm_num)]
    have e : (10 : ℚ) ^ 18 = 10 ^ t.length * 10 ^ (18 - t.length) := by rw [← pow_add]; congr 1; omega
    have e2 : ((Nat.ofDigitChars 10 t 0 : Nat) : ℚ) / 10 ^ t.length * 10 ^ 18 = ((x % 10 ^ 18 : Nat) : ℚ) := by
      rw [e, ← mul_assoc, div_mul_cancel₀ _ (by positivity), ← h4]
      push_cast
      ring
    rw [add_mul, e2]
    have : x / 10 ^ 18 * 10 ^ 18 + x % 10 ^ 18 = x := by omega
    exact_mod_cast this

theorem readDecimal_decText {bound : Nat} (hb : 10 ^ 18 ≤ bound) (x : Nat) :
    readDecimal bound (decText x) = if x < bound then some x else none := by
  have hx := Nat.div_add_mod x (10 ^ 18)
  have hd : x / 10 ^ 18 ≤ x := Nat.div_le_self _ _
  unfold decText
  split
  · next h =>
    obtain ⟨-, -, h1, h2⟩ := takeWhile_digits (r := []) (natText_digits (x / 10 ^ 18))
    unfold readDecimal
    rw [h1, h2, readUint_natText]
    have e : x / 10 ^ 18 * 10 ^ 18 = x := by omega
    by_cases hlt : x < bound
    · rw [if_pos (by omega : x / 10 ^ 18 < bound), if_pos hlt]
      simp only [e, if_pos hlt]
    · rw [if_neg hlt]
      split
      · rfl
      · next w hw =>
        have : w = x / 10 ^ 18 := by
          split at hw
          · exact (Option.some.inj hw).symm
          · exact absurd hw (by simp)
        subst this
        rw [e, if_neg hlt]
  · next h =>
    obtain ⟨h1, h2, h3, h4⟩ := frac_spec (Nat.mod_lt x (by norm_num : 0 < 10 ^ 18)) h
    generalize trimZeros (padLeft 18 (natText (x % 10 ^ 18))) = t at h1 h2 h3 h4
    obtain ⟨h5, h6, -, -⟩ := takeWhile_digits (r := t) (natText_digits (x / 10 ^ 18))
    unfold readDecimal
    rw [h5, h6, readUint_natText]
    have e : x / 10 ^ 18 * 10 ^ 18 + x % 10 ^ 18 = x := by omega
    have hm : x % 10 ^ 18 < 10 ^ 18 := Nat.mod_lt x (by norm_num)
    by_cases hw : x / 10 ^ 18 * 10 ^ 18 < bound
    · have hw' : x / 10 ^ 18 < bound := by omega
      rw [if_pos hw']
      simp only [if_pos hw]
      rw [if_neg (not_digit_head h2 (by decide)), readUint_eq (not_digit_head h2 (by decide)), readDigits_eq, number_eq, if_pos ⟨h1, h2⟩]
      have hv : Nat.ofDigitChars 10 t 0 < bound := by
        have : Nat.ofDigitChars 10 t 0 ≤ x % 10 ^ 18 := by
          rw [← h4]; exact Nat.le_mul_of_pos_right _ (by positivity)
        omega
      simp only [Option.filter_some, decide_eq_true_eq, if_pos hv, if_pos h3, h4, e]
    · rw [if_neg (by omega : ¬ x < bound)]
      by_cases hw' : x / 10 ^ 18 < bound
      · rw [if_pos hw']; simp only [if_neg hw]
      · rw [if_neg hw']

/-- query.rs:68: the conversion through text keeps the value or fails. -/
theorem decimalFromDecimal256_eq (x : Nat) : decimalFromDecimal256 x = if x < U128 then .ok x else .error .std := by
  unfold decimalFromDecimal256
  rw [readDecimal_decText (by unfold U128; norm_num)]
  by_cases h : x < U128
  · simp only [if_pos h]
  · simp only [if_neg h]

/-- types/coin.rs:36-43: the conversion through text keeps the coin or panics. -/
theorem coin256ToCoin_eq (c : Coin) : coin256ToCoin c = if c.amount < U128 then .ok c else .error .panic := by
  unfold coin256ToCoin
  rw [readUint_natText]
  by_cases h : c.amount < U128
  · simp only [if_pos h]
  · simp only [if_neg h]

theorem decText_inj {x y : Nat} (h : decText x = decText y) : x = y := by
  have := congrArg decimal h
  rw [decimal_decText, decimal_decText] at this
  have h2 := Option.some.inj this
  rw [div_left_inj' (by norm_num)] at h2
  exact_mod_cast h2

end OB
