import Verif.SpecStore
import Verif.Proofs.SMap
/- Byte encodings: length, injectivity, order. -/
namespace OB
open Spec

@[simp] theorem beBytes_length (k n : Nat) : (beBytes k n).length = k := by
  induction k with
  | zero => rfl
  | succ k ih => simp [beBytes, ih]

theorem beNat_append (x y : Bytes) : Raw.beNat (x ++ y) = Raw.beNat x * 256 ^ y.length + Raw.beNat y := by
  unfold Raw.beNat
  rw [List.foldl_append]
  generalize x.foldl _ _ = a
  induction y generalizing a with
  | nil => simp
  | cons b y ih =>
    simp only [List.foldl_cons, List.length_cons]
    rw [ih, ih (0 * 256 + b.toNat), pow_succ]
    ring

theorem beNat_cons (b : UInt8) (y : Bytes) : Raw.beNat (b :: y) = b.toNat * 256 ^ y.length + Raw.beNat y := by
  have := beNat_append [b] y
  simpa [Raw.beNat] using this

theorem beNat_lt (x : Bytes) : Raw.beNat x < 256 ^ x.length := by
  induction x with
  | nil => simp [Raw.beNat]
  | cons b x ih =>
    rw [beNat_cons, List.length_cons, pow_succ]
    have hb := b.toNat_lt
    have : (b.toNat + 1) * 256 ^ x.length ≤ 256 * 256 ^ x.length := Nat.mul_le_mul_right _ (by omega)
    nlinarith

theorem beNat_beBytes (k n : Nat) : Raw.beNat (beBytes k n) = n % 256 ^ k := by
  induction k with
  | zero => simp [beBytes, Raw.beNat, Nat.mod_one]
  | succ k ih =>
    rw [beBytes, beNat_cons, ih, beBytes_length]
    have : (UInt8.ofNat (n / 256 ^ k)).toNat = n / 256 ^ k % 256 := by simp
    rw [this, pow_succ, Nat.mod_mul]
    ring

/-- On strings of equal length the byte order is the numeric order. -/
theorem bytesLt_num {x y : Bytes} (h : x.length = y.length) : bytesLt x y = decide (Raw.beNat x < Raw.beNat y) := by
  induction x generalizing y with
  | nil => cases y with
    | nil => simp [bytesLt]
    | cons => simp at h
  | cons a x ih =>
    cases y with
    | nil => simp at h
    | cons b y =>
      simp only [List.length_cons, Nat.add_right_cancel_iff] at h
      rw [bytesLt, ih h, beNat_cons, beNat_cons, h, Bool.eq_iff_iff]
      simp only [Bool.or_eq_true, Bool.and_eq_true, decide_eq_true_eq, UInt8.lt_iff_toNat_lt, ← UInt8.toNat_inj]
      have hx := beNat_lt x
      have hy := beNat_lt y
      rw [h] at hx
      generalize a.toNat = a at *
      generalize b.toNat = b at *
      generalize Raw.beNat x = u at *
      generalize Raw.beNat y = v at *
      generalize 256 ^ y.length = m at *
      constructor
      · rintro (hab | ⟨rfl, huv⟩)
        · have : (a + 1) * m ≤ b * m := Nat.mul_le_mul_right _ hab
          nlinarith
        · omega
      · intro hlt
        rcases Nat.lt_trichotomy a b with h1 | h1 | h1
        · exact Or.inl h1
        · subst h1; exact Or.inr ⟨rfl, by omega⟩
        · have : (b + 1) * m ≤ a * m := Nat.mul_le_mul_right _ h1
          nlinarith

theorem beBytes_lt {k n m : Nat} (hn : n < 256 ^ k) (hm : m < 256 ^ k) : bytesLt (beBytes k n) (beBytes k m) = decide (n < m) := by
  rw [bytesLt_num (by simp), beNat_beBytes, beNat_beBytes, Nat.mod_eq_of_lt hn, Nat.mod_eq_of_lt hm]

theorem beBytes_inj {k n m : Nat} (hn : n < 256 ^ k) (hm : m < 256 ^ k) (h : beBytes k n = beBytes k m) : n = m := by
  have := congrArg Raw.beNat h
  rwa [beNat_beBytes, beNat_beBytes, Nat.mod_eq_of_lt hn, Nat.mod_eq_of_lt hm] at this

theorem pow8 : (256 : Nat) ^ 8 = 2 ^ 64 := by norm_num

theorem u64Bytes_lt {a b : Nat} (ha : IdOk a) (hb : IdOk b) : bytesLt (u64Bytes a) (u64Bytes b) = decide (a < b) :=
  beBytes_lt (by rw [pow8]; exact ha) (by rw [pow8]; exact hb)

theorem u64Bytes_inj {a b : Nat} (ha : IdOk a) (hb : IdOk b) (h : u64Bytes a = u64Bytes b) : a = b :=
  beBytes_inj (k := 8) (by rw [pow8]; exact ha) (by rw [pow8]; exact hb) h

theorem shift_lt {t : Int} (h : TickOk t) : (t + 2 ^ 63).toNat < 256 ^ 8 := by
  unfold TickOk at h
  rw [pow8]
  have : (2 : Int) ^ 63 = 9223372036854775808 := by norm_num
  have h2 : (2 : Nat) ^ 64 = 18446744073709551616 := by norm_num
  rw [this] at *; rw [h2]
  omega

theorem i64Bytes_lt {a b : Int} (ha : TickOk a) (hb : TickOk b) : bytesLt (i64Bytes a) (i64Bytes b) = decide (a < b) := by
  unfold i64Bytes
  rw [beBytes_lt (shift_lt ha) (shift_lt hb), Bool.eq_iff_iff, decide_eq_true_eq, decide_eq_true_eq]
  unfold TickOk at ha hb
  have : (2 : Int) ^ 63 = 9223372036854775808 := by norm_num
  rw [this] at *
  omega

theorem i64Bytes_inj {a b : Int} (ha : TickOk a) (hb : TickOk b) (h : i64Bytes a = i64Bytes b) : a = b := by
  have := beBytes_inj (shift_lt ha) (shift_lt hb) h
  unfold TickOk at ha hb
  have h2 : (2 : Int) ^ 63 = 9223372036854775808 := by norm_num
  rw [h2] at *
  omega

@[simp] theorem u64Bytes_length (a : Nat) : (u64Bytes a).length = 8 := beBytes_length 8 a
@[simp] theorem i64Bytes_length (a : Int) : (i64Bytes a).length = 8 := beBytes_length 8 _

theorem u64Of_u64Bytes {a : Nat} (ha : IdOk a) : Raw.u64Of (u64Bytes a) = some a := by
  unfold Raw.u64Of
  rw [if_pos (u64Bytes_length a)]
  unfold u64Bytes
  rw [beNat_beBytes, pow8, Nat.mod_eq_of_lt ha]

theorem i64Of_i64Bytes {a : Int} (ha : TickOk a) : Raw.i64Of (i64Bytes a) = some a := by
  unfold Raw.i64Of
  rw [if_pos (i64Bytes_length a)]
  unfold i64Bytes
  rw [beNat_beBytes, Nat.mod_eq_of_lt (shift_lt ha)]
  unfold TickOk at ha
  have h2 : (2 : Int) ^ 63 = 9223372036854775808 := by norm_num
  rw [h2] at *
  congr 1
  omega

theorem strBytes_inj {a b : String} (h : strBytes a = strBytes b) : a = b := by
  unfold strBytes at h
  apply String.toByteArray_inj.1
  exact ByteArray.ext (Array.toList_inj.1 h)

theorem strBytes_length (a : String) : (strBytes a).length = a.toByteArray.size := by
  rfl

/-- Length-prefixed parts are self-delimiting. -/
theorem lenPrefix_append_inj {a b x y : Bytes} (ha : a.length < 2 ^ 16) (hb : b.length < 2 ^ 16)
    (h : lenPrefix a ++ x = lenPrefix b ++ y) : a = b ∧ x = y := by
  unfold lenPrefix at h
  rw [List.append_assoc, List.append_assoc] at h
  obtain ⟨h1, h2⟩ := List.append_inj h (by simp)
  have hl := beBytes_inj (k := 2) (by simpa using ha) (by simpa using hb) h1
  exact List.append_inj h2 hl

/-- UTF-8 has no byte 255. -/
theorem strBytes_ne_255 (s : String) : ∀ b ∈ strBytes s, b ≠ 255 := by
  obtain ⟨ba, ⟨m, hm⟩⟩ := s
  subst hm
  unfold strBytes List.utf8Encode
  intro b hb
  simp only [List.data_toByteArray, List.mem_flatMap] at hb
  obtain ⟨c, _, hb⟩ := hb
  unfold String.utf8EncodeChar at hb
  intro h
  subst h
  simp only at hb
  split_ifs at hb <;>
    simp only [List.mem_cons, List.not_mem_nil, or_false, ← UInt8.toNat_inj] at hb <;>
    simp only [UInt8.toNat_ofNat', UInt8.reduceToNat] at hb <;> omega

end OB
