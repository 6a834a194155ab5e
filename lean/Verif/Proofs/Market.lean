import Verif.Proofs.Value
import Verif.Proofs.Queue
/- Arithmetic of one fill of a market order, and the pure sweep over the ticks. -/
namespace OB

/-- Prices are coarse: no price needs more decimals than its magnitude allows. -/
theorem price_grain {t : Int} (h0 : MIN_TICK ≤ t) (h1 : t ≤ MAX_TICK) :
    D ∣ priceNat t ∨ ∃ g, 0 < g ∧ g ∣ priceNat t ∧ g ∣ D ∧ priceNat t ≤ g * D := by
  by_cases ht : 0 ≤ t
  · have hr := (priceNat_pos_range ht).2
    set k := t.natAbs / 9000000 with hk
    have hdvd : 10 ^ (12 + k) ∣ priceNat t := by
      unfold priceNat
      rw [if_pos ht]
      exact Dvd.intro _ rfl
    by_cases hk6 : k ≤ 6
    · right
      refine ⟨10 ^ (12 + k), by positivity, hdvd, ?_, ?_⟩
      · unfold D; exact Nat.pow_dvd_pow _ (by omega)
      · unfold D; rw [← Nat.pow_add]
        exact (le_of_lt hr).trans (Nat.pow_le_pow_right (by norm_num) (by omega))
    · left
      unfold D
      exact (Nat.pow_dvd_pow _ (by omega)).trans hdvd
  · right
    refine ⟨1, by norm_num, one_dvd _, one_dvd _, ?_⟩
    have := (priceNat_neg_range (by omega) h0).2
    rw [Nat.one_mul]
    have h3 : 10 * priceNat t ≤ 10 ^ 19 := this.trans (Nat.pow_le_pow_right (by norm_num) (by omega))
    unfold D; omega

/-- The charge for a fill never exceeds the input that bought it. -/
theorem charge_le {dir : Dir} {q f p : Nat} (hp : 0 < p) (hf : f ≤ valDown dir q p) : valUp dir.opposite f p ≤ q := by
  have hD := D_pos
  cases dir
  · -- bid order: f ≤ q·D/p, charge = ⌈f·p/D⌉
    simp only [valDown, valUp, Dir.opposite] at *
    rw [Nat.le_div_iff_mul_le hp] at hf
    rw [Nat.div_le_iff_le_mul_add_pred hD]
    rw [Nat.mul_comm D q]
    omega
  · simp only [valDown, valUp, Dir.opposite] at *
    rw [Nat.le_div_iff_mul_le hD] at hf
    have : f * (D * D) / p ≤ q * D := by
      rw [Nat.div_le_iff_le_mul_add_pred hp]
      have : f * D * D ≤ q * p * D := Nat.mul_le_mul_right _ hf
      have e1 : f * (D * D) = f * D * D := by ring
      have e2 : p * (q * D) = q * p * D := by ring
      rw [e1, e2]; omega
    rw [Nat.div_le_iff_le_mul_add_pred hD]
    rw [Nat.mul_comm D q]
    omega

/-- After a fill limited by the input (not by the tick's liquidity) the remaining input buys nothing more at this price. -/
theorem partial_done {dir : Dir} {q : Nat} {t : Int} (h0 : MIN_TICK ≤ t) (h1 : t ≤ MAX_TICK) :
    valDown dir (q - valUp dir.opposite (valDown dir q (priceNat t)) (priceNat t)) (priceNat t) = 0 := by
  have hD := D_pos
  have hp := priceNat_pos h0 h1
  have hg := price_grain h0 h1
  have hle := charge_le (dir := dir) (q := q) hp (le_refl _)
  revert hle hg
  generalize priceNat t = p at hp
  intro hg hle
  unfold valDown valUp at *
  generalize D = D at *
  cases dir
  · simp only [Dir.opposite] at *
    set f := q * D / p with hf
    set i := (f * p + (D - 1)) / D with hi
    apply Nat.div_eq_of_lt
    have h3 : f * p ≤ i * D := by
      have := Nat.lt_div_mul_add (a := f * p + (D - 1)) hD
      rw [← hi] at this
      omega
    have h4 : q * D < f * p + p := Nat.lt_div_mul_add hp
    rw [Nat.sub_mul]
    omega
  · simp only [Dir.opposite] at *
    set f := q * p / D with hf
    set m := f * (D * D) / p with hm
    set i := (m + (D - 1)) / D with hi
    apply Nat.div_eq_of_lt
    have h3 : m ≤ i * D := by
      have := Nat.lt_div_mul_add (a := m + (D - 1)) hD
      rw [← hi] at this
      omega
    have h4 : f * (D * D) < m * p + p := Nat.lt_div_mul_add hp
    have h5 : m * p ≤ i * D * p := Nat.mul_le_mul_right _ h3
    have h6 : f * D + q * p % D = q * p := Nat.div_add_mod' _ _
    -- (q - i) p D < ρ D + p
    have h7 : (q - i) * p * D < q * p % D * D + p := by
      have e : (q - i) * p * D = q * p * D - i * D * p := by
        rw [Nat.sub_mul, Nat.sub_mul]; congr 1; ring
      have e2 : q * p * D = f * (D * D) + q * p % D * D := by
        calc q * p * D = (f * D + q * p % D) * D := by rw [h6]
          _ = _ := by ring
      rw [e, e2]
      omega
    rcases hg with hg | ⟨g, hg0, hg1, hg2, hg3⟩
    · have : q * p % D = 0 := Nat.mod_eq_zero_of_dvd (hg.mul_left q)
      rw [this, Nat.zero_mul, Nat.zero_add] at h7
      have : q - i = 0 := by
        by_contra hne
        have : p * D ≤ (q - i) * p * D := by
          refine Nat.mul_le_mul_right _ ?_
          exact Nat.le_mul_of_pos_left _ (by omega)
        have : p ≤ p * D := Nat.le_mul_of_pos_right _ hD
        omega
      rw [this]; simpa using hD
    · have hgd : g ∣ q * p % D := by
        rw [Nat.dvd_mod_iff hg2]; exact hg1.mul_left q
      have h8 : q * p % D + g ≤ D := by
        have hlt := Nat.mod_lt (q * p) hD
        obtain ⟨u, hu⟩ := hgd
        obtain ⟨w, hw⟩ := hg2
        rw [hu] at hlt ⊢
        rw [hw] at hlt ⊢
        have := (Nat.mul_lt_mul_left hg0).1 hlt
        calc g * u + g = g * (u + 1) := by ring
          _ ≤ g * w := Nat.mul_le_mul_left _ this
      have h9 : (q - i) * p * D < D * D := by
        calc (q - i) * p * D < q * p % D * D + p := h7
          _ ≤ q * p % D * D + g * D := by omega
          _ = (q * p % D + g) * D := by ring
          _ ≤ D * D := Nat.mul_le_mul_right _ h8
      exact Nat.lt_of_mul_lt_mul_right h9

/-- A worse price buys no more. -/
theorem worse_price {dir : Dir} {q p p' : Nat} (hp : 0 < p) (hw : match dir with | .ask => p' ≤ p | .bid => p ≤ p')
    (h : valDown dir q p = 0) : valDown dir q p' = 0 := by
  unfold valDown at *
  generalize D = D at *
  cases dir
  · simp only [valDown] at *
    exact Nat.eq_zero_of_le_zero ((Nat.div_le_div_left (a := q * D) hw hp).trans (le_of_eq h))
  · simp only [valDown] at *
    exact Nat.eq_zero_of_le_zero ((Nat.div_le_div_right (c := D) (Nat.mul_le_mul_left q hw)).trans (le_of_eq h))

/-- One fill: tick, amount taken, input charged. -/
structure Fill where
  tick : Int
  amount : Nat
  charge : Nat
  deriving DecidableEq, Repr

def sumAmount (F : List Fill) : Nat := (F.map Fill.amount).sum
def sumCharge (F : List Fill) : Nat := (F.map Fill.charge).sum

/-- Sweep of an input `q` over `ticks` offering `L t` each; the result is the fills, the unused input, the absorbed dust and
the price used last. -/
inductive Sweep (dir : Dir) (L : Int → Nat) : List Int → Nat → Nat → List Fill → Nat → Nat → Nat → Prop
  | nil {q lp} : Sweep dir L [] q lp [] q 0 lp
  | skip {t ts q lp F q' dust lp'} : L t = 0 → Sweep dir L ts q lp F q' dust lp' → Sweep dir L (t :: ts) q lp F q' dust lp'
  | dust {t ts q lp} : L t ≠ 0 → valDown dir q (priceNat t) = 0 → Sweep dir L (t :: ts) q lp [] 0 q (priceNat t)
  | fill {t ts q lp F q' dust lp'} : L t ≠ 0 → valDown dir q (priceNat t) ≠ 0 →
      0 < valUp dir.opposite (min (valDown dir q (priceNat t)) (L t)) (priceNat t) →
      min (valDown dir q (priceNat t)) (L t) < U128 →
      Sweep dir L ts (q - valUp dir.opposite (min (valDown dir q (priceNat t)) (L t)) (priceNat t)) (priceNat t) F q' dust lp' →
      Sweep dir L (t :: ts) q lp
        (⟨t, min (valDown dir q (priceNat t)) (L t), valUp dir.opposite (min (valDown dir q (priceNat t)) (L t)) (priceNat t)⟩ :: F)
        q' dust lp'

theorem Sweep.sublist {dir : Dir} {L : Int → Nat} {ts : List Int} {q lp : Nat} {F : List Fill} {q' dust lp' : Nat}
    (h : Sweep dir L ts q lp F q' dust lp') : (F.map Fill.tick).Sublist ts := by
  induction h with
  | nil => exact List.Sublist.slnil
  | skip _ _ ih => exact ih.cons _
  | dust => exact List.nil_sublist _
  | fill _ _ _ _ _ ih => exact ih.cons_cons _

theorem Sweep.fills {dir : Dir} {L : Int → Nat} {ts : List Int} {q lp : Nat} {F : List Fill} {q' dust lp' : Nat}
    (h : Sweep dir L ts q lp F q' dust lp') :
    ∀ f ∈ F, f.amount ≤ L f.tick ∧ 0 < f.amount ∧ f.amount < U128 ∧ 0 < f.charge ∧
      f.charge = valUp dir.opposite f.amount (priceNat f.tick) := by
  induction h with
  | nil => simp
  | skip _ _ ih => exact ih
  | dust => simp
  | fill h1 h2 h3 h4 _ ih =>
    intro f hf
    rcases List.mem_cons.1 hf with rfl | hf
    · exact ⟨Nat.min_le_right _ _, by simp only; omega, h4, h3, rfl⟩
    · exact ih f hf

/-- A fill takes all that the tick offers or all that the remaining input buys. -/
theorem Sweep.exact {dir : Dir} {L : Int → Nat} {ts : List Int} {q lp : Nat} {F : List Fill} {q' dust lp' : Nat}
    (h : Sweep dir L ts q lp F q' dust lp') :
    ∀ f ∈ F, f.amount = L f.tick ∨ ∃ r, f.amount = valDown dir r (priceNat f.tick) := by
  induction h with
  | nil => simp
  | skip _ _ ih => exact ih
  | dust => simp
  | @fill t _ q _ _ _ _ _ _ _ _ _ _ ih =>
    intro f hf
    rcases List.mem_cons.1 hf with rfl | hf
    · simp only
      rcases Nat.le_total (valDown dir q (priceNat t)) (L t) with h | h
      · exact Or.inr ⟨q, Nat.min_eq_left h⟩
      · exact Or.inl (Nat.min_eq_right h)
    · exact ih f hf

/-- Every unit of input is charged, left over, or absorbed as dust. -/
theorem Sweep.input {dir : Dir} {L : Int → Nat} {ts : List Int} {q lp : Nat} {F : List Fill} {q' dust lp' : Nat}
    (h : Sweep dir L ts q lp F q' dust lp') (hr : ∀ t ∈ ts, MIN_TICK ≤ t ∧ t ≤ MAX_TICK) :
    sumCharge F + q' + dust = q := by
  induction h with
  | nil => simp [sumCharge]
  | skip _ _ ih => exact ih (fun t ht => hr t (by simp [ht]))
  | dust => simp [sumCharge]
  | @fill t _ q _ F _ _ _ h1 h2 h3 h4 _ ih =>
    have ih := ih (fun t ht => hr t (by simp [ht]))
    have ht := hr t (by simp)
    have hc := charge_le (dir := dir) (q := q) (priceNat_pos ht.1 ht.2) (Nat.min_le_left _ (L t))
    simp only [sumCharge, List.map_cons, List.sum_cons] at ih ⊢
    omega

/-- Worse (or equal) tick for the taker. -/
def WorseThan (dir : Dir) (t t' : Int) : Prop :=
  match dir with
  | .ask => t' < t
  | .bid => t < t'

theorem worseThan_price {dir : Dir} {t t' q : Int} {n : Nat} (h : WorseThan dir t t') (hr : MIN_TICK ≤ t ∧ t ≤ MAX_TICK)
    (hr' : MIN_TICK ≤ t' ∧ t' ≤ MAX_TICK) (hz : valDown dir n (priceNat t) = 0) : valDown dir n (priceNat t') = 0 := by
  refine worse_price (priceNat_pos hr.1 hr.2) ?_ hz
  cases dir
  · exact le_of_lt (priceNat_strictMono hr.1 h)
  · exact le_of_lt (priceNat_strictMono hr'.1 h)

/-- If the input buys nothing at any of the ticks there are no fills. -/
theorem Sweep.nothing {dir : Dir} {L : Int → Nat} {ts : List Int} {q lp : Nat} {F : List Fill} {q' dust lp' : Nat}
    (h : Sweep dir L ts q lp F q' dust lp') (hz : ∀ t ∈ ts, valDown dir q (priceNat t) = 0) : F = [] := by
  induction h with
  | nil => rfl
  | skip _ _ ih => exact ih (fun t ht => hz t (by simp [ht]))
  | dust => rfl
  | fill h1 h2 => exact absurd (hz _ (by simp)) h2

/-- Best price first: before a fill at `f.tick`, every better tick with liquidity was emptied. -/
theorem Sweep.bestFirst {dir : Dir} {L : Int → Nat} {ts : List Int} {q lp : Nat} {F : List Fill} {q' dust lp' : Nat}
    (h : Sweep dir L ts q lp F q' dust lp') (hr : ∀ t ∈ ts, MIN_TICK ≤ t ∧ t ≤ MAX_TICK)
    (hs : ts.Pairwise (WorseThan dir)) :
    ∀ f ∈ F, ∀ t ∈ ts, WorseThan dir t f.tick → L t ≠ 0 → ∃ g ∈ F, g.tick = t ∧ g.amount = L t := by
  have asym : ∀ a b, WorseThan dir a b → ¬ WorseThan dir b a := by
    intro a b; cases dir <;> simp only [WorseThan] <;> omega
  have irr : ∀ a, ¬ WorseThan dir a a := fun a ha => asym a a ha ha
  induction h with
  | nil => simp
  | @skip t _ q _ _ _ _ _ h1 hsw ih =>
    rw [List.pairwise_cons] at hs
    have ih := ih (fun t ht => hr t (by simp [ht])) hs.2
    intro f hf t' ht' hw hl
    rcases List.mem_cons.1 ht' with rfl | ht'
    · exact absurd h1 hl
    · exact ih f hf t' ht' hw hl
  | dust => simp
  | @fill t ts q _ F _ _ _ h1 h2 h3 h4 hsw ih =>
    rw [List.pairwise_cons] at hs
    have hrt := hr t (by simp)
    have hr' : ∀ t ∈ ts, MIN_TICK ≤ t ∧ t ≤ MAX_TICK := fun t ht => hr t (by simp [ht])
    have ih := ih hr' hs.2
    intro f hf t' ht' hw hl
    rcases List.mem_cons.1 hf with rfl | hf'
    · -- nothing in the list is better than its head
      rcases List.mem_cons.1 ht' with rfl | ht'
      · exact absurd hw (irr _)
      · exact absurd hw (asym _ _ (hs.1 t' ht'))
    · rcases List.mem_cons.1 ht' with rfl | ht'
      · refine ⟨_, List.mem_cons_self .., rfl, ?_⟩
        simp only
        by_contra hne
        have hmin : min (valDown dir q (priceNat t')) (L t') = valDown dir q (priceNat t') := by omega
        have hF := hsw.nothing (by
          intro u hu
          rw [hmin]
          exact worseThan_price (q := 0) (hs.1 u hu) hrt (hr' u hu) (partial_done hrt.1 hrt.2))
        rw [hF] at hf'
        simp at hf'
      · obtain ⟨g, hg, hg'⟩ := ih f hf' t' ht' hw hl
        exact ⟨g, List.mem_cons_of_mem _ hg, hg'⟩

/-- Absorbed dust buys nothing at the price used last. -/
theorem Sweep.dust_worthless {dir : Dir} {L : Int → Nat} {ts : List Int} {q lp : Nat} {F : List Fill} {q' dust lp' : Nat}
    (h : Sweep dir L ts q lp F q' dust lp') : valDown dir dust lp' = 0 ∧ (dust ≠ 0 → q' = 0) := by
  induction h with
  | nil => exact ⟨valDown_zero _ _, by simp⟩
  | skip _ _ ih => exact ih
  | dust _ h => exact ⟨h, fun _ => rfl⟩
  | fill _ _ _ _ _ ih => exact ih

end OB
