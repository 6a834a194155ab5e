import Verif.Props.Wane
import Verif.Props.Quote
import Mathlib.Algebra.BigOperators.Group.List.Lemmas
/- C103, for quotes: they are answered on every book, also on inactive ones, and need no balances. -/
namespace OB
open Spec

theorem match_sub {side : Dir} {L : List (Int × Nat)} {q : Nat} {F : List (Int × Nat)} {left dust : Nat}
    (h : matchLevels side L q = some (F, left, dust)) : (F.map Prod.fst).Sublist (L.map Prod.fst) ∧ ∀ p ∈ F, ∃ l, (p.1, l) ∈ L ∧ p.2 ≤ l := by
  induction L generalizing q F left dust with
  | nil =>
    simp only [matchLevels, Option.some.injEq, Prod.mk.injEq] at h
    obtain ⟨rfl, -, -⟩ := h
    simp
  | cons x L ih =>
    obtain ⟨t, liq⟩ := x
    simp only [matchLevels] at h
    split at h
    · simp only [Option.some.injEq, Prod.mk.injEq] at h
      obtain ⟨rfl, -, -⟩ := h
      simp
    · split at h
      · cases h
      · rw [Option.map_eq_some_iff] at h
        obtain ⟨⟨F1, l1, d1⟩, h1, h2⟩ := h
        simp only [Prod.mk.injEq] at h2
        obtain ⟨rfl, -, -⟩ := h2
        obtain ⟨k1, k2⟩ := ih h1
        refine ⟨by simpa using k1, fun p hp => ?_⟩
        rcases List.mem_cons.1 hp with rfl | hp
        · exact ⟨liq, by simp, Nat.min_le_right _ _⟩
        · obtain ⟨l, g1, g2⟩ := k2 p hp
          exact ⟨l, by simp [g1], g2⟩

theorem value_le_of_floor {side : Dir} {q a : Nat} {t : Int} (hv : ValidTick t) (ha : a ≤ ⌊value side.opposite q t⌋₊) : value side a t ≤ q := by
  have h1 := value_one_pos (side := side) hv
  have h2 := value_mul_opposite (side := side) hv q
  have hnn : 0 ≤ value side.opposite q t := by
    have h3 := value_one_pos (side := side.opposite) hv
    rw [value_linear]; positivity
  have h3 : (a : ℚ) ≤ value side.opposite q t := (by exact_mod_cast ha : (a : ℚ) ≤ ((⌊value side.opposite q t⌋₊ : ℕ) : ℚ)).trans (Nat.floor_le hnn)
  rw [value_linear, ← h2]
  exact mul_le_mul_of_nonneg_right h3 (le_of_lt h1)

theorem charge_le_input {side : Dir} {q a : Nat} {t : Int} (hv : ValidTick t) (ha : a ≤ ⌊value side.opposite q t⌋₊) : charge side a t ≤ q := by
  have h1 := value_le_of_floor hv ha
  have h2 := (C21_charge_fair side a t hv).2.2
  have : (charge side a t : ℚ) < q + 1 := by linarith
  have : charge side a t < q + 1 := by exact_mod_cast this
  omega

theorem match_charges {side : Dir} {L : List (Int × Nat)} (hv : ∀ x ∈ L, ValidTick x.1) {q : Nat} {F : List (Int × Nat)} {left dust : Nat}
    (h : matchLevels side L q = some (F, left, dust)) : (F.map fun p => charge side p.2 p.1).sum ≤ q := by
  induction L generalizing q F left dust with
  | nil =>
    simp only [matchLevels, Option.some.injEq, Prod.mk.injEq] at h
    obtain ⟨rfl, -, -⟩ := h
    simp
  | cons x L ih =>
    obtain ⟨t, liq⟩ := x
    have hvt : ValidTick t := hv (t, liq) (by simp)
    simp only [matchLevels] at h
    split at h
    · simp only [Option.some.injEq, Prod.mk.injEq] at h
      obtain ⟨rfl, -, -⟩ := h
      simp
    · split at h
      · cases h
      · rw [Option.map_eq_some_iff] at h
        obtain ⟨⟨F1, l1, d1⟩, h1, h2⟩ := h
        simp only [Prod.mk.injEq] at h2
        obtain ⟨rfl, -, -⟩ := h2
        have := ih (fun x hx => hv x (by simp [hx])) h1
        have h3 := charge_le_input (side := side) (q := q) hvt (Nat.min_le_left ⌊value side.opposite q t⌋₊ liq)
        simp only [List.map_cons, List.sum_cons]
        omega

/-- No amounts beat the matching engine by more than one unit of input per fill (C53, for the engine itself). `e` units at price `v` are
the amount by which better levels were used more than by `x`. -/
theorem match_best {side : Dir} {L : List (Int × Nat)} (hs : L.Pairwise (fun x y => Better side x.1 y.1)) (hv : ∀ p ∈ L, ValidTick p.1)
    {q : Nat} {F : List (Int × Nat)} {left dust : Nat} (hm : matchLevels side L q = some (F, left, dust)) {x : Int → Nat}
    (hx : ∀ p ∈ L, x p.1 ≤ p.2) {e : Nat} {v : ℚ} (hle : ∀ p ∈ L, v ≤ value side 1 p.1)
    (hc : (L.map fun p => value side (x p.1) p.1).sum + F.length ≤ q + e * v) : (L.map fun p => x p.1).sum ≤ (F.map Prod.snd).sum + e := by
  induction L generalizing q F left dust e v with
  | nil => simp
  | cons p L ih =>
    obtain ⟨t, l⟩ := p
    have hvt : ValidTick t := hv (t, l) (by simp)
    have hu := value_one_pos (side := side) hvt
    have hvu : v ≤ value side 1 t := hle (t, l) (by simp)
    have hrest : ∀ p ∈ L, value side 1 t ≤ value side 1 p.1 := by
      intro p hp
      have hb := (List.pairwise_cons.1 hs).1 p hp
      refine value_one_mono hvt (hv p (by simp [hp])) ?_
      cases side <;> simp only [Better] at hb ⊢ <;> omega
    have hsum : (((L.map fun p => x p.1).sum : ℕ) : ℚ) * value side 1 t ≤ (L.map fun p => value side (x p.1) p.1).sum := by
      clear hc hm ih hle hx hs
      induction L with
      | nil => simp
      | cons p L ih2 =>
        have ih2 := ih2 (fun p hp => hv p (by
          rcases List.mem_cons.1 hp with h | h
          · simp [h]
          · simp [h])) fun p hp => hrest p (by simp [hp])
        simp only [List.map_cons, List.sum_cons]
        have h1 := hrest p (by simp)
        rw [value_linear side (x p.1) p.1]
        have h2 : (x p.1 : ℚ) * value side 1 t ≤ x p.1 * value side 1 p.1 := mul_le_mul_of_nonneg_left h1 (Nat.cast_nonneg _)
        rw [Nat.cast_add]
        linarith
    have hev : (e : ℚ) * v ≤ e * value side 1 t := mul_le_mul_of_nonneg_left hvu (Nat.cast_nonneg _)
    have hx0 : x t ≤ l := hx (t, l) (by simp)
    simp only [List.map_cons, List.sum_cons] at hc ⊢
    rw [value_linear] at hc
    have hq : ∀ {k : Nat}, ⌊value side.opposite q t⌋₊ = k → (q : ℚ) < (k + 1) * value side 1 t := by
      rintro k rfl
      have h1 := value_mul_opposite (side := side) hvt q
      have h2 := Nat.lt_floor_add_one (value side.opposite q t)
      rw [← h1]
      exact mul_lt_mul_of_pos_right h2 hu
    have hcancel : ∀ {a b : ℚ}, a * value side 1 t < b * value side 1 t → a < b := fun h => lt_of_mul_lt_mul_right h (le_of_lt hu)
    rw [matchLevels] at hm
    by_cases hw0 : ⌊value side.opposite q t⌋₊ = 0
    · simp only [hw0, if_true, Option.some.injEq, Prod.mk.injEq] at hm
      obtain ⟨rfl, -, -⟩ := hm
      have h1 := hq hw0
      have : ((x t + (L.map fun p => x p.1).sum : ℕ) : ℚ) < ((1 + e : ℕ) : ℚ) := by
        refine hcancel ?_
        push_cast at hc h1 hsum ⊢
        simp only [List.length_nil] at hc
        push_cast at hc
        linarith
      have : x t + (L.map fun p => x p.1).sum < 1 + e := by exact_mod_cast this
      simp only [List.map_nil, List.sum_nil]
      omega
    · simp only [hw0, if_false] at hm
      split at hm
      · cases hm
      · rw [Option.map_eq_some_iff] at hm
        obtain ⟨⟨F1, l1, d1⟩, h1, h2⟩ := hm
        simp only [Prod.mk.injEq] at h2
        obtain ⟨rfl, -, -⟩ := h2
        have hcl := charge_le_input (side := side) (q := q) hvt (Nat.min_le_left ⌊value side.opposite q t⌋₊ l)
        have hcu := (C21_charge_fair side (min ⌊value side.opposite q t⌋₊ l) t hvt).2.2
        have hwant := hq rfl
        have hrestnn : 0 ≤ (L.map fun p => value side (x p.1) p.1).sum :=
          (mul_nonneg (Nat.cast_nonneg _) (le_of_lt hu)).trans hsum
        have hxa : x t ≤ min ⌊value side.opposite q t⌋₊ l + e := by
          by_contra hcon
          rw [not_le] at hcon
          have hmin : min ⌊value side.opposite q t⌋₊ l = ⌊value side.opposite q t⌋₊ := by omega
          rw [hmin] at hcon
          have : ((x t : ℕ) : ℚ) < ((⌊value side.opposite q t⌋₊ + 1 + e : ℕ) : ℚ) := by
            refine hcancel ?_
            push_cast at hc hwant ⊢
            have : (0 : ℚ) ≤ F1.length := Nat.cast_nonneg _
            simp only [List.length_cons] at hc
            push_cast at hc
            linarith
          have : x t < ⌊value side.opposite q t⌋₊ + 1 + e := by exact_mod_cast this
          omega
        revert h1 hcl hcu hxa
        generalize min ⌊value side.opposite q t⌋₊ l = a
        intro h1 hcl hcu hxa
        rw [value_linear side a t] at hcu
        have := ih (List.pairwise_cons.1 hs).2 (fun p hp => hv p (by simp [hp])) h1 (fun p hp => hx p (by simp [hp]))
          (e := a + e - x t) (v := value side 1 t) hrest ?_
        · simp only [List.map_cons, List.sum_cons]
          omega
        · rw [Nat.cast_sub hcl, Nat.cast_sub hxa]
          simp only [List.length_cons] at hc
          push_cast at hc ⊢
          linarith

theorem filledAt_mem {F : List (Int × Nat)} (hF : (F.map Prod.fst).Nodup) {p : Int × Nat} (hp : p ∈ F) : filledAt F p.1 = p.2 := by
  induction F with
  | nil => cases hp
  | cons y F ih =>
    simp only [List.map_cons, List.nodup_cons] at hF
    unfold filledAt
    by_cases he : y.1 = p.1
    · have hyp : y = p := by
        rcases List.mem_cons.1 hp with h | h
        · exact h.symm
        · exact absurd (List.mem_map.2 ⟨p, h, he.symm⟩) hF.1
      subst hyp
      rw [List.filter_cons_of_pos (by simp)]
      have : F.filter (fun z => decide (z.1 = y.1)) = [] := by
        rw [List.filter_eq_nil_iff]
        intro z hz
        simp only [decide_eq_true_eq]
        exact fun h => hF.1 (List.mem_map.2 ⟨z, hz, h⟩)
      rw [this]
      simp
    · rw [List.filter_cons_of_neg (by simpa using he)]
      refine ih hF.2 ?_
      rcases List.mem_cons.1 hp with h | h
      · exact absurd (congrArg Prod.fst h).symm he
      · exact h

theorem filledAt_not {F : List (Int × Nat)} {t : Int} (h : t ∉ F.map Prod.fst) : filledAt F t = 0 := by
  unfold filledAt
  have : F.filter (fun z => decide (z.1 = t)) = [] := by
    rw [List.filter_eq_nil_iff]
    intro z hz
    simp only [decide_eq_true_eq]
    exact fun he => h (List.mem_map.2 ⟨z, hz, he⟩)
  rw [this]; rfl

/-- Sums over fills and over ticks. -/
theorem sum_fills {M : Type} [AddCommMonoid M] {F : List (Int × Nat)} (hF : (F.map Prod.fst).Nodup) {L : List Int} (hL : L.Nodup)
    (hsub : ∀ t ∈ F.map Prod.fst, t ∈ L) {g : Nat → Int → M} (h0 : ∀ t, g 0 t = 0) :
    (L.map fun t => g (filledAt F t) t).sum = (F.map fun p => g p.2 p.1).sum := by
  have e1 : (F.map fun p => g p.2 p.1) = (F.map Prod.fst).map fun t => g (filledAt F t) t := by
    rw [List.map_map]
    refine List.map_congr_left fun p hp => ?_
    simp only [Function.comp]
    rw [filledAt_mem hF hp]
  rw [e1, ← List.sum_toFinset _ hL, ← List.sum_toFinset _ hF]
  refine (Finset.sum_subset (fun t ht => ?_) fun t _ ht => ?_).symm
  · exact List.mem_toFinset.2 (hsub t (List.mem_toFinset.1 ht))
  · rw [filledAt_not fun h => ht (List.mem_toFinset.2 h), h0]

theorem fills_cost {side : Dir} {L : List (Int × Nat)} (hv : ∀ x ∈ L, ValidTick x.1) {F : List (Int × Nat)} {q left dust : Nat}
    (h : matchLevels side L q = some (F, left, dust)) (hn : F.length ≤ 290402824) {slack : Nat} (hf : slack = 1 ∨ FinePrices side L) :
    (F.map fun p => value side p.2 p.1).sum ≤ q + slack := by
  have h1 : (((F.map fun p => charge side p.2 p.1).sum : ℕ) : ℚ) ≤ q := by exact_mod_cast match_charges hv h
  have hv2 : ∀ p ∈ F, ValidTick p.1 ∧ (FinePrices side L → side = .ask ∨ price p.1 ≤ 10 ^ 18) := by
    intro p hp
    obtain ⟨l, hl, -⟩ := (match_sub h).2 p hp
    exact ⟨hv (p.1, l) hl, fun hf => hf.imp id fun hf => hf (p.1, l) hl⟩
  rcases hf with rfl | hf
  · have key : ∀ F : List (Int × Nat), (∀ p ∈ F, ValidTick p.1) →
        (F.map fun p => value side p.2 p.1).sum ≤ (((F.map fun p => charge side p.2 p.1).sum : ℕ) : ℚ) + F.length * (1 / 10 ^ 18) := by
      intro F hF
      induction F with
      | nil => simp
      | cons p F ih =>
        have ih := ih fun p hp => hF p (by simp [hp])
        have := (C21_charge_fair side p.2 p.1 (hF p (by simp))).1
        simp only [List.map_cons, List.sum_cons, List.length_cons, Nat.cast_add, Nat.cast_one]
        linarith
    have h2 := key F fun p hp => (hv2 p hp).1
    have h3 : (F.length : ℚ) ≤ 290402824 := by exact_mod_cast hn
    have h4 : (F.length : ℚ) * (1 / 10 ^ 18) ≤ 1 := by
      have : (F.length : ℚ) * (1 / 10 ^ 18) ≤ 290402824 * (1 / 10 ^ 18) := mul_le_mul_of_nonneg_right h3 (by norm_num)
      linarith
    push_cast at h1 h2 ⊢
    linarith
  · have key : ∀ F : List (Int × Nat), (∀ p ∈ F, ValidTick p.1 ∧ (side = .ask ∨ price p.1 ≤ 10 ^ 18)) →
        (F.map fun p => value side p.2 p.1).sum ≤ (((F.map fun p => charge side p.2 p.1).sum : ℕ) : ℚ) := by
      intro F hF
      induction F with
      | nil => simp
      | cons p F ih =>
        have ih := ih fun p hp => hF p (by simp [hp])
        obtain ⟨g1, g2⟩ := hF p (by simp)
        have := ((C21_charge_fair side p.2 p.1 g1).2.1 g2).2
        simp only [List.map_cons, List.sum_cons, Nat.cast_add]
        linarith
    have h2 := key F fun p hp => ⟨(hv2 p hp).1, (hv2 p hp).2 hf⟩
    have h3 : (0 : ℚ) ≤ slack := Nat.cast_nonneg _
    linarith

/-- The levels used by a request are sorted and distinct ticks. -/
theorem levels_nodup {side : Dir} {L : List (Int × Nat)} (hs : L.Pairwise (fun x y => Better side x.1 y.1)) : (L.map Prod.fst).Nodup := by
  unfold List.Nodup
  rw [List.pairwise_map]
  refine hs.imp fun {a b} h => ?_
  cases side <;> simp only [Better] at h <;> omega

/-- C103 (quotes): a quote given later, without new orders on the side in between, is at most what was quoted before for the same input plus
one unit for each listed tick (plus one more on a side with bids above price 10^18). -/
theorem C103_quotes {ch : Chain} {w : World} (hw : Reachable ch w) {ob : Orderbook} (hob : answer w.store .orderbookState = some (.book ob))
    {side : Dir} (ops : List Op) (hn : ∀ op ∈ ops, ¬ Spec.Op.adds op side) {l : List (Int × TickState)}
    (hl : answer w.store (.allTicks none none none) = some (.ticks l)) {x y slack : Nat} (hy : y < 2 ^ 128)
    (hf : slack = 1 ∨ side = .ask ∨ ∀ t, tickLiquidity w.store t side ≠ 0 → price t ≤ 10 ^ 18) (ha : x + l.length + slack ≤ y) {c c2 : Coin}
    (hq : answer w.store (.calcOutAmountGivenIn ⟨denomOut ob.quoteDenom ob.baseDenom side, y⟩ (denomIn ob.quoteDenom ob.baseDenom side) 0) =
      some (.coin c))
    (hq2 : answer (run ch w ops).store (.calcOutAmountGivenIn ⟨denomOut ob.quoteDenom ob.baseDenom side, x⟩
      (denomIn ob.quoteDenom ob.baseDenom side) 0) = some (.coin c2)) : c2.amount ≤ c.amount := by
  have hob' : w.store.orderbook = some ob := by
    obtain ⟨n, hr⟩ := hw
    obtain ⟨b, h⟩ := hr.traced
    obtain ⟨ob', h', -⟩ := h.rel.ptr
    rw [answer_orderbookState h'] at hob
    rw [h', Answer.book.inj (Option.some.inj hob)]
  have hd := denoms_of hob'
  have hne : ob.quoteDenom ≠ ob.baseDenom := by
    obtain ⟨n, hr⟩ := hw
    obtain ⟨b, h⟩ := hr.traced
    exact filledBook_rel h.rel hob'
  have hw1 := Reachable.run hw ops
  have hd1 : denoms (run ch w ops).store = .ok (ob.quoteDenom, ob.baseDenom) := by rw [C39_denoms_fixed hw ops, hd]
  obtain ⟨ob1, hob1, e1, e2⟩ := denoms_eq hd1
  have hliq := C103_liquidity hw ops hn
  obtain ⟨-, -, side1, L, F, left, dust, hp, hL, hm, -, -, rfl⟩ :=
    (C60_quote hw hob (⟨"", ⟨denomOut ob.quoteDenom ob.baseDenom side, y⟩, denomIn ob.quoteDenom ob.baseDenom side, 0, 0, none⟩ : SwapReq) rfl hy c).1 hq
  obtain ⟨-, -, side2, L2, F2, left2, dust2, hp2, hL2, hm2, -, -, rfl⟩ :=
    (C60_quote hw1 (answer_orderbookState hob1)
      (⟨"", ⟨denomOut ob.quoteDenom ob.baseDenom side, x⟩, denomIn ob.quoteDenom ob.baseDenom side, 0, 0, none⟩ : SwapReq) rfl
      (by show x < _; omega) c2).1 hq2
  rw [e1, e2] at hp2
  have q1 := pair_unique hne hp (side' := side) (by constructor <;> rfl)
  have q2 := pair_unique hne hp2 (side' := side) (by constructor <;> rfl)
  subst q1 q2
  have hvL := (levels_valid hw hd hL).1
  have hvL2 := (levels_valid hw1 hd1 hL2).1
  have hsub2 := match_sub hm2
  have hnd2 := (levels_nodup hL2.1).sublist hsub2.1
  have hnd := (levels_nodup hL.1).sublist (match_sub hm).1
  have hin : ∀ t ∈ F2.map Prod.fst, t ∈ L.map Prod.fst := by
    intro t ht
    obtain ⟨⟨t', k⟩, hk, rfl⟩ := List.mem_map.1 (hsub2.1.subset ht)
    obtain ⟨k1, k2, -⟩ := (hL2.2 t' k).1 hk
    have := hliq t'
    exact List.mem_map.2 ⟨(t', tickLiquidity w.store t' side), (hL.2 _ _).2 ⟨rfl, by omega, fun _ h => by cases h⟩, rfl⟩
  have hx : ∀ p ∈ L, filledAt F2 p.1 ≤ p.2 := by
    rintro ⟨t, k⟩ hp
    by_cases ht : t ∈ F2.map Prod.fst
    · obtain ⟨⟨t', a⟩, hpa, rfl⟩ := List.mem_map.1 ht
      obtain ⟨k2, g1, g2⟩ := hsub2.2 _ hpa
      rw [filledAt_mem hnd2 hpa]
      have g3 := ((hL2.2 _ _).1 g1).1
      have g4 := ((hL.2 _ _).1 hp).1
      have := hliq t'
      simp only at g2 g3 g4 ⊢
      omega
    · rw [filledAt_not ht]; exact Nat.zero_le _
  have hsum : (L.map fun p => filledAt F2 p.1).sum = (F2.map Prod.snd).sum := by
    have := sum_fills (M := ℕ) hnd2 (levels_nodup hL.1) hin (g := fun a _ => a) fun _ => rfl
    rw [List.map_map] at this
    exact this
  have hcost : (L.map fun p => value side (filledAt F2 p.1) p.1).sum = (F2.map fun p => value side p.2 p.1).sum := by
    have := sum_fills (M := ℚ) hnd2 (levels_nodup hL.1) hin (g := fun a t => value side a t) fun t => by cases side <;> simp [value]
    rw [List.map_map] at this
    exact this
  have hlen : F.length ≤ l.length := by
    obtain ⟨n, hr⟩ := hw
    obtain ⟨b, h⟩ := hr.traced
    obtain ⟨all, -, h2, -, h4⟩ := C41_all_ticks h
    have e : all = l := by
      have := h4 none none none
      rw [hl] at this
      have := Answer.ticks.inj (Option.some.inj this)
      rw [this]
      exact (List.filter_eq_self.2 fun _ _ => rfl).symm
    subst e
    have : (F.map Prod.fst).length ≤ (all.map Prod.fst).length := by
      refine (hnd.subperm fun t ht => ?_).length_le
      obtain ⟨⟨t', k⟩, hk, rfl⟩ := List.mem_map.1 ((match_sub hm).1.subset ht)
      obtain ⟨k1, k2, -⟩ := (hL.2 t' k).1 hk
      refine (h2 _).2 ⟨side, fun hnil => k2 ?_⟩
      rw [k1, h.rel.tickLiq, hnil]; rfl
    simpa using this
  have hlen2 : F2.length ≤ 290402824 := by
    have hc : (Finset.Icc (-108000000 : Int) 182402823).card = 290402824 := by rw [Int.card_Icc]; rfl
    have h1 : (F2.map Prod.fst).toFinset.card = F2.length := by rw [List.toFinset_card_of_nodup hnd2, List.length_map]
    rw [← h1, ← hc]
    refine Finset.card_le_card fun t ht => Finset.mem_Icc.2 ?_
    obtain ⟨p, hp, rfl⟩ := List.mem_map.1 (hsub2.1.subset (List.mem_toFinset.1 ht))
    exact hvL2 p hp
  have hc2 := fills_cost hvL2 hm2 hlen2 (slack := slack) (hf.imp id fun h => h.imp id fun h p hp => h p.1 (by
    have g := (hL2.2 p.1 p.2).1 hp
    have := hliq p.1
    omega))
  have hfin := match_best hL.1 hvL hm (x := filledAt F2) hx (e := 0) (v := 0)
    (fun p hp => le_of_lt (value_one_pos (hvL p hp))) (by
      rw [hcost]
      have h1 : (x : ℚ) + F.length + slack ≤ y := by exact_mod_cast (by omega : x + F.length + slack ≤ y)
      simp only at hc2 ⊢
      linarith)
  rw [hsum] at hfin
  exact hfin

/-- Non-vacuity, on the book of `C103_slack_needed`: the quotes for 1 before and after, and for 4 before. -/
example : (answer Demo.crumb.store (.calcOutAmountGivenIn ⟨"b", 1⟩ "q" 0), answer Demo.crumb.store (.calcOutAmountGivenIn ⟨"b", 4⟩ "q" 0),
    answer (run Demo.ch Demo.crumb [Demo.sell "zed" 1 1]).store (.calcOutAmountGivenIn ⟨"b", 1⟩ "q" 0)) =
    (some (.coin ⟨"q", 1⟩), some (.coin ⟨"q", 31⟩), some (.coin ⟨"q", 10⟩)) := by decide +kernel

end OB
