import Verif.SpecCost
import Verif.Proofs.TreeFuel
/- Which storage cells a computation depends on: a calculus. -/
namespace OB
open Spec

section
variable {σ α β : Type} {view : σ → Cell → Option Val}

/-- What two runs of a computation leave, from `s` and `s'`. -/
def After (view : σ → Cell → Option Val) (S : Cell → Prop) (s s' t t' : σ) : Prop :=
  (∀ c, S c → view t' c = view t c) ∧ ∀ c, ¬ S c → view t c = view s c ∧ view t' c = view s' c

def Matches (view : σ → Cell → Option Val) (S : Cell → Prop) (s s' : σ) : Res σ α → Res σ α → Prop
  | .ok a t, .ok a' t' => a' = a ∧ After view S s s' t t'
  | .err e t, .err e' t' => e' = e ∧ After view S s s' t t'
  | _, _ => False

/-- From the state `s` the computation reads and writes only the cells in `S`. -/
def UsesOn (view : σ → Cell → Option Val) (S : Cell → Prop) (x : EM σ α) (s : σ) : Prop :=
  ∀ s', (∀ c, S c → view s' c = view s c) → Matches view S s s' (x s) (x s')

/-- At most `k` cells. -/
def Uses (view : σ → Cell → Option Val) (k : Nat) (x : EM σ α) (s : σ) : Prop :=
  ∃ S : List Cell, S.length ≤ k ∧ UsesOn view (· ∈ S) x s

theorem After.mono {S S' : Cell → Prop} {s s' t t' : σ} (h : After view S s s' t t') (hs : ∀ c, S c → S' c)
    (ha : ∀ c, S' c → view s' c = view s c) : After view S' s s' t t' := by
  refine ⟨fun c hc => ?_, fun c hc => h.2 c fun hh => hc (hs c hh)⟩
  by_cases hh : S c
  · exact h.1 c hh
  · obtain ⟨h1, h2⟩ := h.2 c hh
    rw [h2, h1, ha c hc]

theorem UsesOn.mono {S S' : Cell → Prop} {x : EM σ α} {s : σ} (h : UsesOn view S x s) (hs : ∀ c, S c → S' c) : UsesOn view S' x s := by
  intro s' ha
  have := h s' fun c hc => ha c (hs c hc)
  revert this
  cases x s <;> cases x s' <;> simp only [Matches]
  · exact fun h => ⟨h.1, h.2.mono hs ha⟩
  · exact id
  · exact id
  · exact fun h => ⟨h.1, h.2.mono hs ha⟩

theorem Uses.mono {k k' : Nat} {x : EM σ α} {s : σ} (h : Uses view k x s) (hk : k ≤ k') : Uses view k' x s :=
  let ⟨S, h1, h2⟩ := h; ⟨S, h1.trans hk, h2⟩

theorem After.refl {S : Cell → Prop} {s s' : σ} (ha : ∀ c, S c → view s' c = view s c) : After view S s s' s s' := ⟨ha, fun _ _ => ⟨rfl, rfl⟩⟩

theorem UsesOn.pure {S : Cell → Prop} (a : α) (s : σ) : UsesOn view S (Pure.pure a : EM σ α) s := fun s' ha => ⟨rfl, .refl ha⟩
theorem UsesOn.fail {S : Cell → Prop} (e : Err) (s : σ) : UsesOn view S (EM.fail e : EM σ α) s := fun s' ha => ⟨rfl, .refl ha⟩
theorem UsesOn.lift {S : Cell → Prop} (x : Except Err α) (s : σ) : UsesOn view S (EM.lift x : EM σ α) s := by
  intro s' ha
  cases x with
  | ok a => exact ⟨rfl, .refl ha⟩
  | error e => exact ⟨rfl, .refl ha⟩
theorem UsesOn.ensure {S : Cell → Prop} (c : Bool) (e : Err) (s : σ) : UsesOn view S (EM.ensure c e : EM σ Unit) s := by
  intro s' ha
  cases c with
  | true => exact ⟨rfl, .refl ha⟩
  | false => exact ⟨rfl, .refl ha⟩

theorem UsesOn.bind {S : Cell → Prop} {x : EM σ α} {f : α → EM σ β} {s : σ} (hx : UsesOn view S x s)
    (hf : ∀ a t, x s = .ok a t → UsesOn view S (f a) t) : UsesOn view S (x >>= f) s := by
  intro s' ha
  have h1 := hx s' ha
  rw [EM.bind_apply, EM.bind_apply]
  cases e : x s with
  | err er t =>
    rw [e] at h1
    cases e' : x s' with
    | ok a' t' => rw [e'] at h1; exact h1.elim
    | err er' t' => rw [e'] at h1; exact h1
  | ok a t =>
    rw [e] at h1
    cases e' : x s' with
    | err er' t' => rw [e'] at h1; exact h1.elim
    | ok a' t' =>
      rw [e'] at h1
      obtain ⟨rfl, h1, h2⟩ := h1
      have h3 := hf a' t e t' h1
      simp only
      revert h3
      have tr : ∀ u u', After view S t t' u u' → After view S s s' u u' := fun u u' h => ⟨h.1, fun c hc => by
        obtain ⟨a1, a2⟩ := h.2 c hc
        obtain ⟨b1, b2⟩ := h2 c hc
        exact ⟨a1.trans b1, a2.trans b2⟩⟩
      cases f a' t <;> cases f a' t' <;> simp only [Matches]
      · exact fun h => ⟨h.1, tr _ _ h.2⟩
      · exact id
      · exact id
      · exact fun h => ⟨h.1, tr _ _ h.2⟩

/-- Reading: what follows depends on the cells in `S` only. -/
theorem UsesOn.get {S : Cell → Prop} {f : σ → EM σ β} {s : σ} (h0 : ∀ s', (∀ c, S c → view s' c = view s c) → f s' = f s)
    (h : UsesOn view S (f s) s) : UsesOn view S (EM.get >>= f) s := by
  intro s' ha
  have h1 := h s' ha
  rw [EM.get_bind, EM.get_bind, h0 s' ha]
  exact h1

/-- Writing. -/
theorem UsesOn.modify {S : Cell → Prop} {g : σ → σ} {s : σ}
    (h1 : ∀ s', (∀ c, S c → view s' c = view s c) → ∀ c, S c → view (g s') c = view (g s) c) (h2 : ∀ s' c, ¬ S c → view (g s') c = view s' c) :
    UsesOn view S (EM.modify g : EM σ Unit) s := fun s' ha => ⟨rfl, h1 s' ha, fun c hc => ⟨h2 s c hc, h2 s' c hc⟩⟩

theorem UsesOn.congr {S : Cell → Prop} {x y : EM σ α} {s : σ} (h : UsesOn view S x s) (he : ∀ s', x s' = y s') : UsesOn view S y s := by
  intro s' ha; rw [← he, ← he]; exact h s' ha

theorem Uses.on {k : Nat} {S : List Cell} {x : EM σ α} {s : σ} (h : UsesOn view (· ∈ S) x s) (hk : S.length ≤ k) : Uses view k x s := ⟨S, hk, h⟩
theorem Uses.pure {k : Nat} (a : α) (s : σ) : Uses view k (Pure.pure a : EM σ α) s := ⟨[], by simp, .pure a s⟩
theorem Uses.fail {k : Nat} (e : Err) (s : σ) : Uses view k (EM.fail e : EM σ α) s := ⟨[], by simp, .fail e s⟩
theorem Uses.lift {k : Nat} (x : Except Err α) (s : σ) : Uses view k (EM.lift x : EM σ α) s := ⟨[], by simp, .lift x s⟩
theorem Uses.ensure {k : Nat} (c : Bool) (e : Err) (s : σ) : Uses view k (EM.ensure c e : EM σ Unit) s := ⟨[], by simp, .ensure c e s⟩

theorem Uses.bind {k1 k2 : Nat} {x : EM σ α} {f : α → EM σ β} {s : σ} (hx : Uses view k1 x s)
    (hf : ∀ a t, x s = .ok a t → Uses view k2 (f a) t) : Uses view (k1 + k2) (x >>= f) s := by
  obtain ⟨S1, h1, h2⟩ := hx
  cases e : x s with
  | err er t =>
    refine ⟨S1, by omega, h2.bind fun a t' e' => ?_⟩
    rw [e] at e'; cases e'
  | ok a t =>
    obtain ⟨S2, h3, h4⟩ := hf a t e
    refine ⟨S1 ++ S2, by simp; omega, (h2.mono (by simp +contextual)).bind fun a' t' e' => ?_⟩
    rw [e] at e'
    cases e'
    exact h4.mono (by simp +contextual)

/-- A step that uses no cell of its own. -/
theorem Uses.bind0 {k : Nat} {x : EM σ α} {f : α → EM σ β} {s : σ} (hx : Uses view 0 x s)
    (hf : ∀ a t, x s = .ok a t → Uses view k (f a) t) : Uses view k (x >>= f) s := (hx.bind hf).mono (by omega)

theorem Uses.get {k : Nat} (S : List Cell) {f : σ → EM σ β} {s : σ} (h0 : ∀ s', (∀ c ∈ S, view s' c = view s c) → f s' = f s)
    (h : Uses view k (f s) s) : Uses view (S.length + k) (EM.get >>= f) s := by
  obtain ⟨S2, h1, h2⟩ := h
  refine ⟨S ++ S2, by simp; omega, .get (fun s' ha => h0 s' fun c hc => ha c (by simp [hc])) (h2.mono (by simp +contextual))⟩

/-- Taking the cost of a step off the account. -/
theorem Uses.step {k1 k : Nat} {x : EM σ α} {f : α → EM σ β} {s : σ} (hx : Uses view k1 x s) (hk : k1 ≤ k)
    (hf : ∀ a t, x s = .ok a t → Uses view (k - k1) (f a) t) : Uses view k (x >>= f) s := (hx.bind hf).mono (by omega)
theorem Uses.read {k : Nat} (S : List Cell) {f : σ → EM σ β} {s : σ} (k1 : Nat) (hS : S.length ≤ k1) (hk : k1 ≤ k)
    (h0 : ∀ s', (∀ c ∈ S, view s' c = view s c) → f s' = f s)
    (h : Uses view (k - k1) (f s) s) : Uses view k (EM.get >>= f) s := (Uses.get S h0 h).mono (by omega)

/-- Lift steps in continuations: an equation instead of a computation. -/
theorem Uses.liftBind {k : Nat} {x : Except Err α} {f : α → EM σ β} {s : σ} (hf : ∀ a, x = .ok a → Uses view k (f a) s) :
    Uses view k (EM.lift x >>= f) s := by
  refine (Uses.lift x s).bind0 fun a t e => ?_
  rw [EM.lift_eq_ok] at e
  obtain ⟨e, rfl⟩ := e
  exact hf a e
theorem Uses.ensureBind {k : Nat} {c : Bool} {er : Err} {f : Unit → EM σ β} {s : σ} (hf : c = true → Uses view k (f ()) s) :
    Uses view k (EM.ensure c er >>= f) s := by
  refine (Uses.ensure c er s).bind0 fun a t e => ?_
  rw [EM.ensure_eq_ok] at e
  obtain ⟨e, rfl⟩ := e
  exact hf e
theorem Uses.ite {k : Nat} {c : Prop} [Decidable c] {x y : EM σ α} {s : σ} (hx : c → Uses view k x s) (hy : ¬ c → Uses view k y s) :
    Uses view k (if c then x else y) s := by
  split
  · next h => exact hx h
  · next h => exact hy h

end
end OB
