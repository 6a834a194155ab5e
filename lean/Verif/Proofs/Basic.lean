import Verif.Model.World
import Mathlib.Tactic.Ring
import Mathlib.Tactic.Linarith
import Mathlib.Tactic.Positivity
import Mathlib.Tactic.NormNum
import Mathlib.Tactic.IntervalCases
/- Reasoning rules for the storage monad and `Except`. -/
namespace OB

namespace EM
variable {σ α β : Type}

theorem bind_apply (x : EM σ α) (f : α → EM σ β) (s : σ) :
    (x >>= f) s = match x s with
      | .ok a s' => f a s'
      | .err e s' => .err e s' := Eq.trans rfl rfl

@[simp] theorem pure_apply (a : α) (s : σ) : (Pure.pure a : EM σ α) s = .ok a s := Eq.trans rfl rfl
@[simp] theorem pure_apply' (a : α) (s : σ) : (EM.pure a : EM σ α) s = .ok a s := Eq.trans rfl rfl
@[simp] theorem fail_apply (e : Err) (s : σ) : (EM.fail e : EM σ α) s = .err e s := Eq.trans rfl rfl
@[simp] theorem get_apply (s : σ) : (EM.get : EM σ σ) s = .ok s s := Eq.trans rfl rfl
@[simp] theorem modify_apply (f : σ → σ) (s : σ) : EM.modify f s = .ok () (f s) := Eq.trans rfl rfl
@[simp] theorem lift_ok (a : α) (s : σ) : (EM.lift (.ok a) : EM σ α) s = .ok a s := Eq.trans rfl rfl
@[simp] theorem lift_error (e : Err) (s : σ) : (EM.lift (.error e) : EM σ α) s = .err e s := Eq.trans rfl rfl
@[simp] theorem ensure_true (e : Err) (s : σ) : EM.ensure true e s = .ok () s := Eq.trans rfl rfl
@[simp] theorem ensure_false (e : Err) (s : σ) : EM.ensure false e s = .err e s := Eq.trans rfl rfl

theorem bind_ok_of {x : EM σ α} {f : α → EM σ β} {s s' : σ} {a : α} (h : x s = .ok a s') :
    (x >>= f) s = f a s' := by rw [bind_apply, h]

theorem bind_err_of {x : EM σ α} {f : α → EM σ β} {s s' : σ} {e : Err} (h : x s = .err e s') :
    (x >>= f) s = .err e s' := by rw [bind_apply, h]

@[simp] theorem get_bind (f : σ → EM σ β) (s : σ) : (EM.get >>= f) s = f s s := Eq.trans rfl rfl
@[simp] theorem modify_bind (g : σ → σ) (f : Unit → EM σ β) (s : σ) : (EM.modify g >>= f) s = f () (g s) := Eq.trans rfl rfl
@[simp] theorem pure_bind' (a : α) (f : α → EM σ β) (s : σ) : ((Pure.pure a : EM σ α) >>= f) s = f a s := Eq.trans rfl rfl
@[simp] theorem lift_ok_bind (a : α) (f : α → EM σ β) (s : σ) :
    ((EM.lift (.ok a) : EM σ α) >>= f) s = f a s := Eq.trans rfl rfl
@[simp] theorem lift_error_bind (e : Err) (f : α → EM σ β) (s : σ) :
    ((EM.lift (.error e) : EM σ α) >>= f) s = .err e s := Eq.trans rfl rfl
@[simp] theorem fail_bind (e : Err) (f : α → EM σ β) (s : σ) :
    ((EM.fail e : EM σ α) >>= f) s = .err e s := Eq.trans rfl rfl
@[simp] theorem ensure_true_bind (e : Err) (f : Unit → EM σ β) (s : σ) :
    ((EM.ensure true e : EM σ Unit) >>= f) s = f () s := Eq.trans rfl rfl
@[simp] theorem ensure_false_bind (e : Err) (f : Unit → EM σ β) (s : σ) :
    ((EM.ensure false e : EM σ Unit) >>= f) s = .err e s := Eq.trans rfl rfl

theorem bind_eq_ok {x : EM σ α} {f : α → EM σ β} {s s'' : σ} {b : β} :
    (x >>= f) s = .ok b s'' ↔ ∃ a s', x s = .ok a s' ∧ f a s' = .ok b s'' := by
  rw [bind_apply]
  cases h : x s with
  | ok a s' => simp
  | err e s' => simp

theorem lift_eq_ok {x : Except Err α} {s s' : σ} {a : α} :
    (EM.lift x : EM σ α) s = .ok a s' ↔ x = .ok a ∧ s' = s := by
  cases x with
  | ok b => simp [EM.lift, eq_comm]
  | error e => simp [EM.lift]

theorem ensure_eq_ok {c : Bool} {e : Err} {s s' : σ} {u : Unit} :
    (EM.ensure c e : EM σ Unit) s = .ok u s' ↔ c = true ∧ s' = s := by
  cases c <;> simp [EM.ensure, eq_comm]

theorem get_eq_ok {s s' a : σ} : (EM.get : EM σ σ) s = .ok a s' ↔ a = s ∧ s' = s := by
  simp [EM.get, eq_comm]

theorem modify_eq_ok {f : σ → σ} {s s' : σ} {u : Unit} :
    (EM.modify f : EM σ Unit) s = .ok u s' ↔ s' = f s := by
  simp [EM.modify, eq_comm]

theorem pure_eq_ok {s s' : σ} {a b : α} : (Pure.pure a : EM σ α) s = .ok b s' ↔ b = a ∧ s' = s := by
  simp [eq_comm]

end EM

theorem Except.bind_eq_ok' {α β : Type} {x : Except Err α} {f : α → Except Err β} {b : β} :
    (x >>= f) = .ok b ↔ ∃ a, x = .ok a ∧ f a = .ok b := by
  cases x with
  | ok a => simp [bind, Except.bind]
  | error e => simp [bind, Except.bind]

@[simp] theorem Except.ok_bind' {α β : Type} (a : α) (f : α → Except Err β) :
    ((Except.ok a : Except Err α) >>= f) = f a := Eq.trans rfl rfl
@[simp] theorem Except.error_bind' {α β : Type} (e : Err) (f : α → Except Err β) :
    ((Except.error e : Except Err α) >>= f) = .error e := Eq.trans rfl rfl
@[simp] theorem Except.pure_eq' {α : Type} (a : α) : (Pure.pure a : Except Err α) = .ok a := Eq.trans rfl rfl

@[simp] theorem liftTree_ok_of {α : Type} {x : TM α} {s : Store} {a : α} {t : TreeSt} (h : x s.trees = .ok a t) :
    liftTree x s = .ok a { s with trees := t } := by simp [liftTree, h]

theorem liftTree_eq_ok {α : Type} {x : TM α} {s s' : Store} {a : α} :
    liftTree x s = .ok a s' ↔ ∃ t, x s.trees = .ok a t ∧ s' = { s with trees := t } := by
  unfold liftTree
  cases h : x s.trees with
  | ok b t =>
    simp only [Res.ok.injEq]
    constructor
    · rintro ⟨rfl, rfl⟩; exact ⟨t, ⟨rfl, rfl⟩, rfl⟩
    · rintro ⟨t', ⟨rfl, rfl⟩, rfl⟩; exact ⟨rfl, rfl⟩
  | err e t => simp

/-! ### Checked arithmetic -/

theorem checkedSub_eq_ok {x y z : Nat} : checkedSub x y = .ok z ↔ y ≤ x ∧ z = x - y := by
  unfold checkedSub; split <;> simp_all [eq_comm]
theorem checkedAdd_eq_ok {x y z : Nat} : checkedAdd x y = .ok z ↔ x + y < U256 ∧ z = x + y := by
  unfold checkedAdd; split <;> simp_all [eq_comm]
theorem u128TryFrom_eq_ok {x z : Nat} : u128TryFrom x = .ok z ↔ x < U128 ∧ z = x := by
  unfold u128TryFrom; split <;> simp_all [eq_comm]
theorem u64Succ_eq_ok {x z : Nat} : u64Succ x = .ok z ↔ x + 1 < U64 ∧ z = x + 1 := by
  unfold u64Succ; split <;> simp_all [eq_comm]
theorem checkedMul_eq_ok {x y z : Nat} : checkedMul x y = .ok z ↔ x * y / D < U256 ∧ z = x * y / D := by
  unfold checkedMul; split <;> simp_all [eq_comm]
theorem checkedFromRatio_eq_ok {x y z : Nat} :
    checkedFromRatio x y = .ok z ↔ y ≠ 0 ∧ x * D / y < U256 ∧ z = x * D / y := by
  unfold checkedFromRatio
  split
  · simp_all
  · split <;> simp_all [eq_comm]
theorem fromRatio_eq_ok {x y z : Nat} :
    fromRatio x y = .ok z ↔ y ≠ 0 ∧ x * D / y < U256 ∧ z = x * D / y := by
  rw [← checkedFromRatio_eq_ok]
  unfold fromRatio
  cases checkedFromRatio x y <;> simp

theorem checkedSub_ok {x y : Nat} (h : y ≤ x) : checkedSub x y = .ok (x - y) := by simp [checkedSub, h]
theorem checkedAdd_ok {x y : Nat} (h : x + y < U256) : checkedAdd x y = .ok (x + y) := by simp [checkedAdd, h]
theorem u128TryFrom_ok {x : Nat} (h : x < U128) : u128TryFrom x = .ok x := by simp [u128TryFrom, h]
theorem u64Succ_ok {x : Nat} (h : x + 1 < U64) : u64Succ x = .ok (x + 1) := by simp [u64Succ, h]

theorem D_pos : 0 < D := by unfold D; positivity

/-- `Decimal256::from_ratio(amount, 1)` of a `Uint128` never panics. -/
theorem fromRatio_one {x : Nat} (h : x < U128) : fromRatio x 1 = .ok (x * D) := by
  rw [fromRatio_eq_ok]
  refine ⟨by simp, ?_, by simp⟩
  rw [Nat.div_one]
  calc x * D < U128 * D := Nat.mul_lt_mul_of_pos_right h D_pos
    _ < U256 := by norm_num [U128, D, U256]

theorem fromRatio_one_lt {x : Nat} (h : x * D < U256) : fromRatio x 1 = .ok (x * D) := by
  rw [fromRatio_eq_ok]
  refine ⟨by simp, ?_, by simp⟩
  rwa [Nat.div_one]

@[simp] theorem toUintFloor_mul (x : Nat) : toUintFloor (x * D) = x := by
  simp [toUintFloor, Nat.mul_div_cancel _ D_pos]

theorem toUintCeil_eq (x : Nat) : toUintCeil x = (x + (D - 1)) / D := by
  unfold toUintCeil
  split
  · subst_vars; simp [D]
  · rename_i h
    have : x + (D - 1) = (x - 1) + D := by have := D_pos; omega
    rw [this, Nat.add_div_right _ D_pos, Nat.add_comm]

end OB
