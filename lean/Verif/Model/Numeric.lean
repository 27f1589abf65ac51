import Verif.Spec.Vec

/-!
# Numerical primitives

Floating point results that are `NaN` or infinite are modelled by `none`.
-/

namespace Optika

/-- `math.sqrt`/`np.sqrt` on a real number: not finite below zero. -/
noncomputable def sqrt? (x : ℝ) : Option ℝ :=
  if x < 0 then none else some (Real.sqrt x)

/-- Real division: not finite if the denominator vanishes. -/
noncomputable def div? (a b : ℝ) : Option ℝ :=
  if b = 0 then none else some (a / b)

/-- `math.copysign(1, x)`; a zero is taken to be `+0.0`. -/
noncomputable def copysign1 (x : ℝ) : ℝ := if x < 0 then -1 else 1

/-- `np.sign`. -/
noncomputable def sgn (x : ℝ) : ℝ := if x < 0 then -1 else if x = 0 then 0 else 1

@[simp] theorem sqrt?_eq_some {x y : ℝ} : sqrt? x = some y ↔ 0 ≤ x ∧ y = Real.sqrt x := by
  unfold sqrt?
  split
  · rename_i h; simp; intro h'; linarith
  · rename_i h; simp at h; simp [h, eq_comm]

@[simp] theorem sqrt?_eq_none {x : ℝ} : sqrt? x = none ↔ x < 0 := by
  unfold sqrt?; split <;> simp_all

@[simp] theorem div?_eq_some {a b y : ℝ} : div? a b = some y ↔ b ≠ 0 ∧ y = a / b := by
  unfold div?
  split
  · simp_all
  · simp_all [eq_comm]

@[simp] theorem div?_eq_none {a b : ℝ} : div? a b = none ↔ b = 0 := by
  unfold div?; split <;> simp_all

theorem div?_of_ne {a b : ℝ} (h : b ≠ 0) : div? a b = some (a / b) := by simp [h]
theorem sqrt?_of_nonneg {a : ℝ} (h : 0 ≤ a) : sqrt? a = some (Real.sqrt a) := by simp [h]

end Optika
