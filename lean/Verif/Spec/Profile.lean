import Mathlib.MeasureTheory.Measure.Lebesgue.Basic
import Mathlib.MeasureTheory.Integral.Bochner.Basic
import Mathlib.Analysis.Calculus.Deriv.Basic
import Mathlib.Analysis.SpecialFunctions.Complex.Circle

/-!
# What an interface profile should be, stated without reference to the code
-/

namespace Optika
open Filter Topology

/-- A monotone, antisymmetric transition from 0 to 1. -/
structure Transition (p : ℝ → ℝ) : Prop where
  mono : Monotone p
  nonneg : ∀ z, 0 ≤ p z
  le_one : ∀ z, p z ≤ 1
  half : p 0 = 1 / 2
  antisymm : ∀ z, p (-z) = 1 - p z
  before : Tendsto p atBot (𝓝 0)
  after : Tendsto p atTop (𝓝 1)

/-- The Fourier transform of the derivative of a profile. -/
noncomputable def derivFourier (p : ℝ → ℝ) (s : ℝ) : ℂ :=
  ∫ z : ℝ, ((deriv p z : ℝ) : ℂ) * Complex.exp (-Complex.I * s * z)

/-- The mean square of the depth, weighted by the derivative of the profile. -/
noncomputable def meanSquare (p : ℝ → ℝ) : ℝ := ∫ z : ℝ, deriv p z * z ^ 2

end Optika
