import Mathlib.MeasureTheory.Integral.IntervalIntegral.Basic
import Mathlib.Analysis.SpecialFunctions.Complex.Circle

/-!
# Thin gratings, stated without reference to the code
-/

namespace Optika

/-- The fraction of light that a thin grating diffracts into order `i`: the squared modulus of a
Fourier coefficient of the phase factor along one period.  `h` is the height of the groove as
function of the position in the period (both in units of one), `phase` the phase that belongs to
height one. -/
noncomputable def thinGrating (h : ℝ → ℝ) (phase : ℝ) (i : ℤ) : ℝ :=
  ‖∫ x in (0 : ℝ)..1, Complex.exp (Complex.I * (phase * h x : ℝ))
    * Complex.exp (-(2 * Real.pi * i * x : ℝ) * Complex.I)‖ ^ 2

/-- The phase that belongs to the full depth of a groove. -/
noncomputable def groovePhase (depth wavelength cosTheta : ℝ) : ℝ :=
  4 * Real.pi * depth / (wavelength * cosTheta)

/-- A rectangular groove with the given duty ratio. -/
noncomputable def rectangularGroove (duty x : ℝ) : ℝ := if x ≤ duty then 1 else 0
/-- A sawtooth. -/
def sawtoothGroove (x : ℝ) : ℝ := 1 - x
/-- A triangle. -/
noncomputable def triangularGroove (x : ℝ) : ℝ := |2 * x - 1|
/-- A sinusoid. -/
noncomputable def sinusoidalGroove (x : ℝ) : ℝ := (1 + Real.sin (2 * Real.pi * x)) / 2

end Optika
