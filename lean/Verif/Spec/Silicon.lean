import Mathlib.MeasureTheory.Integral.IntervalIntegral.Basic
import Mathlib.Analysis.SpecialFunctions.Exp
import Mathlib.Analysis.SpecialFunctions.Pow.Real

/-!
# Vocabulary for silicon sensors
-/

namespace Optika
open MeasureTheory

/-- The probability that an electron from depth `z` is collected: `η₀` at the back surface, linear
in the implant layer of thickness `W`, one below it. -/
noncomputable def sternProfile (η₀ W z : ℝ) : ℝ := if z < W then η₀ + (1 - η₀) * (z / W) else 1

/-- The mean of a quantity that depends on the depth of absorption, in a medium of absorption
coefficient `a` without end. -/
noncomputable def absorptionMean (a : ℝ) (q : ℝ → ℝ) : ℝ :=
  (∫ z in Set.Ioi (0 : ℝ), q z * Real.exp (-(a * z))) / ∫ z in Set.Ioi (0 : ℝ), Real.exp (-(a * z))

/-- The same for a layer of thickness `D`, given that the photon is absorbed in it. -/
noncomputable def layerMean (a D : ℝ) (q : ℝ → ℝ) : ℝ :=
  (∫ z in (0 : ℝ)..D, q z * Real.exp (-(a * z))) / ∫ z in (0 : ℝ)..D, Real.exp (-(a * z))

/-- The variance of the displacement of an electron from depth `z` if the field-free region has
thickness `f`. -/
noncomputable def diffusionVariance (f z : ℝ) : ℝ := if z < f then f ^ 2 * (1 - z / f) else 0

end Optika
