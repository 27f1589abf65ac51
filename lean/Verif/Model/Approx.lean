import Verif.Model.Numeric
import Mathlib.Analysis.SpecialFunctions.Trigonometric.DerivHyp

/-!
# The approximate simulation of measured electrons

`optika/sensors/materials/_materials.py`, `_discrete_gamma` and `electrons_measured_approx`.
-/

namespace Optika

/-- `_discrete_gamma`, lines 785–817, after the gamma distribution: the sample `x` (or the mean if
the ratio is zero) is split into whole and fractional part, and the fractional part is replaced by
zero or one, one if the uniform random number `u` is below it. -/
noncomputable def discreteGamma (mean vmr x u : ℝ) : ℝ :=
  let x := if vmr ≠ 0 then x else mean
  let frac := Int.fract x
  let int := (⌊x⌋ : ℝ)
  int + (if u < frac then 1 else 0)

/-- The shape and scale of the gamma distribution, lines 790–794; `none` is infinite or not a
number. -/
noncomputable def gammaParameters (mean vmr : ℝ) : Option (ℝ × ℝ) := do
  let shape ← div? mean vmr
  return (shape, vmr)

/-- `fraction_partial`, line 998. -/
noncomputable def fractionPartial (a W D : ℝ) : Option ℝ :=
  div? (1 - Real.exp (-(a * W))) (1 - Real.exp (-(a * D)))

/-- The moments of the number of electrons of one photon that is absorbed in the implant:
`mean_i` and `var_i`, lines 1006–1017; `n0` is `cce_backsurface`. -/
noncomputable def approxMoments (iqy fano a W n0 : ℝ) : Option (ℝ × ℝ) := do
  let aW := a * W
  let q1 ← div? (1 - n0) aW
  let q2 ← div? (1 - n0) (1 - Real.exp aW)
  let meanP := n0 + q1 + q2
  let q3 ← div? 4 (aW ^ 2)
  let q4 ← div? 1 (Real.sinh (aW / 2) ^ 2)
  let varP := (n0 - 1) ^ 2 * (q3 - q4) / 4
  let meanN := iqy
  let varN := fano * meanN
  let meanI := meanN * meanP
  let varExp := varN * varP + varN * meanP ^ 2 + varP * meanN ^ 2
  let expVar := meanN * (meanP - (varP + meanP ^ 2))
  return (meanI, varExp + expVar)

/-- Mean and variance-to-mean ratio of the gamma distributions of the photons absorbed in the implant
and of the others, lines 1019–1031.  `none` is not finite; `np.maximum` with `-inf` is the other
argument. -/
noncomputable def approxGammas (iqy fano a W n0 : ℝ) (partialPhotons completePhotons : ℝ) :
    Option ((ℝ × ℝ) × (ℝ × ℝ)) := do
  let (meanI, varI) ← approxMoments iqy fano a W n0
  let meanPartial := partialPhotons * meanI
  let vmrPartial ← div? varI meanI
  let vmr := (div? 1 (6 * meanPartial)).elim fano fun q => max (vmrPartial - q) fano
  return ((meanPartial, vmr), (completePhotons * iqy, fano))

end Optika
