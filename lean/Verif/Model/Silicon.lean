import Verif.Model.Layers
import Verif.Model.Profiles

/-!
# Silicon sensors

`optika/sensors/materials/_materials.py`, `_diffusion.py` and `optika/sensors/_sensors.py`.
The refractive index of silicon, the quantum yield and the Fano factor are functions of the
wavelength (and of the temperature).  Quotients with denominator zero, which are `NaN` or infinite,
are `none`.
-/

namespace Optika
open Complex

/-- `absorption_effective`, `_materials.py` lines 55–93. -/
noncomputable def absorptionEffective (wavelength : ℝ) (nSubstrate directionSubstrate : ℂ) :
    Option ℝ :=
  div? (4 * Real.pi * (nSubstrate * directionSubstrate).im) wavelength

/-- `charge_collection_efficiency`, `_materials.py` lines 491–497. -/
noncomputable def chargeCollectionEfficiency (absorption thicknessImplant cceBacksurface : ℝ) :
    Option ℝ := do
  let z0 := absorption * thicknessImplant
  let expZ0 := Real.exp (-z0)
  let term1 := cceBacksurface
  let term2 := (← div? (1 - cceBacksurface) z0) * (1 - expZ0)
  return term1 + term2

/-- `probability_measurement`, `_materials.py` lines 779–782. -/
noncomputable def probabilityMeasurement (iqy cce : ℝ) : ℝ :=
  let pr := (1 - cce) ^ iqy
  1 - pr

/-- `charge_diffusion`, `_diffusion.py` lines 126–137. -/
noncomputable def chargeDiffusion (absorption thicknessSubstrate thicknessDepletion : ℝ) :
    Option ℝ := do
  let s := thicknessSubstrate
  let f := s - thicknessDepletion
  let a := absorption
  let numerator := f * (a * f + Real.exp (-a * f) - 1)
  let denominator := a * (1 - Real.exp (-a * s))
  sqrt? (← div? numerator denominator)

/-- `mean_charge_capture`, `_diffusion.py` lines 250–257, for a diffusion width that is not zero. -/
noncomputable def meanChargeCapture (widthDiffusion widthPixel : ℝ) : Option ℝ := do
  let a ← div? widthPixel widthDiffusion
  let t1 ← div? (Real.sqrt (2 / Real.pi) * (Real.exp (-a ^ 2 / 2) - 1)) a
  let t2 := erf (a / Real.sqrt 2)
  return (t1 + t2) ^ 2

/-- `_kernel_1d`, `_diffusion.py` lines 280–305. -/
noncomputable def kernel1d (widthDiffusion widthPixel n : ℝ) : Option ℝ := do
  let x ← div? widthPixel widthDiffusion
  let x2 := x ^ 2
  let c ← div? 1 (x * Real.sqrt (2 * Real.pi))
  let g := fun m : ℝ => Real.exp (-x2 * m / 2)
  let e := fun m : ℝ => m * erf (x * m / Real.sqrt 2)
  let g1 := g ((n - 1) ^ 2)
  let g2 := -2 * g (n ^ 2)
  let g3 := g ((n + 1) ^ 2)
  let e1 := e (n - 1) / 2
  let e2 := -e n
  let e3 := e (n + 1) / 2
  return c * (g1 + g2 + g3) + e1 + e2 + e3

/-- `kernel_diffusion`, `_diffusion.py` lines 397–418: the element with index `i`, `j`, each of
`-1`, `0`, `1`. -/
noncomputable def kernelDiffusion (widthDiffusion widthPixel : ℝ) (i j : ℤ) : Option ℝ := do
  let m ← kernel1d widthDiffusion widthPixel (-1)
  let z ← kernel1d widthDiffusion widthPixel 0
  let p ← kernel1d widthDiffusion widthPixel 1
  let k := fun l : ℤ => if l = -1 then m else if l = 0 then z else p
  let sum := ([-1, 0, 1].map fun a : ℤ => ([-1, 0, 1].map fun b : ℤ => k a * k b).sum).sum
  div? (k i * k j) sum

end Optika
