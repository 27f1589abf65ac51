import Verif.Model.Silicon

/-!
# Depletion regions

`optika/sensors/materials/depletion/_depletion.py`.
-/

namespace Optika

/-- `scipy.optimize.minimize_scalar` with bounds: may fail to converge (`none`). Idealised: the result
is a local minimum of the function on the interval, rather than within a tolerance of one. -/
structure ScalarMinimizer where
  find : (ℝ → Option ℝ) → ℝ → ℝ → Option ℝ
  spec : ∀ f lo hi x, find f lo hi = some x → lo ≤ x ∧ x ≤ hi ∧
    ∃ u, f x = some u ∧ ∃ ε > 0, ∀ y v, lo ≤ y → y ≤ hi → |y - x| < ε → f y = some v → u ≤ v

/-- `mean_charge_capture`, `_diffusion.py` lines 250–257, for any diffusion width: a width of zero
makes the quotient `a` infinite, the exponential and the first term zero, and the error function one. -/
noncomputable def captureOfWidth (widthDiffusion widthPixel : ℝ) : Option ℝ :=
  if widthDiffusion = 0 then some 1 else meanChargeCapture widthDiffusion widthPixel

/-- `JanesickDepletionModel`, `_depletion.py` lines 32–57; `absorption` is
`chemical_substrate.absorption`. -/
structure DepletionModel where
  thickness : ℝ
  thicknessSubstrate : ℝ
  absorption : ℝ → Option ℝ
  widthPixel : ℝ

/-- `JanesickDepletionModel.mean_charge_capture`, `_depletion.py` lines 123–145. -/
noncomputable def DepletionModel.meanChargeCapture (m : DepletionModel) (wavelength : ℝ) : Option ℝ := do
  let a ← m.absorption wavelength
  let w ← chargeDiffusion a m.thicknessSubstrate m.thickness
  captureOfWidth w m.widthPixel

/-- `objective` of `fit_mcc`, `_depletion.py` lines 85–105: the measurements are pairs of wavelength and
mean charge capture. -/
noncomputable def depletionObjective (thicknessSubstrate : ℝ) (absorption : ℝ → Option ℝ)
    (widthPixel : ℝ) (measured : List (ℝ × ℝ)) (thicknessDepletion : ℝ) : Option ℝ := do
  let squares ← measured.mapM fun p => do
    let a ← absorption p.1
    let widthDiffusion ← chargeDiffusion a thicknessSubstrate thicknessDepletion
    let mcc ← captureOfWidth widthDiffusion widthPixel
    let diff := p.2 - mcc
    return diff ^ 2
  let mean ← div? squares.sum squares.length
  sqrt? mean

/-- `JanesickDepletionModel.fit_mcc`, `_depletion.py` lines 59–121. -/
noncomputable def fitDepletion (minimizer : ScalarMinimizer) (thicknessSubstrate : ℝ)
    (absorption : ℝ → Option ℝ) (widthPixel : ℝ) (measured : List (ℝ × ℝ)) : Option DepletionModel := do
  let x ← minimizer.find (depletionObjective thicknessSubstrate absorption widthPixel measured) 0
    thicknessSubstrate
  return ⟨x, thicknessSubstrate, absorption, widthPixel⟩

end Optika
