import Verif.Model.SensorMaterial
import Verif.Model.Fit

/-!
# Fit of the quantum efficiency of a sensor

`BackIlluminatedSiliconSensorMaterial.fit_eqe`,
`optika/sensors/materials/_materials.py` lines 2284–2377.  Lengths are in ångström.
-/

namespace Optika
open Complex

/-- The parameters that are fitted, as the numbers that the minimizer sees: thickness of oxide and
implant in ångström, roughness of the substrate in nanometres, collection efficiency of the back
surface. -/
structure EqeParams where
  thicknessOxide : ℝ
  thicknessImplant : ℝ
  roughnessSubstrate : ℝ
  cceBacksurface : ℝ

/-- `bounds`, lines 2347–2352. -/
def EqeParams.InBounds (x : EqeParams) : Prop :=
  0 ≤ x.thicknessOxide ∧ 0 ≤ x.thicknessImplant ∧ 0 ≤ x.roughnessSubstrate
    ∧ 0 ≤ x.cceBacksurface ∧ x.cceBacksurface ≤ 1

/-- `scipy.optimize.minimize` with bounds and `method="nelder-mead"`: the result is within the bounds
and, of the points visited, the best, so not worse than the start. -/
structure BoxMinimizer where
  find : (EqeParams → Option ℝ) → EqeParams → EqeParams
  bounds : ∀ f (x : EqeParams), x.InBounds → (find f x).InBounds
  descent : ∀ (f : EqeParams → Option ℝ) (x : EqeParams) (v : ℝ), x.InBounds → f x = some v → ∃ u, f (find f x) = some u ∧ u ≤ v

/-- One nanometre in ångström. -/
def nanometre : ℝ := 10

/-- `x0`, lines 2334–2346: 50 Å, 2317 Å, 5 nm, 0.21. -/
noncomputable def eqeGuess : EqeParams := ⟨50, 2317, 5, 21 / 100⟩

/-- `qe_fit`, lines 2319–2328, at one wavelength: normal incidence from vacuum, with the default
`chemical_oxide="SiO2"`, whose index is `nOxideDefault`, and `chemical_substrate="Si"`. -/
noncomputable def eqeFitted (nOxideDefault nSilicon : ℝ → ℂ) (thicknessSubstrate : ℝ)
    (x : EqeParams) (wavelength : ℝ) : Option ℝ :=
  quantumEfficiencyEffective wavelength 1 1 nOxideDefault nSilicon x.thicknessOxide
    x.thicknessImplant thicknessSubstrate x.cceBacksurface (0 * nanometre)
    (x.roughnessSubstrate * nanometre)

/-- `eqe_rms_difference`, lines 2312–2330; the mean of no measurements is not a number. -/
noncomputable def eqeResidual (nOxideDefault nSilicon : ℝ → ℂ) (thicknessSubstrate : ℝ)
    (measured : List (ℝ × ℝ)) (x : EqeParams) : Option ℝ := do
  let squares ← allFinite (measured.map fun p =>
    (eqeFitted nOxideDefault nSilicon thicknessSubstrate x p.1).map fun q => (p.2 - q) ^ 2)
  let mean ← div? squares.sum squares.length
  sqrt? mean

/-- `fit_eqe`, lines 2284–2377.  The oxide of the material that is returned is
`_chemical_oxide = Chemical("SiO2_llnl_cxro_rodriguez")` (lines 1665–1667), index `nOxide`. -/
noncomputable def fitEqe (minimizer : BoxMinimizer) (nOxideDefault nOxide nSilicon : ℝ → ℂ)
    (iqy fano : ℝ → ℝ → ℝ) (thicknessSubstrate : ℝ) (measured : List (ℝ × ℝ)) (temperature : ℝ) :
    SiliconMaterial :=
  let x := minimizer.find (eqeResidual nOxideDefault nSilicon thicknessSubstrate measured) eqeGuess
  { nSilicon := nSilicon
    nOxide := nOxide
    iqy := iqy
    fano := fano
    thicknessOxide := x.thicknessOxide
    thicknessImplant := x.thicknessImplant
    thicknessSubstrate := thicknessSubstrate
    roughnessOxide := 0 * nanometre
    roughnessSubstrate := x.roughnessSubstrate * nanometre
    cceBacksurface := x.cceBacksurface
    temperature := temperature }

end Optika
