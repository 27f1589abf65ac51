import Verif.Model.System
import Mathlib.LinearAlgebra.Matrix.NonsingularInverse
import Mathlib.Data.Matrix.Mul
import Mathlib.Data.Finset.Prod

/-!
# Models that are fitted to rays

`PolynomialDistortionModel`, `optika/distortion/_distortion.py` lines 276–500, and
`PolynomialVignettingModel`, `optika/radiometry/_vignetting.py` lines 99–190.

`na.PolynomialFitFunctionArray.from_degree` of named_arrays: the coefficients of all monomials in
wavelength and position, relative to a centre, up to the degree, from the normal equations of the
points selected by the mask.
-/

namespace Optika
open Matrix

/-- The exponents of the monomials up to degree `d`. -/
def fitExponents (d : ℕ) : Finset (ℕ × ℕ × ℕ) :=
  (Finset.range (d + 1) ×ˢ Finset.range (d + 1) ×ˢ Finset.range (d + 1)).filter
    fun e => e.1 + e.2.1 + e.2.2 ≤ d

/-- A monomial. -/
def fitMonomial (e : ℕ × ℕ × ℕ) (p : Spectral) : ℝ := p.wavelength ^ e.1 * p.x ^ e.2.1 * p.y ^ e.2.2

/-- The design matrix. -/
def fitDesign (d : ℕ) (center : Spectral) (points : List (Spectral × ℝ)) :
    Matrix (Fin points.length) (fitExponents d) ℝ :=
  fun i e => fitMonomial e ((points.get i).1.sub center)

open scoped Classical in
/-- `na.PolynomialFitFunctionArray.from_degree(...)` as function of the coordinates; the inverse of a
singular matrix is not finite. -/
noncomputable def polyFit (d : ℕ) (center : Spectral) (points : List (Spectral × ℝ)) :
    Option (Spectral → ℝ) :=
  let a := fitDesign d center points
  if (aᵀ * a).det = 0 then none else
    let coefficients := (aᵀ * a)⁻¹ *ᵥ (aᵀ *ᵥ fun i => (points.get i).2)
    some fun p => ∑ e : fitExponents d, coefficients e * fitMonomial e (p.sub center)

/-- A calibration point: `coordinates_scene`, `coordinates_sensor` (not finite if no ray arrives) and
`where`. -/
structure CalibrationPoint where
  scene : Spectral
  sensor : Option V2
  where_ : Bool

/-- `scene.mean(axis)`, all points. -/
noncomputable def spectralMean (l : List Spectral) : Spectral :=
  ⟨(l.map (·.wavelength)).sum / l.length, (l.map (·.x)).sum / l.length, (l.map (·.y)).sum / l.length⟩

/-- The list of values, if all of them are finite. -/
def allFinite {α : Type} : List (Option α) → Option (List α)
  | [] => some []
  | none :: _ => none
  | some a :: l => (allFinite l).map (a :: ·)

/-- `PolynomialDistortionModel`, lines 325–345. -/
structure PolynomialDistortion where
  points : List CalibrationPoint
  degree : ℕ

namespace PolynomialDistortion
variable (m : PolynomialDistortion)

/-- The points selected by `where`, with the position on the sensor. -/
def selected : Option (List (Spectral × V2)) :=
  allFinite ((m.points.filter (·.where_)).map fun p => p.sensor.map fun s => (p.scene, s))

/-- `PolynomialDistortionModel.fit`, lines 352–362: one fit for each component. -/
noncomputable def fit : Option ((Spectral → ℝ) × (Spectral → ℝ)) := do
  let l ← m.selected
  let center := spectralMean (m.points.map (·.scene))
  let x ← polyFit m.degree center (l.map fun q => (q.1, q.2.x))
  let y ← polyFit m.degree center (l.map fun q => (q.1, q.2.y))
  return (x, y)

/-- `PolynomialDistortionModel.fit_inverse`, lines 364–378. The mean includes the points that `where`
excludes. -/
noncomputable def fitInverse : Option ((Spectral → ℝ) × (Spectral → ℝ)) := do
  let l ← m.selected
  let inputs ← allFinite (m.points.map fun p => p.sensor.map fun s =>
    (⟨p.scene.wavelength, s.x, s.y⟩ : Spectral))
  let center := spectralMean inputs
  let x ← polyFit m.degree center (l.map fun q => (⟨q.1.wavelength, q.2.x, q.2.y⟩, q.1.x))
  let y ← polyFit m.degree center (l.map fun q => (⟨q.1.wavelength, q.2.x, q.2.y⟩, q.1.y))
  return (x, y)

/-- `PolynomialDistortionModel.distort`, lines 380–387. -/
noncomputable def distort (c : Spectral) : Option Spectral := do
  let f ← m.fit
  return ⟨c.wavelength, f.1 c, f.2 c⟩

/-- `PolynomialDistortionModel.undistort`, lines 389–396. -/
noncomputable def undistort (c : Spectral) : Option Spectral := do
  let f ← m.fitInverse
  return ⟨c.wavelength, f.1 c, f.2 c⟩

end PolynomialDistortion

/-- `PolynomialVignettingModel`, `_vignetting.py` lines 142–185: scene, illumination, mask. -/
structure PolynomialVignetting where
  points : List (Spectral × ℝ × Bool)
  degree : ℕ

/-- `PolynomialVignettingModel.fit` and `__call__`, lines 167–185. -/
noncomputable def PolynomialVignetting.call (m : PolynomialVignetting) (c : Spectral) : Option ℝ :=
  (polyFit m.degree (spectralMean (m.points.map (·.1)))
    ((m.points.filter (·.2.2)).map fun p => (p.1, p.2.1))).map fun f => f c

end Optika
