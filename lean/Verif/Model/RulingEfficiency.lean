import Verif.Model.Rulings
import Verif.Model.Surface
import Mathlib.MeasureTheory.Integral.IntervalIntegral.Basic
import Mathlib.Analysis.SpecialFunctions.Trigonometric.Basic

/-!
# Efficiency of rulings

`optika/rulings/_rulings.py`.  Diffraction orders are integers.
-/

namespace Optika

/-- The cosine of the angle of incidence as computed at the start of each `efficiency`
(`_rulings.py` lines 440–447, 590–597, 742–749, 892–899, 1049–1056).  `direction @
parallel_rulings` is a number that is subtracted from all components of the vector. -/
noncomputable def rulingCosine (kappa : Option V3) (direction normal : V3) : Option ℝ := do
  let normalRulings ← normalized? (← kappa)
  let parallelRulings ← normalized? (normal.cross normalRulings)
  let s := direction.dot parallelRulings
  let direction : V3 := ⟨direction.x - s, direction.y - s, direction.z - s⟩
  return -direction.dot normal

/-- Bessel functions of the first kind of integer order, `scipy.special.jv`. -/
noncomputable def besselJ (i : ℤ) (x : ℝ) : ℝ :=
  1 / Real.pi * ∫ t in (0 : ℝ)..Real.pi, Real.cos (i * t - x * Real.sin t)

/-- `SinusoidalRulings.efficiency`, `_rulings.py` lines 449–457. -/
noncomputable def sinusoidalEfficiency (depth : ℝ) (i : ℤ) (wavelength cosTheta : ℝ) :
    Option ℝ := do
  let d := depth
  let gamma ← div? (Real.pi * d) (wavelength * cosTheta)
  return besselJ i (2 * gamma)

/-- `SquareRulings.efficiency`, `_rulings.py` lines 596–614. -/
noncomputable def squareEfficiency (depth : ℝ) (i : ℤ) (wavelength cosTheta : ℝ) : Option ℝ := do
  let amplitude := Real.pi / 4
  let d := depth / amplitude
  let gamma ← div? (Real.pi * d) (wavelength * cosTheta)
  let result := if i % 2 = 0 then 0 else (2 * Real.sin (Real.pi * gamma / 2) / (i * Real.pi)) ^ 2
  return if i = 0 then Real.cos (Real.pi * gamma / 2) ^ 2 else result

/-- `SawtoothRulings.efficiency`, `_rulings.py` lines 748–758. -/
noncomputable def sawtoothEfficiency (depth : ℝ) (i : ℤ) (wavelength cosTheta : ℝ) :
    Option ℝ := do
  let amplitude := Real.pi / 2
  let d := depth / amplitude
  let gamma ← div? (Real.pi * d) (wavelength * cosTheta)
  let q ← div? (Real.sin (Real.pi * gamma)) (Real.pi * (gamma + i))
  return q ^ 2

/-- `TriangularRulings.efficiency`, `_rulings.py` lines 898–911. -/
noncomputable def triangularEfficiency (depth : ℝ) (i : ℤ) (wavelength cosTheta : ℝ) :
    Option ℝ := do
  let amplitude := Real.pi ^ 2 / 8
  let d := depth / amplitude
  let gamma ← div? (Real.pi * d) (wavelength * cosTheta)
  let a ← div? gamma ((Real.pi * gamma / 2) ^ 2 + (i : ℝ) ^ 2)
  return if i % 2 = 0 then (a * Real.sin (Real.pi ^ 2 * gamma / 4)) ^ 2
    else (a * Real.cos (Real.pi ^ 2 * gamma / 4)) ^ 2

/-- `RectangularRulings.efficiency`, `_rulings.py` lines 1055–1073.  For a duty ratio of zero or
one the amplitude is infinite and `b` is `0 / 0`. -/
noncomputable def rectangularEfficiency (depth ratioDuty : ℝ) (i : ℤ) (wavelength cosTheta : ℝ) :
    Option ℝ := do
  let a := 2 * Real.pi * ratioDuty
  let amplitude ← div? Real.pi (2 * Real.sqrt (2 * (1 - Real.cos a)))
  let d := depth / amplitude
  let gamma ← div? (Real.pi * d) (wavelength * cosTheta)
  let b ← div? (Real.pi * gamma) (Real.sqrt (2 * (1 - Real.cos a)))
  let b := Real.sin b ^ 2
  return if i = 0 then 1 - (2 * a / Real.pi - (a / Real.pi) ^ 2) * b
    else 2 / (i * Real.pi) ^ 2 * (1 - Real.cos (i * a)) * b

/-- `efficiency` of rulings with ruling vector `kappa` at the position of the ray, for one of the
profiles above with depth (and duty ratio) given. -/
noncomputable def rulingEfficiency (profile : ℤ → ℝ → ℝ → Option ℝ) (i : ℤ) (kappa : Option V3)
    (r : Ray) (normal : V3) : Option ℝ := do
  profile i r.wavelength (← rulingCosine kappa r.direction normal)

end Optika
