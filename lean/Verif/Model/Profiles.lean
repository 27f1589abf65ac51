import Verif.Model.Layers
import Mathlib.MeasureTheory.Integral.IntervalIntegral.Basic
import Mathlib.Analysis.SpecialFunctions.Gaussian.GaussianIntegral

/-!
# Interface profiles

`optika/materials/profiles.py`.  The profiles themselves are modelled for a width that is not zero
(the code divides by it); the Fourier transforms for every width, with `none` for `0/0`.
-/

namespace Optika

/-- The error function, `scipy.special.erf`. -/
noncomputable def erf (x : ℝ) : ℝ :=
  2 / Real.sqrt Real.pi * ∫ t in (0 : ℝ)..x, Real.exp (-t ^ 2)

/-- `ErfInterfaceProfile.__call__`, `profiles.py` lines 212–219. -/
noncomputable def erfProfile (width z : ℝ) : ℝ := (1 + erf (z / (Real.sqrt 2 * width))) / 2

/-- `ErfInterfaceProfile._derivative_fourier_transform`, `profiles.py` lines 221–222. -/
noncomputable def erfFourier (width s : ℝ) : Option ℝ := some (Real.exp (-(s * width) ^ 2 / 2))

/-- `ExponentialInterfaceProfile.__call__`, `profiles.py` lines 311–317. -/
noncomputable def exponentialProfile (width z : ℝ) : ℝ :=
  let sgnZ := sgn z
  (1 + sgnZ - sgnZ * Real.exp (-sgnZ * Real.sqrt 2 * z / width)) / 2

/-- `ExponentialInterfaceProfile._derivative_fourier_transform`, `profiles.py` lines 319–323. -/
noncomputable def exponentialFourier (width s : ℝ) : Option ℝ := some (1 / (1 + (s * width) ^ 2 / 2))

/-- `LinearInterfaceProfile.__call__`, `profiles.py` lines 415–422. -/
noncomputable def linearProfile (width z : ℝ) : ℝ :=
  let result := 1 / 2 + z / (2 * Real.sqrt 3 * width)
  min 1 (max result 0)

/-- `LinearInterfaceProfile._derivative_fourier_transform`, `profiles.py` lines 424–430.  `unit` is
the size of the unit of the width in the unit of the wavelength (1 if they are the same, 10 for nm
and Å): `x.value` strips the unit of `x` without converting it to a plain number. -/
noncomputable def linearFourier (unit width s : ℝ) : Option ℝ :=
  let x := Real.sqrt 3 * width * s
  div? (Real.sin (x / unit)) x

/-- `SinusoidalInterfaceProfile.__call__`, `profiles.py` lines 523–530. -/
noncomputable def sinusoidalProfile (width z : ℝ) : ℝ :=
  let a := Real.pi / (Real.pi ^ 2 - 8)
  let z := min (a * width) (max z (-a * width))
  1 / 2 + Real.sin (Real.pi * z / (2 * a * width)) / 2

/-- `SinusoidalInterfaceProfile._derivative_fourier_transform`, `profiles.py` lines 532–541. -/
noncomputable def sinusoidalFourier (width s : ℝ) : Option ℝ := do
  let a := Real.pi / (Real.pi ^ 2 - 8)
  let x := a * width * s
  let x1 := x - Real.pi / 2
  let x2 := x + Real.pi / 2
  return Real.pi * ((← div? (Real.sin x1) x1) + (← div? (Real.sin x2) x2)) / 4

/-- `AbstractInterfaceProfile.reflectivity`, `profiles.py` lines 103–126. -/
noncomputable def profileReflectivity (fourier : ℝ → Option ℝ) : Interface :=
  fun wavelength direction n =>
    let k := -2 * Real.pi * n * direction / wavelength
    let s := (-2 * k).re
    (fourier s).map fun x : ℝ => (x : ℂ)

/-- `AbstractInterfaceProfile.transmissivity`, `profiles.py` lines 66–101. -/
noncomputable def profileTransmissivity (fourier : ℝ → Option ℝ) (wavelength : ℝ)
    (directionBefore directionAfter nBefore nAfter : ℂ) : Option ℝ :=
  let kBefore := -2 * Real.pi * nBefore * directionBefore / wavelength
  let kAfter := -2 * Real.pi * nAfter * directionAfter / wavelength
  let s := (kAfter - kBefore).re
  fourier s

end Optika
