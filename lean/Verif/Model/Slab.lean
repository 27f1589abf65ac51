import Verif.Model.Layers

/-!
# The transfer matrix of a slab

`transfer` of `optika/materials/matrices.py`, which no other code of the repository calls.
-/

namespace Optika

/-- `transfer`, `optika/materials/matrices.py` lines 249–356: the transfer matrix of a slab in
vacuum.  The direction inside is found with the real part of the index. -/
noncomputable def slabTransfer (wavelength : ℝ) (direction : V3) (polarizedS : Bool)
    (thickness : ℝ) (n : ℂ) (normal : V3) : Option M2 :=
  (snellsLaw direction 1 n.re false normal).bind fun directionInternal =>
    let d : ℂ := ((-(direction.dot normal) : ℝ) : ℂ)
    let dInternal : ℂ := ((-(directionInternal.dot normal) : ℝ) : ℂ)
    mul? (mul? (refraction wavelength d dInternal polarizedS 1 n none)
      (some (propagation wavelength dInternal thickness n)))
      (refraction wavelength dInternal d polarizedS n 1 none)

end Optika
