import Verif.Model.Lost
import Verif.Model.Fit

/-!
# The models that a system fits to its rays

`AbstractSequentialSystem.distortion` and `vignetting`, `optika/systems/_sequential.py` lines
1246–1285 and 1331–1368, from the rays on the sensor to the models.

Simplified: the grid is a product of wavelengths and field points, so that the exception for
wavelengths without an axis of their own (lines 1254–1259 and 1339–1344) does not occur.
-/

namespace Optika

/-- The rays of a grid on the sensor, and the wavelengths and field points they come from (`rays.outputs`
and `rays.inputs`, lines 1261–1264). -/
structure TracedGrid (W F P : Type) where
  scene : W → F → Spectral
  rays : W → F → P → PartialRay

namespace TracedGrid
variable {W F P : Type} [Fintype W] [Fintype F] [Fintype P] (t : TracedGrid W F P)

/-- `where`, lines 1267 and 1352. -/
noncomputable def seen (w : W) (f : F) : Bool :=
  anyUnvignetted fun p => (t.rays w f p).unvignetted

/-- One point of the model in `distortion`, lines 1266–1285. -/
noncomputable def calibrationPoint (w : W) (f : F) : CalibrationPoint where
  scene := t.scene w f
  sensor := do return ⟨← coordinateLossy V3.x (t.rays w f), ← coordinateLossy V3.y (t.rays w f)⟩
  where_ := t.seen w f

/-- `AbstractSequentialSystem.distortion`, lines 1246–1285. -/
noncomputable def distortion (degree : ℕ) : PolynomialDistortion where
  points := (Finset.univ : Finset (W × F)).toList.map fun g => t.calibrationPoint g.1 g.2
  degree := degree

/-- One point of the model in `vignetting`, lines 1351–1368.  At wavelengths at which no ray arrives
the illumination is not finite; all points at this wavelength are excluded. -/
noncomputable def vignettingPoint (w : W) (f : F) : Spectral × ℝ × Bool :=
  (t.scene w f, (illumination (fun f p => (t.rays w f p).unvignetted) f).getD 0, t.seen w f)

/-- `AbstractSequentialSystem.vignetting`, lines 1331–1368. -/
noncomputable def vignetting (degree : ℕ) : PolynomialVignetting where
  points := (Finset.univ : Finset (W × F)).toList.map fun g => t.vignettingPoint g.1 g.2
  degree := degree

end TracedGrid

end Optika
