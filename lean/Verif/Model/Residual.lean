import Verif.Model.Fit

/-!
# Pictures of the errors of fits

`PolynomialDistortionModel.plot_residual`, `optika/distortion/_distortion.py` lines 398–500, and
`PolynomialVignettingModel.plot_residual`, `plot` and `inverse`, `optika/radiometry/_vignetting.py` lines
44–58 and 187–347: the numbers that are drawn and the range of the colours.

Not modelled: figures, axes and labels.
-/

namespace Optika

/-- The range of colours, `_distortion.py` lines 443–446 and `_vignetting.py` lines 290–293: from zero
to the greatest of the values, unless given. -/
noncomputable def colorRange (vmin vmax : Option ℝ) (greatest : Option ℝ) : Option (ℝ × ℝ) := do
  return (vmin.getD 0, ← vmax.orElse fun _ => greatest)

namespace PolynomialDistortion
variable (m : PolynomialDistortion)

/-- The value that is drawn at a point, lines 437–441: nothing (`np.nan`) if the point is not used by
the fit. -/
noncomputable def residual (p : CalibrationPoint) : Option ℝ :=
  if p.where_ then do
    let s ← p.sensor
    let q ← m.distort p.scene
    return √((s.x - q.x) ^ 2 + (s.y - q.y) ^ 2)
  else none

/-- `np.nanmax(residual)`, line 446. -/
noncomputable def greatestResidual : Option ℝ := (m.points.filterMap m.residual).max?

/-- The range of colours of `plot_residual`, lines 443–446. -/
noncomputable def residualRange (vmin vmax : Option ℝ) : Option (ℝ × ℝ) :=
  colorRange vmin vmax m.greatestResidual

end PolynomialDistortion

namespace PolynomialVignetting
variable (m : PolynomialVignetting)

/-- `AbstractVignettingModel.inverse`, lines 44–58. -/
noncomputable def inverse (c : Spectral) : Option ℝ := do div? 1 (← m.call c)

/-- The value that is drawn at a point by `plot_residual`, line 222. -/
noncomputable def residual (p : Spectral × ℝ × Bool) : Option ℝ := do
  return |p.2.1 - (← m.call p.1)|

/-- `values.max()`, line 293, of `plot_residual`: not finite if one of them is not. -/
noncomputable def greatestResidual : Option ℝ :=
  (allFinite (m.points.map m.residual)).bind List.max?

/-- The range of colours of `plot_residual`, lines 290–293. -/
noncomputable def residualRange (vmin vmax : Option ℝ) : Option (ℝ × ℝ) :=
  colorRange vmin vmax m.greatestResidual

end PolynomialVignetting

end Optika
