import Verif.Spec.Vec

/-!
# Spot diagrams

`AbstractSequentialSystem.spot_diagram`, `optika/systems/_sequential.py` lines 1663–1791: the
points drawn in one panel for one wavelength.  The layout of the figure is not modelled.
-/

namespace Optika

/-- `position.mean(axis_pupil)`, line 1720: over all rays, with no mask. -/
noncomputable def spotMean (l : List V3) : V3 :=
  ⟨(l.map V3.x).sum / l.length, (l.map V3.y).sum / l.length, (l.map V3.z).sum / l.length⟩

/-- The points that `scatter` draws, lines 1718–1751.  A ray is its position on the detector and
its flag `unvignetted`; `none` is a position that is not finite, which makes the mean and with it
every point not finite. -/
noncomputable def spotDiagram (rays : List (Option V3 × Bool)) : Option (List V3) :=
  (rays.mapM fun r => (r.1.map fun p => (p, r.2) : Option (V3 × Bool))).map fun l =>
    (l.filter (·.2)).map fun r => r.1 - spotMean (l.map (·.1))

end Optika
