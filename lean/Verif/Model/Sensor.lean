import Verif.Model.Surface
import Verif.Model.Apertures
import Mathlib.Data.Complex.Basic
import Mathlib.Algebra.BigOperators.Group.List.Basic

/-!
# Imaging sensors

`optika/sensors/_sensors.py`.  Rays are a list (the logical axes along which the photons are
collected are flattened); the other axes are elementwise.
-/

namespace Optika

/-- The index of the bin into which `numpy.histogramdd` (called by `na.histogram`) puts a sample:
`searchsorted(edges, x, side="right")`, samples on the rightmost edge are moved one to the left,
outliers are dropped.  The edges have to be sorted. -/
noncomputable def binIndex (edges : List ℝ) (x : ℝ) : Option ℕ :=
  let c := edges.countP fun e => decide (e ≤ x)
  let c := if edges.getLast? = some x then c - 1 else c
  if 1 ≤ c ∧ c < edges.length then some (c - 1) else none

/-- `na.linspace(start, stop, num=n + 1)`. -/
noncomputable def linspaceEdges (start stop : ℝ) (n : ℕ) : List ℝ :=
  (List.range (n + 1)).map fun k : ℕ => start + k * ((stop - start) / n)

/-- Parameters of an imaging sensor: width of a pixel and number of pixels along either axis. -/
structure SensorGrid where
  widthX : ℝ
  widthY : ℝ
  numX : ℕ
  numY : ℕ

/-- `AbstractImagingSensor.aperture`, `_sensors.py` lines 83–90. -/
noncomputable def SensorGrid.halfX (s : SensorGrid) : ℝ := s.widthX * s.numX / 2
/-- `AbstractImagingSensor.aperture`, `_sensors.py` lines 83–90. -/
noncomputable def SensorGrid.halfY (s : SensorGrid) : ℝ := s.widthY * s.numY / 2

/-- The mask of the aperture of the sensor (neither inverted nor moved). -/
noncomputable def SensorGrid.mask (s : SensorGrid) (p : V3) : Bool :=
  rectangleMask s.halfX s.halfY true false none p

/-- The edges of the pixels, `_sensors.py` lines 139–146 (`bound_lower`, `bound_upper` of the
rectangular aperture). -/
noncomputable def SensorGrid.edgesX (s : SensorGrid) : List ℝ :=
  linspaceEdges (-s.halfX) s.halfX s.numX
/-- The edges of the pixels, `_sensors.py` lines 139–146. -/
noncomputable def SensorGrid.edgesY (s : SensorGrid) : List ℝ :=
  linspaceEdges (-s.halfY) s.halfY s.numY

/-- The bin of a ray: wavelength, column, row. -/
noncomputable def SensorGrid.bin (s : SensorGrid) (wavelength : List ℝ) (r : Ray) :
    Option (ℕ × ℕ × ℕ) := do
  return (← binIndex wavelength r.wavelength, ← binIndex s.edgesX r.position.x,
    ← binIndex s.edgesY r.position.y)

/-- `na.histogram(a, bins, weights)`, `_sensors.py` lines 152–158. -/
noncomputable def SensorGrid.histogram (s : SensorGrid) (wavelength : List ℝ)
    (weight : Ray → ℝ) (rays : List Ray) (k : ℕ × ℕ × ℕ) : ℝ :=
  (rays.map fun r => if s.bin wavelength r = some k then weight r else 0).sum

/-- `flux = rays.intensity * where`, `_sensors.py` lines 124, 137. -/
def rayFlux (where_ : Ray → Bool) (r : Ray) : ℝ :=
  r.intensity * if where_ r && r.unvignetted then 1 else 0

/-- The image returned by `AbstractImagingSensor.collect`, `_sensors.py` line 152. -/
noncomputable def SensorGrid.collect (s : SensorGrid) (wavelength : List ℝ) (where_ : Ray → Bool)
    (rays : List Ray) (k : ℕ × ℕ × ℕ) : ℝ :=
  s.histogram wavelength (rayFlux where_) rays k

/-- The mean cosine returned by `AbstractImagingSensor.collect`, `_sensors.py` lines 153–169;
`direction` is the `direction_refracted` of the material. -/
noncomputable def SensorGrid.collectDirection (s : SensorGrid) (wavelength : List ℝ)
    (where_ : Ray → Bool) (direction : Ray → ℂ) (rays : List Ray) (k : ℕ × ℕ × ℕ) : ℂ :=
  let image := s.collect wavelength where_ rays k
  let momentReal := s.histogram wavelength (fun r => rayFlux where_ r * (direction r).re) rays k
  let momentImag := s.histogram wavelength (fun r => rayFlux where_ r * (direction r).im) rays k
  let nonempty := 0 < image
  let directionReal := if nonempty then momentReal / image else 1
  let directionImag := if nonempty then momentImag / image else 0
  directionReal + directionImag * Complex.I

end Optika
