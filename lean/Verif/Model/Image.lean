import Verif.Model.System
import Verif.Model.Sensor
import Verif.Model.SensorMaterial
import Mathlib.Data.List.MinMax
import Mathlib.Data.List.Defs

/-!
# The image of a scene

`optika/systems/_sequential.py` lines 1002–1205, `optika/vectors/_vectors_object.py` lines 42–133 and
`AbstractImagingSensor.measure`, `optika/sensors/_sensors.py` lines 374–430, without noise.

The vertices of the field and of the pupil have two axes of their own each. Field and pupil have
units of length or are angles as the position of the object requires. From named_arrays:
`volume_cell` is the (signed) difference along one axis or the (signed) area of a quadrilateral,
`solid_angle_cell` the sum of the solid angles of two triangles, `cell_centers` the mean of the
vertices of a cell or, with `random=True`, a point at random between them.
-/

namespace Optika

/-! ### Cells -/

/-- Mean of two neighbours, `cell_centers` along one axis. -/
noncomputable def centerOf (f : ℕ → ℝ) (i : ℕ) : ℝ := (f i + f (i + 1)) / 2

/-- The signed area of a quadrilateral. -/
noncomputable def quadArea (a b c d : V2) : ℝ :=
  ((c.x - a.x) * (d.y - b.y) - (d.x - b.x) * (c.y - a.y)) / 2

/-- The solid angle of a triangle of unit vectors. -/
noncomputable def solidAngle (a b c : V3) : ℝ :=
  2 * arctan2 (a.dot (b.cross c)) (1 + a.dot b + b.dot c + c.dot a)

/-- The area or the solid angle of one cell of the field or the pupil, `_vectors_object.py` lines
106–114. -/
noncomputable def cellSize (angular : Bool) (a b c d : V2) : ℝ :=
  if angular then
    solidAngle (directionOf a) (directionOf b) (directionOf c)
      + solidAngle (directionOf a) (directionOf c) (directionOf d)
  else quadArea a b c d

/-- The size of cell `(j, k)` of a grid. -/
noncomputable def gridCell (angular : Bool) (v : ℕ → ℕ → V2) (j k : ℕ) : ℝ :=
  cellSize angular (v j k) (v (j + 1) k) (v (j + 1) (k + 1)) (v j (k + 1))

/-- Vertices in physical units: indices of wavelength, field and pupil. -/
structure VertexGrid where
  wavelength : ℕ → ℝ
  field : ℕ → ℕ → ℕ → V2
  pupil : ℕ → ℕ → ℕ → ℕ → ℕ → V2

/-- Index of a cell: wavelength, field, pupil. -/
structure Cell where
  i : ℕ
  j : ℕ
  k : ℕ
  l : ℕ
  m : ℕ

/-- `ObjectVectorArray.cell_area`, `_vectors_object.py` lines 42–133. -/
noncomputable def VertexGrid.cellArea (v : VertexGrid) (angularField angularPupil : Bool) (c : Cell) : ℝ :=
  let areaWavelength := v.wavelength (c.i + 1) - v.wavelength c.i
  let areaField := centerOf (fun i => |gridCell angularField (v.field i) c.j c.k|) c.i
  let areaPupil := centerOf (fun i => centerOf (fun j => centerOf (fun k =>
    |gridCell angularPupil (v.pupil i j k) c.l c.m|) c.k) c.j) c.i
  areaWavelength * areaField * areaPupil

/-- Linear interpolation between neighbours. -/
noncomputable def cellLerp (t : ℝ) (f : ℕ → ℝ) (i : ℕ) : ℝ := (1 - t) * f i + t * f (i + 1)

/-- Linear interpolation between neighbours. -/
noncomputable def cellLerpV (t : ℝ) (f : ℕ → V2) (i : ℕ) : V2 :=
  ⟨cellLerp t (fun i => (f i).x) i, cellLerp t (fun i => (f i).y) i⟩

/-- Five random numbers for each cell. -/
structure CellDraw where
  ti : ℝ
  tj : ℝ
  tk : ℝ
  tl : ℝ
  tm : ℝ

/-- `cell_centers(..., random=True)`, `_sequential.py` lines 1064–1068. -/
noncomputable def VertexGrid.sample (v : VertexGrid) (t : CellDraw) (c : Cell) : Grid where
  wavelength := cellLerp t.ti v.wavelength c.i
  field := cellLerpV t.ti (fun i => cellLerpV t.tj (fun j => cellLerpV t.tk (fun k => v.field i j k) c.k) c.j) c.i
  pupil := cellLerpV t.ti (fun i => cellLerpV t.tj (fun j => cellLerpV t.tk (fun k =>
    cellLerpV t.tl (fun l => cellLerpV t.tm (fun m => v.pupil i j k l m) c.m) c.l) c.k) c.j) c.i

/-! ### Scenes -/

/-- The arguments `scene` and `pupil` of `image`: vertices, the number of cells along each axis, and
the radiance of each cell of the scene. -/
structure Scene where
  numWavelength : ℕ
  numFieldX : ℕ
  numFieldY : ℕ
  numPupilX : ℕ
  numPupilY : ℕ
  wavelength : ℕ → ℝ
  field : ℕ → ℕ → V2
  pupil : ℕ → ℕ → V2
  normalizedField : Bool
  normalizedPupil : Bool
  radiance : ℕ → ℕ → ℕ → ℝ

/-- `pupil=None`, `_sequential.py` lines 1143–1150: one cell from −1 to 1. -/
noncomputable def defaultPupil (l m : ℕ) : V2 := ⟨2 * l - 1, 2 * m - 1⟩

/-- The cells of a scene. -/
def Scene.cells (sc : Scene) : List Cell :=
  (List.range sc.numWavelength).flatMap fun i => (List.range sc.numFieldX).flatMap fun j =>
    (List.range sc.numFieldY).flatMap fun k => (List.range sc.numPupilX).flatMap fun l =>
      (List.range sc.numPupilY).map fun m => ⟨i, j, k, l, m⟩

/-- `scene.inputs.wavelength` as a list. -/
def Scene.edges (sc : Scene) : List ℝ := (List.range (sc.numWavelength + 1)).map sc.wavelength

open scoped Classical in
/-- `_denormalize_grid` of all vertices, `_sequential.py` lines 1058–1062 and 748–789. -/
noncomputable def Scene.denormalize (sc : Scene) (extents : ℝ → Option (Extent × Extent)) :
    Option VertexGrid :=
  let vertex (i : ℕ) (f p : V2) : Option Grid :=
    denormalizeGrid extents ⟨sc.wavelength i, f, p⟩ sc.normalizedField sc.normalizedPupil
  if ∀ i : ℕ, i ≤ sc.numWavelength → (vertex i ⟨0, 0⟩ ⟨0, 0⟩).isSome then
    some {
      wavelength := sc.wavelength
      field := fun i j k => (vertex i (sc.field j k) ⟨0, 0⟩).elim ⟨0, 0⟩ (·.field)
      pupil := fun i _ _ l m => (vertex i ⟨0, 0⟩ (sc.pupil l m)).elim ⟨0, 0⟩ (·.pupil) }
  else none

/-! ### The system with its sensor -/

/-- The parts of `AbstractSensorMaterial` used without noise. The first argument of `signal` says
whether the image has units of photons. -/
structure SensorMaterial where
  signal : Bool → ℝ → ℝ → ℂ → Option ℝ
  directionRefracted : Ray → V3 → ℂ

/-- `IdealSensorMaterial`. -/
noncomputable def idealSensorMaterial (hc : ℝ) : SensorMaterial where
  signal inPhotons photons wavelength _ := idealSignal hc inPhotons photons wavelength
  directionRefracted r normal := idealDirectionRefracted r.direction normal

/-- `BackIlluminatedSiliconSensorMaterial`. -/
noncomputable def siliconSensorMaterial (hc : ℝ) (m : SiliconMaterial) : SensorMaterial where
  signal inPhotons photons wavelength direction := m.signal hc inPhotons photons wavelength direction
  directionRefracted r normal :=
    m.directionRefracted r.wavelength r.direction (rayIndex r) normal

/-- A system with an imaging sensor. -/
structure Camera where
  system : System
  pixels : SensorGrid
  material : SensorMaterial
  timedelta : ℝ
  /-- whether the flux has units of photons -/
  inPhotons : Bool

/-- `AbstractImagingSensor.measure` without noise, `_sensors.py` lines 374–430, in one bin and one
pixel: `collect`, then `expose` (lines 230–252). -/
noncomputable def Camera.measure (s : Camera) (wavelength : List ℝ) (rays : List Ray)
    (k : ℕ × ℕ × ℕ) : Option ℝ := do
  let image := s.pixels.collect wavelength (fun _ => true) rays k
  let direction := s.pixels.collectDirection wavelength (fun _ => true)
    (fun r => (s.system.sensor.surface.sag.normal r.position).elim 1
      (s.material.directionRefracted r)) rays k
  let lo ← wavelength[k.1]?
  let hi ← wavelength[k.1 + 1]?
  s.material.signal s.inPhotons (image * s.timedelta) (cellCenter (lo, hi)) direction

/-- The call of `rayfunction` for a ray with the given intensity, `_sequential.py` lines 1078–1085. -/
def sceneCall (g : Grid) (intensity : ℝ) : Call :=
  ⟨some intensity, some g.wavelength, some g.field, some g.pupil, false, false⟩

/-- `_rayfunction_from_vertices`, `_sequential.py` lines 1002–1085, for the cell `c`: the ray is
random, its intensity is the radiance times the size of the cell. Rays that are not finite are
outside of all bins. -/
noncomputable def Camera.cellRay (s : Camera) (sc : Scene) (v : VertexGrid) (draw : Cell → CellDraw)
    (c : Cell) : Option Ray :=
  let area := v.cellArea s.system.objectAtInfinity (!s.system.objectAtInfinity) c
  let flux := sc.radiance c.i c.j c.k * area
  s.system.rayfunction (sceneCall (v.sample (draw c) c) flux) none

/-- The bins of wavelength, `_sequential.py` lines 1189–1196. -/
noncomputable def Scene.bins (sc : Scene) (integrate : Bool) : List ℝ :=
  if integrate then [sc.edges.min?.getD 0, sc.edges.max?.getD 0] else sc.edges

/-- `image` with `noise=False`, `_sequential.py` lines 1087–1205. -/
noncomputable def Camera.image (s : Camera) (sc : Scene) (draw : Cell → CellDraw) (integrate : Bool)
    (k : ℕ × ℕ × ℕ) : Option ℝ := do
  let v ← sc.denormalize s.system.extents
  s.measure (sc.bins integrate) (sc.cells.filterMap (s.cellRay sc v draw)) k

end Optika
