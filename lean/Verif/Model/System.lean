import Verif.Model.Surface
import Verif.Model.Apertures

/-!
# Sequential systems

`optika/_util.py` and `optika/systems/_sequential.py`.  One element of each array; the Newton
iteration that connects the stops is not modelled, its result (the extent of field and pupil) is a
parameter of the model of a system.
-/

namespace Optika

/-- `na.Cartesian2dVectorArray`. -/
@[ext]
structure V2 where
  x : ℝ
  y : ℝ

/-- `direction`, `optika/_util.py` lines 41–72. -/
noncomputable def directionOf (a : V2) : V3 :=
  ⟨-Real.cos a.y * Real.sin a.x, -Real.sin a.y, Real.cos a.y * Real.cos a.x⟩

/-- `angles`, `optika/_util.py` lines 75–97; not finite for the zero vector. -/
noncomputable def anglesOf (d : V3) : Option V2 := do
  let s ← div? d.y d.len
  return ⟨-arctan2 d.x d.z, -Real.arcsin s⟩

/-! ### Stops -/

/-- A surface with its two stop flags, `optika/surfaces.py` lines 101–121. -/
structure StopSurface where
  surface : Surface
  isFieldStop : Bool
  isPupilStop : Bool

/-- `surfaces_all`, lines 92–112; `none` is the `IndexError` of an empty system. -/
def surfacesAll (obj : Option StopSurface) (surfaces : List StopSurface)
    (sensor : Option StopSurface) : Option (List StopSurface) :=
  let result := obj.toList ++ surfaces ++ sensor.toList
  if result.any (·.isFieldStop) then some result
  else match result with
    | [] => none
    | s :: l => some ({ s with isFieldStop := true } :: l)

/-- `[i for i, s in enumerate(self.surfaces_all) if flag(s)]`, lines 294–300. -/
def stopIndices (flag : StopSurface → Bool) (l : List StopSurface) : List ℕ :=
  (List.range l.length).filter fun i => (l[i]?).any flag

/-- `index_field_stop` and `index_pupil_stop`, lines 302–327: the last index, or a
`ValueError`. -/
def indexStop (flag : StopSurface → Bool) (l : List StopSurface) : Option ℕ :=
  (stopIndices flag l).getLast?

/-- The loop of `_calc_rayfunction_stops_only`, lines 427–466: the pairs of stops that are
connected (first and last surface of the subsystem). -/
def stopPairs (isPupil : ℕ → Bool) : List ℕ → List ℕ → List (ℕ × ℕ)
  | [], _ => []
  | _ :: _, [] => []
  | p :: ps, f :: fs =>
    (min p f, max p f) ::
      if isPupil (min p f) then stopPairs isPupil ps (f :: fs) else stopPairs isPupil (p :: ps) fs
termination_by ps fs => ps.length + fs.length

/-! ### Input grids -/

/-- `ObjectVectorArray`. -/
structure Grid where
  wavelength : ℝ
  field : V2
  pupil : V2

/-- Minimum and maximum of the field or the pupil over the rays that strike the borders of the
stops, lines 773–782. -/
structure Extent where
  lo : V2
  hi : V2

/-- `ptp * (x + 1) / 2 + min`, lines 781 and 787. -/
noncomputable def Extent.denormalize (e : Extent) (v : V2) : V2 :=
  ⟨(e.hi.x - e.lo.x) * (v.x + 1) / 2 + e.lo.x, (e.hi.y - e.lo.y) * (v.y + 1) / 2 + e.lo.y⟩

/-- `_denormalize_grid`, lines 748–789.  `extents` are the extents of the field and the pupil for
a given wavelength; `none` if the stops cannot be connected. -/
noncomputable def denormalizeGrid (extents : ℝ → Option (Extent × Extent)) (g : Grid)
    (normalizedField normalizedPupil : Bool) : Option Grid :=
  if !normalizedField && !normalizedPupil then some g
  else (extents g.wavelength).map fun e =>
    { g with
      field := if normalizedField then e.1.denormalize g.field else g.field
      pupil := if normalizedPupil then e.2.denormalize g.pupil else g.pupil }

/-- `SequentialSystem`, lines 2000–2123: `object` is a default surface if it is not given. -/
structure System where
  object : StopSurface
  surfaces : List StopSurface
  sensor : StopSurface
  gridInput : Grid
  objectAtInfinity : Bool
  extents : ℝ → Option (Extent × Extent)
  transformation : Option Rigid

/-- `_calc_rayfunction_input`, lines 791–828. -/
noncomputable def System.calcInput (s : System) (g : Grid)
    (normalizedField normalizedPupil : Bool) : Option Ray :=
  (denormalizeGrid s.extents g normalizedField normalizedPupil).map fun g =>
    let position := if s.objectAtInfinity then g.pupil else g.field
    let direction := if s.objectAtInfinity then directionOf g.field else directionOf g.pupil
    let r : Ray := ⟨g.wavelength, ⟨position.x, position.y, 0⟩, direction, 1, 0, 1, true⟩
    s.object.surface.transformation.elim r fun t => r.move t

/-- The surfaces of the system in order. -/
def System.all (s : System) : Option (List Surface) :=
  (surfacesAll (some s.object) s.surfaces (some s.sensor)).map (List.map (·.surface))

/-- The second part of `raytrace`, lines 907–925, with `accumulate=True`. -/
noncomputable def System.trace (s : System) (r : Ray) : Option (List (Option Ray)) := do
  let all ← s.all
  accumulateRays Surface.step (.many all) (some (s.transformation.elim r fun t => r.unmove t))

/-- Arguments of `raytrace`. -/
structure Call where
  intensity : Option ℝ
  wavelength : Option ℝ
  field : Option V2
  pupil : Option V2
  normalizedField : Bool
  normalizedPupil : Bool

/-- `rays.intensity = intensity`, lines 908–909. -/
def setIntensity (i : Option ℝ) (r : Ray) : Ray := i.elim r fun i => { r with intensity := i }

/-- `raytrace`, lines 836–925.  The state is the cached property `_rayfunction_input`
(lines 830–834).  `copy_shallow` shares the rays with the cache, so that the assignment of the
intensity changes the cached rays. -/
noncomputable def System.raytrace (s : System) (c : Call) (cache : Option Ray) :
    Option (List (Option Ray)) × Option Ray :=
  if c.wavelength.isNone && c.field.isNone && c.pupil.isNone then
    match cache.orElse fun _ => s.calcInput s.gridInput true true with
    | none => (none, none)
    | some r => (s.trace (setIntensity c.intensity r), some (setIntensity c.intensity r))
  else
    let g : Grid := ⟨c.wavelength.getD s.gridInput.wavelength, c.field.getD s.gridInput.field,
      c.pupil.getD s.gridInput.pupil⟩
    (do s.trace (setIntensity c.intensity (← s.calcInput g c.normalizedField c.normalizedPupil)),
      cache)

/-- The cache after a history of calls. -/
noncomputable def System.after (s : System) (history : List Call) : Option Ray :=
  history.foldl (fun cache c => (s.raytrace c cache).2) none

/-- `rayfunction`, lines 927–988: the last of the accumulated rays in the coordinates of the
sensor. -/
noncomputable def System.rayfunction (s : System) (c : Call) (cache : Option Ray) : Option Ray := do
  let rays ← (s.raytrace c cache).1
  let last ← rays.getLast?
  let r ← last
  return s.sensor.surface.transformation.elim r fun t => r.unmove t

/-! ### Averages over the pupil and the field -/

section Averages
variable {F P : Type} [Fintype F] [Fintype P]
open scoped Classical in
/-- `np.mean(x, where=w)`: not finite if nothing is selected. -/
noncomputable def meanWhere (x : P → ℝ) (w : P → Bool) : Option ℝ :=
  div? (∑ p ∈ Finset.univ.filter (fun p => w p = true), x p)
    ((Finset.univ.filter (fun p => w p = true)).card : ℝ)

/-- `unvignetted.any(axis_pupil)`, lines 1261 and 1343. -/
def anyUnvignetted (unv : P → Bool) : Bool := decide (∃ p, unv p = true)

/-- The sensor coordinate of a field point in `distortion`, lines 1260–1270. -/
noncomputable def meanCoordinate (x : P → ℝ) (unv : P → Bool) : Option ℝ :=
  meanWhere x fun p => unv p || !anyUnvignetted unv

/-- Boolean as number. -/
def toReal (b : Bool) : ℝ := if b then 1 else 0

/-- Relative illumination in `vignetting`, lines 1342–1350: for each field point the fraction of
unvignetted rays divided by its mean over the field points with unvignetted rays. -/
noncomputable def illumination (unv : F → P → Bool) (f : F) : Option ℝ := do
  let fraction (f : F) : ℝ := (∑ p, toReal (unv f p)) / (Fintype.card P : ℝ)
  let mean ← meanWhere fraction fun f => anyUnvignetted (unv f)
  div? (fraction f) mean

/-- The call of `rayfunction` made by `area_effective` for one cell of the pupil, lines
1483–1496: the intensity is the magnitude of the (signed) area of the cell, and the grid is in
physical units. -/
def cellCall (g : Grid) (volume : ℝ) : Call :=
  ⟨some |volume|, some g.wavelength, some g.field, some g.pupil, false, false⟩

/-- The effective area at one field point in `area_effective`, lines 1498–1502: the sum of the
intensities of the unvignetted rays. -/
noncomputable def areaField (rays : P → Ray) : ℝ :=
  ∑ p ∈ Finset.univ.filter (fun p => (rays p).unvignetted = true), (rays p).intensity

/-- `area_effective`, lines 1498–1504: the mean over the field. -/
noncomputable def areaEffective (rays : F → P → Ray) : ℝ :=
  (∑ f, areaField (rays f)) / (Fintype.card F : ℝ)

end Averages

/-! ### Linear distortion -/

/-- `SpectralPositionalVectorArray`. -/
@[ext]
structure Spectral where
  wavelength : ℝ
  x : ℝ
  y : ℝ

/-- A matrix given by its three rows (wavelength, x, y). -/
structure SpectralMatrix where
  w : Spectral
  x : Spectral
  y : Spectral

/-- Matrix times vector. -/
def SpectralMatrix.apply (m : SpectralMatrix) (v : Spectral) : Spectral :=
  ⟨m.w.wavelength * v.wavelength + m.w.x * v.x + m.w.y * v.y,
   m.x.wavelength * v.wavelength + m.x.x * v.x + m.x.y * v.y,
   m.y.wavelength * v.wavelength + m.y.x * v.x + m.y.y * v.y⟩

/-- Determinant of the 3×3 matrix. -/
def SpectralMatrix.det (m : SpectralMatrix) : ℝ :=
  m.w.wavelength * (m.x.x * m.y.y - m.x.y * m.y.x) - m.w.x * (m.x.wavelength * m.y.y -
    m.x.y * m.y.wavelength) + m.w.y * (m.x.wavelength * m.y.x - m.x.x * m.y.wavelength)

/-- `matrix.inverse` (named_arrays): the adjugate divided by the determinant. -/
noncomputable def SpectralMatrix.inverse (m : SpectralMatrix) : Option SpectralMatrix :=
  if m.det = 0 then none else
  let d := m.det
  some ⟨⟨(m.x.x * m.y.y - m.x.y * m.y.x) / d, (m.w.y * m.y.x - m.w.x * m.y.y) / d,
      (m.w.x * m.x.y - m.w.y * m.x.x) / d⟩,
    ⟨(m.x.y * m.y.wavelength - m.x.wavelength * m.y.y) / d,
      (m.w.wavelength * m.y.y - m.w.y * m.y.wavelength) / d,
      (m.w.y * m.x.wavelength - m.w.wavelength * m.x.y) / d⟩,
    ⟨(m.x.wavelength * m.y.x - m.x.x * m.y.wavelength) / d,
      (m.w.x * m.y.wavelength - m.w.wavelength * m.y.x) / d,
      (m.w.wavelength * m.x.x - m.w.x * m.x.wavelength) / d⟩⟩

/-- `SimpleDistortionModel`, `optika/distortion/_distortion.py` lines 115–234. -/
structure SimpleDistortion where
  plateScale : ℝ
  dispersion : ℝ
  angle : ℝ
  reference : Spectral

/-- `SimpleDistortionModel.matrix`, lines 192–223. -/
noncomputable def SimpleDistortion.matrix (m : SimpleDistortion) : Option SpectralMatrix := do
  let cx ← div? (Real.cos m.angle) m.plateScale
  let sx ← div? (Real.sin m.angle) m.plateScale
  let d ← div? 1 m.dispersion
  let z ← div? 0 m.dispersion
  return ⟨⟨1, 0, 0⟩, ⟨d, cx, -sx⟩, ⟨z, sx, cx⟩⟩

/-- `SimpleDistortionModel.center`, lines 225–230. -/
def SimpleDistortion.center (m : SimpleDistortion) : Spectral := ⟨m.reference.wavelength, 0, 0⟩

/-- Sum and difference of coordinates. -/
def Spectral.add (a b : Spectral) : Spectral :=
  ⟨a.wavelength + b.wavelength, a.x + b.x, a.y + b.y⟩
@[inherit_doc Spectral.add]
def Spectral.sub (a b : Spectral) : Spectral :=
  ⟨a.wavelength - b.wavelength, a.x - b.x, a.y - b.y⟩

/-- `AbstractLinearDistortionModel.distort`, lines 102–106. -/
noncomputable def SimpleDistortion.distort (m : SimpleDistortion) (c : Spectral) :
    Option Spectral := do
  let a ← m.matrix
  return (a.apply (c.sub m.center)).add m.reference

/-- `AbstractLinearDistortionModel.undistort`, lines 108–112. -/
noncomputable def SimpleDistortion.undistort (m : SimpleDistortion) (c : Spectral) :
    Option Spectral := do
  let a ← m.matrix
  let b ← a.inverse
  return (b.apply (c.sub m.reference)).add m.center

end Optika
