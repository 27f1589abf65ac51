import Mathlib.Data.Finset.Card
import Mathlib.Data.Finset.SDiff

/-!
# The logical axes of a grid

`optika/systems/_sequential.py` lines 165–292 and 1514–1582.  A shape is the set of the names of the
axes; `tuple(set)` has no definite order, so the results are sets.  `none` is an exception.
-/

namespace Optika

/-- The axes of the components of a grid (`inputs.wavelength.shape` etc.). -/
structure GridAxes where
  wavelength : Finset String
  field : Finset String
  pupil : Finset String

/-- The attributes `axis_wavelength`, `axis_field` and `axis_pupil` of a system, and its `shape`. -/
structure SystemAxes where
  shape : Finset String
  axisWavelength : Option String
  axisField : Option (String × String)
  axisPupil : Option (String × String)

/-- The result: the axes of wavelength, field and pupil. -/
structure AxisTriple where
  wavelength : Finset String
  field : Finset String
  pupil : Finset String
  deriving DecidableEq

/-- `_normalize_axis_wavelength`, lines 165–195. -/
def normalizeAxisWavelength (shape : Finset String) (axis : Option String)
    (wavelength : Finset String) : Option (Finset String) :=
  match axis with
  | none =>
    let a := wavelength \ shape
    if 1 < a.card then none else some a
  | some a => some {a}

/-- `_normalize_axis_field`, lines 197–226. -/
def normalizeAxisField (shape : Finset String) (axis : Option (String × String))
    (axisWavelength field : Finset String) : Option (Finset String) :=
  match axis with
  | none =>
    let a := (field \ shape) \ axisWavelength
    if a.card ≠ 2 then none else some a
  | some a => some {a.1, a.2}

/-- `_normalize_axis_pupil`, lines 228–260. -/
def normalizeAxisPupil (shape : Finset String) (axis : Option (String × String))
    (axisField axisWavelength pupil : Finset String) : Option (Finset String) :=
  match axis with
  | none =>
    let a := ((pupil \ shape) \ axisWavelength) \ axisField
    if a.card ≠ 2 then none else some a
  | some a => some {a.1, a.2}

/-- The three of them in turn. -/
def normalizeAxes (s : SystemAxes) (g : GridAxes) : Option AxisTriple := do
  let w ← normalizeAxisWavelength s.shape s.axisWavelength g.wavelength
  let f ← normalizeAxisField s.shape s.axisField w g.field
  let p ← normalizeAxisPupil s.shape s.axisPupil f w g.pupil
  return ⟨w, f, p⟩

/-- `axis_wavelength_`, `axis_field_` and `axis_pupil_`, lines 262–292. -/
def SystemAxes.default (s : SystemAxes) (gridInput : GridAxes) : Option AxisTriple :=
  normalizeAxes s gridInput

/-- Without the attributes of the system: `axis_wavelength=None` etc., lines 1455–1468 and
1566–1581. -/
def SystemAxes.inferred (s : SystemAxes) (g : GridAxes) : Option AxisTriple :=
  normalizeAxes ⟨s.shape, none, none, none⟩ g

/-- The axes of the grid after `_denormalize_grid`, lines 748–789, and of the inputs of
`rayfunction`: normalized fields and pupils are multiplied by extents, which vary with the wavelength
and with the system. -/
def GridAxes.denormalize (g : GridAxes) (shape : Finset String) (normalizedField normalizedPupil : Bool) :
    GridAxes :=
  let extent := g.wavelength ∪ shape
  ⟨g.wavelength, if normalizedField then g.field ∪ extent else g.field,
    if normalizedPupil then g.pupil ∪ extent else g.pupil⟩

/-- `_rayfunction_and_axes`, lines 1514–1582: the axes.  Grids which are not given are those of
`grid_input`. -/
def SystemAxes.rayfunctionAxes (s : SystemAxes) (gridInput : GridAxes)
    (wavelength field pupil : Option (Finset String)) (normalizedField normalizedPupil : Bool) :
    Option AxisTriple :=
  if wavelength.isNone && field.isNone && pupil.isNone then s.default gridInput
  else
    let g : GridAxes := ⟨wavelength.getD gridInput.wavelength, field.getD gridInput.field,
      pupil.getD gridInput.pupil⟩
    s.inferred (g.denormalize s.shape normalizedField normalizedPupil)

end Optika
