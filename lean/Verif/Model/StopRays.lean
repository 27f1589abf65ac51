import Verif.Model.System

/-!
# Rays that connect the stops

`_ray_error`, `_calc_rayfunction_stops_only` and `_calc_rayfunction_stops` of
`optika/systems/_sequential.py`, lines 363–668, for one sample of the border of each of the two stops.
Only the last pair of stops that is connected determines the result (`stopPairs`); the pairs before it
can only raise an exception. The coordinates of the samples are those returned by
`AbstractAperture.wire`.
-/

namespace Optika

/-- `na.optimize.root_newton`: raises an exception (`none`) if it does not converge. Idealised: the
residual at the result is zero. See `TolerantFinder` for residuals up to `max_abs_error`. -/
structure RootFinder where
  find : (V2 → Option V2) → V2 → Option V2
  root : ∀ f guess a, find f guess = some a → f a = some ⟨0, 0⟩

/-- `na.optimize.root_newton` with the argument `max_abs_error` of lines 553–563: the components of the
residual at the result are at most that large. -/
structure TolerantFinder (maxAbsError : ℝ) where
  find : (V2 → Option V2) → V2 → Option V2
  close : ∀ f guess a, find f guess = some a → ∃ e, f a = some e ∧ |e.x| ≤ maxAbsError ∧ |e.y| ≤ maxAbsError

/-- The ray that leaves the first stop, in the coordinates of the system, for a value `a` of the
component that is solved for: lines 467–494 (`zfunc`), 543–544 and 369–374. The other component is
transformed by the transformation of the surface, whereas `a` and `zfunc(a)` are assigned to the
transformed rays. -/
noncomputable def stopRay (wavelength : ℝ) (first : Surface) (unit : ApertureUnit) (grid a : V2) :
    Option Ray :=
  match unit with
  | .length => do
    let z ← first.sag.height ⟨grid.x, grid.y, 0⟩
    let position : V3 := ⟨grid.x, grid.y, z⟩
    let az ← sqrt? (1 - (a.x ^ 2 + a.y ^ 2))
    return ⟨wavelength, first.transformation.elim position fun g => g.point position,
      ⟨a.x, a.y, az⟩, 1, 0, 1, true⟩
  | .dimensionless => do
    let z ← sqrt? (1 - (grid.x ^ 2 + grid.y ^ 2))
    let direction : V3 := ⟨grid.x, grid.y, z⟩
    let az ← first.sag.height ⟨a.x, a.y, 0⟩
    return ⟨wavelength, ⟨a.x, a.y, az⟩,
      first.transformation.elim direction fun g => g.vec direction, 1, 0, 1, true⟩
  | .other => none

/-- Position or direction of a ray, depending on the unit of the aperture, lines 387–392 and
546–551. -/
def stopComponent (unit : ApertureUnit) (r : Ray) : Option V2 :=
  match unit with
  | .length => some ⟨r.position.x, r.position.y⟩
  | .dimensionless => some ⟨r.direction.x, r.direction.y⟩
  | .other => none

/-- `_ray_error`, lines 363–394: `subsystem[1:]` is `rest`, its last surface is `last`. -/
noncomputable def rayError (wavelength : ℝ) (first : Surface) (unitFirst : ApertureUnit)
    (gridFirst : V2) (rest : List Surface) (last : Surface) (unitLast : ApertureUnit) (gridLast : V2)
    (a : V2) : Option V2 := do
  let r ← stopRay wavelength first unitFirst gridFirst a
  let r ← propagateSurfaces rest r
  let r := last.transformation.elim r fun g => r.unmove g
  let c ← stopComponent unitLast r
  return ⟨c.x - gridLast.x, c.y - gridLast.y⟩

/-- `_calc_rayfunction_stops_only`, lines 396–617, for the pair of stops with indices `i` and `j`;
`find` is the function that solves for roots. -/
noncomputable def stopRaysOnlyFound (find : (V2 → Option V2) → V2 → Option V2) (guess : V2) (wavelength : ℝ)
    (all : List Surface) (i j : ℕ) (gridFirst gridLast : V2) : Option Ray := do
  let first ← all[i]?
  let last ← all[j]?
  let apertureFirst ← first.aperture
  let apertureLast ← last.aperture
  let a ← find (rayError wavelength first apertureFirst.unit gridFirst
    ((all.take (j + 1)).drop (i + 1)) last apertureLast.unit gridLast) guess
  stopRay wavelength first apertureFirst.unit gridFirst a

open scoped Classical in
/-- `_calc_rayfunction_stops`, lines 625–678: back to the first surface (`surfaces[i::-1]`), and with
a direction against its normal. -/
noncomputable def stopRaysFound (find : (V2 → Option V2) → V2 → Option V2) (guess : V2) (wavelength : ℝ)
    (all : List Surface) (i j : ℕ) (gridFirst gridLast : V2) (transformation : Option Rigid) : Option Ray := do
  let r ← stopRaysOnlyFound find guess wavelength all i j gridFirst gridLast
  let r ← propagateSurfaces (all.take (i + 1)).reverse r
  let obj ← all.head?
  let rays := obj.transformation.elim r fun g => r.unmove g
  let normal ← obj.sag.normal rays.position
  let r := if 0 < rays.direction.dot normal then { r with direction := -r.direction } else r
  return transformation.elim r fun g => r.move g

/-- `_calc_rayfunction_stops_only` with exact roots. -/
noncomputable abbrev stopRaysOnly (solver : RootFinder) := stopRaysOnlyFound solver.find

/-- `_calc_rayfunction_stops` with exact roots. -/
noncomputable abbrev stopRays (solver : RootFinder) := stopRaysFound solver.find

/-- Field and pupil coordinates of a ray in `_denormalize_grid`, lines 769–775, and in `field_min`
etc., lines 687–746. -/
noncomputable def stopCoordinates (objectAtInfinity : Bool) (r : Ray) : Option Grid := do
  let angles ← anglesOf r.direction
  let position : V2 := ⟨r.position.x, r.position.y⟩
  return if objectAtInfinity then ⟨r.wavelength, angles, position⟩ else ⟨r.wavelength, position, angles⟩

/-- Minimum and maximum over all the rays of the stops, lines 687–746 and 777–787; `coords` are the
coordinates of these rays (at least one). -/
noncomputable def stopExtent (first : V2) (coords : List V2) : Extent :=
  ⟨⟨coords.foldl (fun m c => min m c.x) first.x, coords.foldl (fun m c => min m c.y) first.y⟩,
    ⟨coords.foldl (fun m c => max m c.x) first.x, coords.foldl (fun m c => max m c.y) first.y⟩⟩

end Optika
