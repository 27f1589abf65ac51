import Verif.Model.StopRays

/-!
# Where the search for the rays that connect the stops starts

`object_is_at_infinity`, `_anchor_surface` and the seed of `_calc_rayfunction_stops_only`,
`optika/systems/_sequential.py` lines 45–63, 344–361 and 496–546, for one sample of the border of each of the
two stops.
-/

namespace Optika

/-- `object_is_at_infinity`, lines 45–63: an exception (`none`) if the unit of the aperture of the object is
neither a length nor dimensionless. -/
def objectIsAtInfinity (object : Surface) : Option Bool :=
  match object.aperture with
  | none => some true
  | some a => match a.unit with
    | .length => some false
    | .dimensionless => some true
    | .other => none

/-- The test of `_anchor_surface`, lines 353–360: a mirror, a sag that is not `NoSag`, or rulings. Sags are
compared by what they compute, not by their class. -/
def Surface.Powered (s : Surface) : Prop :=
  s.material.isMirror = true ∨ s.sag ≠ flatSag ∨ s.rulings.isSome = true

open scoped Classical in
/-- `_anchor_surface`, lines 344–361: the surface and whether it is the last of the subsystem. Surfaces are
compared by their place in the subsystem, not by their identity. -/
noncomputable def anchorSurface (subsystem : List Surface) : Option (Surface × Bool) :=
  match (subsystem.drop 1).findIdx? (fun s => decide s.Powered) with
  | some k => subsystem[k + 1]?.map fun s => (s, decide (k + 2 = subsystem.length))
  | none => subsystem.getLast?.map fun s => (s, true)

/-- `aim`, lines 503–518, in the coordinates of the first surface. -/
noncomputable def seedAim (first last anchor : Surface) (isLast : Bool) (unitLast : ApertureUnit) (gridLast : V2) :
    Option V3 := do
  let aim ← match isLast, unitLast with
    | true, .length => do
      let z ← last.sag.height ⟨gridLast.x, gridLast.y, 0⟩
      let aim : V3 := ⟨gridLast.x, gridLast.y, z⟩
      some (last.transformation.elim aim fun g => g.point aim)
    | _, _ => some (anchor.transformation.elim (0 : V3) fun g => g.point 0)
  return first.transformation.elim aim fun g => g.ipoint aim

/-- The seed of the component that is solved for, lines 520–546 and 593–599: the components `x` and `y` of the
transformed direction or position. -/
noncomputable def stopSeed (first last anchor : Surface) (isLast : Bool) (unitFirst unitLast : ApertureUnit)
    (gridFirst gridLast : V2) : Option V2 := do
  let aim ← seedAim first last anchor isLast unitLast gridLast
  match unitFirst with
  | .length => do
    let z ← first.sag.height ⟨gridFirst.x, gridFirst.y, 0⟩
    let position : V3 := ⟨gridFirst.x, gridFirst.y, z⟩
    let d := aim - position
    let dx ← div? d.x d.len
    let dy ← div? d.y d.len
    let dz ← div? d.z d.len
    let flip := sgn dz
    let direction : V3 := if dz ≠ 0 then ⟨flip * dx, flip * dy, flip * dz⟩ else ⟨0, 0, 1⟩
    let direction := first.transformation.elim direction fun g => g.vec direction
    return ⟨direction.x, direction.y⟩
  | .dimensionless => do
    let z ← sqrt? (1 - (gridFirst.x ^ 2 + gridFirst.y ^ 2))
    let d : V3 := ⟨gridFirst.x, gridFirst.y, z⟩
    let t ← div? aim.z d.z
    let seed : V3 := ⟨aim.x - d.x * t, aim.y - d.y * t, 0⟩
    let z ← first.sag.height seed
    let seed : V3 := ⟨seed.x, seed.y, z⟩
    let seed := first.transformation.elim seed fun g => g.point seed
    return ⟨seed.x, seed.y⟩
  | .other => none

/-- `_calc_rayfunction_stops_only` for the pair of stops with indices `i` and `j`, with its own seed. -/
noncomputable def stopRaysSeeded (solver : RootFinder) (wavelength : ℝ) (all : List Surface) (i j : ℕ)
    (gridFirst gridLast : V2) : Option Ray := do
  let first ← all[i]?
  let last ← all[j]?
  let apertureFirst ← first.aperture
  let apertureLast ← last.aperture
  let (anchor, isLast) ← anchorSurface ((all.take (j + 1)).drop i)
  let guess ← stopSeed first last anchor isLast apertureFirst.unit apertureLast.unit gridFirst gridLast
  stopRaysOnly solver guess wavelength all i j gridFirst gridLast

end Optika
