import Verif.Model.System

/-!
# Rays of which some components are not finite

`optika/surfaces.py` lines 123–198, `optika/sags/_abc.py` lines 109–122 and
`optika/apertures/_apertures.py` lines 82–102 for rays that miss a surface, are totally reflected or
have no efficiency.  The code keeps on propagating such rays: some of their components are not
finite, the others are, and the flag `unvignetted` is only ever changed by apertures.

In `Verif/Model/Surface.lean` such a ray is `none`; here every component has its own fate.

Simplified: a vector is finite in all components or in none.  An attenuation of an infinite path is
not finite (in the code the factor is zero if the medium absorbs).
-/

namespace Optika

/-- A ray some components of which are not finite. -/
structure PartialRay where
  wavelength : Option ℝ
  position : Option V3
  direction : Option V3
  intensity : Option ℝ
  attenuation : Option ℝ
  index : Option ℝ
  unvignetted : Bool

/-- A ray with finite components. -/
def Ray.known (r : Ray) : PartialRay :=
  ⟨some r.wavelength, some r.position, some r.direction, some r.intensity, some r.attenuation,
    some r.index, r.unvignetted⟩

/-- The ray, if all components are finite. -/
def PartialRay.complete (r : PartialRay) : Option Ray := do
  return ⟨← r.wavelength, ← r.position, ← r.direction, ← r.intensity, ← r.attenuation, ← r.index,
    r.unvignetted⟩

/-- A surface, and what its parts do with rays that are not finite: the test of the aperture (false for
all apertures but polygons, since it is a comparison, `optika/apertures/_apertures.py` lines 309, 466,
658 and 962) and whether the aperture is active and inverted, the normal (flat sags have one everywhere), the
effective direction of rulings (rulings with constant spacing do not look at the position), and the
properties of the material and of the rulings. -/
structure LossySurface where
  surface : Surface
  insideLost : Bool
  active : Bool
  inverted : Bool
  normal : Option V3 → Option V3
  effective : PartialRay → Option V3 → Option V3
  index : PartialRay → Option ℝ
  attenuation : PartialRay → Option ℝ
  efficiency : PartialRay → Option V3 → Option ℝ
  rulingFactor : PartialRay → Option V3 → Option ℝ

namespace LossySurface
variable (s : LossySurface)

/-- `AbstractSag.propagate_rays`, `optika/sags/_abc.py` lines 109–122. -/
noncomputable def strike (r : PartialRay) : PartialRay :=
  let position := do s.surface.sag.intercept (← r.position) (← r.direction)
  { r with
    position := position
    intensity := do
      let displacement := (← position) - (← r.position)
      return Real.exp (-(← r.attenuation) * displacement.len) * (← r.intensity) }

/-- `AbstractSurface.propagate_rays`, `optika/surfaces.py` lines 146–190. -/
noncomputable def interact (r0 : PartialRay) : PartialRay :=
  let normal := s.normal r0.position
  let r1 := match s.surface.rulings with
    | none => r0
    | some _ => { r0 with direction := s.effective r0 normal }
  let n2 := s.index r1
  { r1 with
    wavelength := do div? (← r1.wavelength) (← div? (← r1.index) (← n2))
    direction := do snellsLaw (← r1.direction) (← r1.index) (← n2) s.surface.material.isMirror (← normal)
    intensity := do return (← r1.intensity) * ((← s.efficiency r1 normal) * (← s.rulingFactor r1 normal))
    attenuation := s.attenuation r1
    index := n2 }

/-- The value of the mask of an aperture; of a vector that is not finite, lines 311–312, 475–476,
660–661, 760–771 and 965–966. -/
def maskAt (mask : V3 → Bool) (p : Option V3) : Bool :=
  p.elim (applyFlags s.active s.inverted s.insideLost) mask

/-- `AbstractAperture.clip_rays`, `optika/apertures/_apertures.py` lines 82–102; `none` is the
exception for other units. -/
def clip (r : PartialRay) : Option PartialRay :=
  match s.surface.aperture with
  | none => some r
  | some a => match a.unit with
    | .length => some { r with unvignetted := r.unvignetted && s.maskAt a.mask r.position }
    | .dimensionless => some { r with unvignetted := r.unvignetted && s.maskAt a.mask r.direction }
    | .other => none

/-- `AbstractSurface.propagate_rays`, `optika/surfaces.py` lines 123–198. -/
noncomputable def propagate (r : PartialRay) : Option PartialRay :=
  match s.surface.transformation with
  | none => s.clip (s.interact (s.strike r))
  | some g => (s.clip (s.interact (s.strike
      { r with position := r.position.map g.ipoint, direction := r.direction.map g.ivec }))).map fun r =>
        { r with position := r.position.map g.point, direction := r.direction.map g.vec }

end LossySurface

/-- `propagate_rays`, `optika/propagators.py` lines 19–41. -/
noncomputable def propagateLossy (ss : List LossySurface) (r : PartialRay) : Option PartialRay :=
  ss.foldlM (fun r s => s.propagate r) r

section
variable {P : Type} [Fintype P]

/-- The sum of the components of the rays that are selected; not finite if one of them is not. -/
noncomputable def sumSelected (x : P → Option ℝ) (select : P → Bool) : Option ℝ :=
  open Classical in
  if ∃ p, select p = true ∧ x p = none then none else
    some (∑ p ∈ Finset.univ.filter (fun p => select p = true), (x p).getD 0)

/-- The effective area at one field point in `area_effective`, `optika/systems/_sequential.py` lines
1498–1504. -/
noncomputable def areaLossy (rays : P → PartialRay) : Option ℝ :=
  sumSelected (fun p => (rays p).intensity) fun p => (rays p).unvignetted

/-- A sensor coordinate of a field point in `distortion`, `optika/systems/_sequential.py` lines
1266–1276. -/
noncomputable def coordinateLossy (coordinate : V3 → ℝ) (rays : P → PartialRay) : Option ℝ :=
  let select p := (rays p).unvignetted || !anyUnvignetted fun p => (rays p).unvignetted
  open Classical in do
  div? (← sumSelected (fun p => (rays p).position.map coordinate) select)
    ((Finset.univ.filter (fun p => select p = true)).card : ℝ)

/-- The fraction of rays that arrive, in `vignetting`, `optika/systems/_sequential.py` line 1354. -/
noncomputable def fractionLossy (rays : P → PartialRay) : ℝ :=
  (∑ p, toReal (rays p).unvignetted) / (Fintype.card P : ℝ)

/-- Whether a ray falls into a bin of wavelength and position.  A ray whose wavelength or position is
not finite falls into no bin (`na.histogram` of named_arrays). -/
def fallsInto (bin : ℝ → V3 → Bool) (r : PartialRay) : Bool :=
  match r.wavelength, r.position with
  | some w, some x => bin w x
  | _, _ => false

/-- One bin of the image of `AbstractImagingSensor.collect`, `optika/sensors/_sensors.py` lines
125–155: the weight of a ray is `rays.intensity * where`. -/
noncomputable def binLossy (bin : ℝ → V3 → Bool) (rays : P → PartialRay) : Option ℝ :=
  sumSelected (fun p => (rays p).intensity.map (· * toReal (rays p).unvignetted))
    fun p => fallsInto bin (rays p)

end

end Optika
