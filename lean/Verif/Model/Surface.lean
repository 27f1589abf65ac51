import Verif.Model.Rulings
import Verif.Model.Sags
import Mathlib.Analysis.SpecialFunctions.Exp

/-!
# Rays, materials, apertures and surfaces

`optika/rays/_ray_vectors.py`, `optika/materials/_materials.py`, `optika/surfaces.py` and
`optika/propagators.py`.  A ray here is one element of the (broadcast) ray array.  `none` is a
ray with a component that is not finite, or an exception.
-/

namespace Optika

/-- `RayVectorArray`, `optika/rays/_ray_vectors.py` lines 256–278, without the units. -/
structure Ray where
  wavelength : ℝ
  position : V3
  direction : V3
  intensity : ℝ
  attenuation : ℝ
  index : ℝ
  unvignetted : Bool

/-- `transformation(rays)`: the matrix acts on position and direction
(`optika/rays/_ray_vectors.py` lines 105–140), the translation on the position only
(lines 142–166). -/
def Ray.move (g : Rigid) (r : Ray) : Ray :=
  { r with position := g.point r.position, direction := g.vec r.direction }

/-- `transformation.inverse(rays)`. -/
def Ray.unmove (g : Rigid) (r : Ray) : Ray :=
  { r with position := g.ipoint r.position, direction := g.ivec r.direction }

/-- `AbstractMaterial`, `optika/materials/_materials.py` lines 25–76. -/
structure Material where
  index : Ray → Option ℝ
  attenuation : Ray → Option ℝ
  efficiency : Ray → V3 → Option ℝ
  isMirror : Bool

/-- `Vacuum`, `optika/materials/_materials.py` lines 80–116. -/
noncomputable def vacuum : Material where
  index _ := some 1
  attenuation _ := some 0
  efficiency _ _ := some 1
  isMirror := false

/-- `Mirror`, `optika/materials/_materials.py` lines 118–173. -/
noncomputable def mirror : Material where
  index r := some r.index
  attenuation r := some r.attenuation
  efficiency _ _ := some 1
  isMirror := true

/-- The unit of the bounds of an aperture decides whether it clips positions or directions,
`optika/apertures/_apertures.py` lines 93–99. -/
inductive ApertureUnit | length | dimensionless | other

/-- The part of `AbstractAperture` used by `clip_rays`: the unit of `bound_lower` and
`__call__`. -/
structure Aperture where
  unit : ApertureUnit
  mask : V3 → Bool

/-- `AbstractAperture.clip_rays`, `optika/apertures/_apertures.py` lines 82–102. -/
def Aperture.clip (a : Aperture) (r : Ray) : Option Ray :=
  match a.unit with
  | .length => some { r with unvignetted := r.unvignetted && a.mask r.position }
  | .dimensionless => some { r with unvignetted := r.unvignetted && a.mask r.direction }
  | .other => none

/-- `AbstractRulings`: the spacing object, the diffraction order and the efficiency
(`optika/rulings/_rulings.py` lines 131–222). -/
structure RulingProfile where
  spacing : V3 → V3 → Option V3
  order : ℝ
  efficiency : Ray → V3 → Option ℝ

/-- `Rulings` with a constant spacing: efficiency one, normal of the ruling planes along `x`
(`optika/rulings/_rulings.py` lines 156–168 and 225–251). -/
noncomputable def idealRulings (spacing order : ℝ) : RulingProfile where
  spacing := constantSpacing spacing ⟨1, 0, 0⟩
  order := order
  efficiency _ _ := some 1

/-- `Surface`, `optika/surfaces.py` lines 340–384: the defaults `None` of sag and material
are `NoSag` and `Vacuum`. -/
structure Surface where
  sag : Sag
  material : Material
  aperture : Option Aperture
  rulings : Option RulingProfile
  transformation : Option Rigid

/-- `AbstractSag.propagate_rays`, `optika/sags/_abc.py` lines 109–122. -/
noncomputable def Sag.propagate (s : Sag) (r : Ray) : Option Ray := do
  let q ← s.intercept r.position r.direction
  let displacement := q - r.position
  let f := Real.exp (-r.attenuation * displacement.len)
  return { r with position := q, intensity := f * r.intensity }

/-- Replacement of the direction by the effective direction if there are rulings,
`optika/surfaces.py` lines 150–154. -/
noncomputable def Surface.effectiveRay (s : Surface) (r0 : Ray) (normal : V3) : Option Ray :=
  match s.rulings with
  | none => some r0
  | some ru => (rulingsIncidentEffective (ru.spacing r0.position normal) ru.order
      r0.wavelength r0.direction r0.index normal).map fun d => { r0 with direction := d }

/-- The factor contributed by the rulings to the efficiency, `optika/surfaces.py` lines
176–177. -/
noncomputable def Surface.rulingFactor (s : Surface) (r1 : Ray) (normal : V3) : Option ℝ :=
  match s.rulings with
  | none => some 1
  | some ru => ru.efficiency r1 normal

/-- The part of `propagate_rays` between the sag and the aperture, `optika/surfaces.py` lines
146–190: effective direction, index, wavelength, Snell's law, efficiency, intensity. -/
noncomputable def Surface.interact (s : Surface) (r0 : Ray) : Option Ray := do
  let normal ← s.sag.normal r0.position
  let r1 ← s.effectiveRay r0 normal
  let n2 ← s.material.index r1
  let ratio ← div? r1.index n2
  let wavelength2 ← div? r1.wavelength ratio
  let b ← snellsLaw r1.direction r1.index n2 s.material.isMirror normal
  let e1 ← s.material.efficiency r1 normal
  let e2 ← s.rulingFactor r1 normal
  let attenuation2 ← s.material.attenuation r1
  return { r1 with
    wavelength := wavelength2, direction := b, intensity := r1.intensity * (e1 * e2),
    attenuation := attenuation2, index := n2 }

/-- Clipping by the optional aperture, `optika/surfaces.py` lines 192–193. -/
def Surface.clip (s : Surface) (r : Ray) : Option Ray :=
  match s.aperture with
  | none => some r
  | some a => a.clip r

/-- The part of `propagate_rays` inside the local coordinate system of the surface,
`optika/surfaces.py` lines 144–193. -/
noncomputable def Surface.propagateLocal (s : Surface) (r : Ray) : Option Ray := do
  let r0 ← s.sag.propagate r
  let r2 ← s.interact r0
  s.clip r2

/-- `AbstractSurface.propagate_rays`, `optika/surfaces.py` lines 123–198. -/
noncomputable def Surface.propagate (s : Surface) (r : Ray) : Option Ray :=
  match s.transformation with
  | none => s.propagateLocal r
  | some g => (s.propagateLocal (r.unmove g)).map (Ray.move g)

/-- An argument of `propagate_rays`: a lone propagator or a sequence of propagators. -/
inductive Propagators (P : Type)
  | one (p : P)
  | many (ps : List P)

/-- Lines 35–36 and 63–64 of `optika/propagators.py`. -/
def Propagators.toList {P : Type} : Propagators P → List P
  | .one p => [p]
  | .many ps => ps

/-- `propagate_rays`, `optika/propagators.py` lines 19–41, for propagators acting on a state. -/
def propagateRays {P R : Type} (step : P → R → R) (ps : Propagators P) (r : R) : R :=
  ps.toList.foldl (fun r p => step p r) r

/-- The loop of `accumulate_rays`, `optika/propagators.py` lines 66–69, building the list
in order. -/
def accumulateLoop {P R : Type} (step : P → R → R) : List P → R → List R → List R
  | [], _, result => result
  | p :: ps, r, result => let r := step p r; accumulateLoop step ps r (result ++ [r])

/-- `accumulate_rays`, `optika/propagators.py` lines 44–73.  `na.stack` of an empty list is an
error. -/
def accumulateRays {P R : Type} (step : P → R → R) (ps : Propagators P) (r : R) :
    Option (List R) :=
  match accumulateLoop step ps.toList r [] with
  | [] => none
  | rs => some rs

/-- A surface acting on a possibly non-finite ray: a ray that is not finite stays not finite.
Simplification: the code keeps the finite components of such a ray, see `Verif/Model/Lost.lean`. -/
noncomputable def Surface.step (s : Surface) (r : Option Ray) : Option Ray := r.bind s.propagate

/-- A list of surfaces acting on a ray (`propagate_rays` of `optika/propagators.py`). -/
noncomputable def propagateSurfaces (ss : List Surface) (r : Ray) : Option Ray :=
  propagateRays Surface.step (.many ss) (some r)

end Optika
