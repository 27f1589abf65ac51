import Verif.Model.Numeric
import Verif.Spec.Rigid

/-!
# Sag profiles

`optika/sags/*.py`.  A sag is a triple of functions: the height `__call__`, the normal vector
and the intercept of a line with the surface.  `none` is a result that is not finite.
-/

namespace Optika

/-- The interface `AbstractSag` (`optika/sags/_abc.py` lines 47–107): height above the `xy`
plane, surface normal, and intercept of the line with a given origin and direction. -/
structure Sag where
  height : V3 → Option ℝ
  normal : V3 → Option V3
  intercept : V3 → V3 → Option V3

/-! ## Flat -/

/-- `NoSag.__call__` without transformation, `optika/sags/_flat.py` lines 34–39. -/
noncomputable def flatHeight (_p : V3) : Option ℝ := some 0

/-- `NoSag.normal`, `optika/sags/_flat.py` lines 41–45. -/
noncomputable def flatNormal (_p : V3) : Option V3 := some ⟨0, 0, -1⟩

/-- `NoSag.intercept` without transformation, `optika/sags/_flat.py` lines 55–59. -/
noncomputable def flatIntercept (o u : V3) : Option V3 := do
  let d ← div? (-o.z) u.z
  return ⟨o.x + u.x * d, o.y + u.y * d, o.z + u.z * d⟩

/-- `NoSag` without a transformation. -/
noncomputable def flatSag : Sag := ⟨flatHeight, flatNormal, flatIntercept⟩

/-! ## Sphere -/

/-- `SphericalSag.__call__`, `optika/sags/_spherical.py` lines 112–123; `c` is the curvature. -/
noncomputable def sphereHeight (radius : ℝ) (p : V3) : Option ℝ := do
  let c ← div? 1 radius
  let r2 := p.x ^ 2 + p.y ^ 2
  let s ← sqrt? (1 - c ^ 2 * r2)
  div? (c * r2) (1 + s)

/-- `SphericalSag.normal`, `optika/sags/_spherical.py` lines 130–146. -/
noncomputable def sphereNormal (radius : ℝ) (p : V3) : Option V3 := do
  let c ← div? 1 radius
  let nx := c * p.x
  let ny := c * p.y
  let s ← sqrt? (1 - nx ^ 2 - ny ^ 2)
  return ⟨nx, ny, -s⟩

/-- `SphericalSag.intercept`, `optika/sags/_spherical.py` lines 156–186. -/
noncomputable def sphereIntercept (r : ℝ) (o u : V3) : Option V3 := do
  let p : V3 := ⟨o.x, o.y, o.z - r⟩
  let b := u.x * p.x + u.y * p.y + u.z * p.z
  let s ← sqrt? (b ^ 2 - (p.x ^ 2 + p.y ^ 2 + p.z ^ 2 - r ^ 2))
  let t := -b - sgn (r * u.z) * s
  return ⟨o.x + u.x * t, o.y + u.y * t, o.z + u.z * t⟩

/-- `SphericalSag` without a transformation. -/
noncomputable def sphereSag (radius : ℝ) : Sag :=
  ⟨sphereHeight radius, sphereNormal radius, sphereIntercept radius⟩

/-! ## Conic -/

/-- `AbstractConicSag.__call__`, `optika/sags/_conic.py` lines 35–48. -/
noncomputable def conicHeight (radius conic : ℝ) (p : V3) : Option ℝ := do
  let c ← div? 1 radius
  let r2 := p.x ^ 2 + p.y ^ 2
  let s ← sqrt? (1 - (1 + conic) * c ^ 2 * r2)
  div? (c * r2) (1 + s)

/-- `AbstractConicSag.normal`, `optika/sags/_conic.py` lines 54–75. -/
noncomputable def conicNormal (radius conic : ℝ) (p : V3) : Option V3 := do
  let c ← div? 1 radius
  let x2 := p.x ^ 2
  let y2 := p.y ^ 2
  let c2 := c ^ 2
  let g ← sqrt? (1 - (1 + conic) * c2 * (x2 + y2))
  let dzdx ← div? (c * p.x) g
  let dzdy ← div? (c * p.y) g
  let result : V3 := ⟨dzdx, dzdy, -1⟩
  let l := result.len
  let nx ← div? result.x l
  let ny ← div? result.y l
  let nz ← div? result.z l
  return ⟨nx, ny, nz⟩

/-- The candidate root of `AbstractConicSag.intercept`, `optika/sags/_conic.py` lines 130–154:
`none` is the value `inf` of a root that is not real or not on the sheet of the vertex.
`real` is lines 134–136, `degenerate` lines 139–142. -/
noncomputable def conicRoot (c kp1 : ℝ) (o u : V3) (sign : ℝ) : Option ℝ := do
  let a := c * (u.x ^ 2 + u.y ^ 2 + kp1 * u.z ^ 2)
  let b := 2 * (c * (o.x * u.x + o.y * u.y + kp1 * o.z * u.z) - u.z)
  let cc := c * (o.x ^ 2 + o.y ^ 2 + kp1 * o.z ^ 2) - 2 * o.z
  let discriminant := b ^ 2 - 4 * a * cc
  if discriminant < 0 then none else
  let t ← if |a| < 1e-12 then div? (-cc) b
          else div? (-b + sign * Real.sqrt discriminant) (2 * a)
  let position : V3 := ⟨o.x + u.x * t, o.y + u.y * t, o.z + u.z * t⟩
  let r2 := position.x ^ 2 + position.y ^ 2
  if position.z * (c * r2 - position.z) ≥ 0 then some t else none

/-- Choice between the two candidate path lengths of `ConicSag.intercept`: the admissible one of
smaller magnitude (`optika/sags/_conic.py` lines 156–162; an inadmissible candidate is never
chosen if the other one is finite). -/
noncomputable def conicPath (c kp1 : ℝ) (o u : V3) : Option ℝ :=
  match conicRoot c kp1 o u (-1), conicRoot c kp1 o u 1 with
  | none, none => none
  | some ta, none => some ta
  | none, some tb => some tb
  | some ta, some tb => if |ta| ≤ |tb| then some ta else some tb

/-- `AbstractConicSag.intercept`, `optika/sags/_conic.py` lines 124–165. -/
noncomputable def conicIntercept (radius conic : ℝ) (o u : V3) : Option V3 := do
  let c ← div? 1 radius
  let t ← conicPath c (1 + conic) o u
  return ⟨o.x + u.x * t, o.y + u.y * t, o.z + u.z * t⟩

/-- `ConicSag` without a transformation. -/
noncomputable def conicSag (radius conic : ℝ) : Sag :=
  ⟨conicHeight radius conic, conicNormal radius conic, conicIntercept radius conic⟩

/-! ## Parabola -/

/-- `ParabolicSag.__call__`: inherited from `AbstractConicSag` with the radius and conic
constant of `optika/sags/_parabolic.py` lines 32–38. -/
noncomputable def parabolaHeight (f : ℝ) (p : V3) : Option ℝ := conicHeight (2 * f) (-1) p

/-- `ParabolicSag.normal`, `optika/sags/_parabolic.py` lines 45–63. -/
noncomputable def parabolaNormal (f : ℝ) (p : V3) : Option V3 := do
  let r := 2 * f
  let q : V3 := ⟨p.x, p.y, -r⟩
  let xr ← div? q.x r
  let yr ← div? q.y r
  let s ← sqrt? (xr ^ 2 + yr ^ 2 + 1)
  let nx ← div? (q.x / s) r
  let ny ← div? (q.y / s) r
  let nz ← div? (q.z / s) r
  return ⟨nx, ny, nz⟩

/-- `ParabolicSag.intercept`, `optika/sags/_parabolic.py` lines 124–153. -/
noncomputable def parabolaIntercept (f : ℝ) (o u : V3) : Option V3 := do
  let t ← if u.x ^ 2 + u.y ^ 2 > 1e-10 then do
      let s ← sqrt? (-(o.y * u.x) ^ 2 - (o.x * u.y) ^ 2 + 2 * o.y * u.y * (o.x * u.x - 2 * f * u.z)
        + 4 * f * (o.z * (u.x ^ 2 + u.y ^ 2) - o.x * u.x * u.z + f * u.z ^ 2))
      div? (-o.x * u.x - o.y * u.y + 2 * f * u.z - sgn (f * u.z) * s) (u.x ^ 2 + u.y ^ 2)
    else
      div? (o.x ^ 2 + o.y ^ 2 - 4 * f * o.z) (4 * f * u.z)
  return ⟨o.x + u.x * t, o.y + u.y * t, o.z + u.z * t⟩

/-- `ParabolicSag` without a transformation. -/
noncomputable def parabolaSag (f : ℝ) : Sag :=
  ⟨parabolaHeight f, parabolaNormal f, parabolaIntercept f⟩

/-! ## Cylinder -/

/-- `CylindricalSag.__call__`, `optika/sags/_cylindrical.py` lines 80–91. -/
noncomputable def cylinderHeight (radius : ℝ) (p : V3) : Option ℝ := do
  let c ← div? 1 radius
  let r2 := p.x ^ 2
  let s ← sqrt? (1 - c ^ 2 * r2)
  div? (c * r2) (1 + s)

/-- `CylindricalSag.normal`, `optika/sags/_cylindrical.py` lines 98–113. -/
noncomputable def cylinderNormal (r : ℝ) (p : V3) : Option V3 := do
  let nx ← div? p.x r
  let s ← sqrt? (1 - nx ^ 2)
  return ⟨nx, 0, -s⟩

/-- `CylindricalSag.intercept`, `optika/sags/_cylindrical.py` lines 123–155. -/
noncomputable def cylinderIntercept (r : ℝ) (o n : V3) : Option V3 := do
  let b : V3 := (⟨0, 0, r⟩ : V3) - o
  let a : V3 := ⟨0, 1, 0⟩
  let nCrossA := n.cross a
  let nCrossASquared := nCrossA.dot nCrossA
  let negativeB := nCrossA.dot (b.cross a)
  let bSquared := nCrossASquared * r ^ 2
  let fourAC := (b.dot nCrossA) ^ 2
  let twoA := nCrossASquared
  let discriminant := bSquared - fourAC
  let s := sgn (r * n.z)
  let d ← if discriminant > 0 then div? (negativeB - s * Real.sqrt discriminant) twoA
          else div? (-o.z) n.z
  return ⟨o.x + d * n.x, o.y + d * n.y, o.z + d * n.z⟩

/-- `CylindricalSag` without a transformation. -/
noncomputable def cylinderSag (radius : ℝ) : Sag :=
  ⟨cylinderHeight radius, cylinderNormal radius, cylinderIntercept radius⟩

/-! ## Torus -/

/-- `ToroidalSag.__call__`, `optika/sags/_toroidal.py` lines 42–57.  `radius` is the minor and
`r` the major radius (`radius_of_rotation`). -/
noncomputable def torusHeight (radius r : ℝ) (p : V3) : Option ℝ := do
  let c ← div? 1 radius
  let x2 := p.x ^ 2
  let y2 := p.y ^ 2
  let s ← sqrt? (1 - c ^ 2 * y2)
  let zy ← div? (c * y2) (1 + s)
  let f ← sqrt? ((r - zy) ^ 2 - x2)
  return r - f

/-- `ToroidalSag.normal`, `optika/sags/_toroidal.py` lines 63–88. -/
noncomputable def torusNormal (radius r : ℝ) (p : V3) : Option V3 := do
  let c ← div? 1 radius
  let x2 := p.x ^ 2
  let y2 := p.y ^ 2
  let c2 := c ^ 2
  let g ← sqrt? (1 - c2 * y2)
  let zy ← div? (c * y2) (1 + g)
  let f ← sqrt? ((r - zy) ^ 2 - x2)
  let dzdx ← div? p.x f
  let dzydy ← div? (c * p.y) g
  let dzdy ← div? ((r - zy) * dzydy) f
  let result : V3 := ⟨dzdx, dzdy, -1⟩
  let l := result.len
  let nx ← div? result.x l
  let ny ← div? result.y l
  let nz ← div? result.z l
  return ⟨nx, ny, nz⟩

/-! ## Transformations of a sag -/

/-- The curved sags with a `transformation`: `__call__` and `normal` first map the position to
the local frame and return the local result (`_spherical.py` lines 113–115 and 134–136,
`_conic.py` lines 37–39 and 56–58, `_parabolic.py` lines 49–51, `_cylindrical.py` lines 81–83
and 102–104), whereas `intercept` maps the ray to the local frame and the result back
(`_spherical.py` lines 153–154 and 188–189, `_conic.py` 120–122 and 167–168, `_parabolic.py`
121–122 and 155–156, `_cylindrical.py` 120–121 and 157–158). -/
noncomputable def Sag.withTransformation (s : Sag) (g : Rigid) : Sag where
  height p := s.height (g.ipoint p)
  normal p := s.normal (g.ipoint p)
  intercept o u := (s.intercept (g.ipoint o) (g.ivec u)).map g.point

/-- `NoSag` with a transformation (`optika/sags/_flat.py` lines 31–64): here `__call__` maps the
result back, and `normal` ignores the transformation. -/
noncomputable def flatSagWithTransformation (g : Rigid) : Sag where
  height p := some (g.point ⟨(g.ipoint p).x, (g.ipoint p).y, 0⟩).z
  normal p := flatNormal p
  intercept o u := (flatIntercept (g.ipoint o) (g.ivec u)).map g.point

end Optika
