import Verif.Model.Surface
import Verif.Model.Apertures
import Verif.Model.Glass

/-!
# Arithmetic with rounding errors

The rest of the model computes with real numbers.  Here the formulas by which a surface propagates a ray are written as
expressions, with the operations in the order of the code.  An expression can be evaluated exactly, or with an error in every
operation.
-/

namespace Optika

/-- The numbers that are stored while a ray is followed: its position, direction, wavelength, intensity, attenuation and
index, whether it is vignetted (0) or not (1), the path length to the next surface and the normal of this surface. -/
inductive Slot
  | px | py | pz | dx | dy | dz | wavelength | intensity | attenuation | index | flag | path | nx | ny | nz
  deriving DecidableEq

instance : Fintype Slot :=
  ⟨{.px, .py, .pz, .dx, .dy, .dz, .wavelength, .intensity, .attenuation, .index, .flag, .path, .nx, .ny, .nz},
    fun s => by cases s <;> decide⟩

/-- Formulas.  `ifneg c a b` is `a` if `c` is negative, otherwise `b`. -/
inductive Expr
  | var (s : Slot)
  | const (c : ℝ)
  | neg (a : Expr)
  | add (a b : Expr)
  | sub (a b : Expr)
  | mul (a b : Expr)
  | sq (a : Expr)
  | div (a b : Expr)
  | sqrt (a : Expr)
  | exp (a : Expr)
  | ifneg (c a b : Expr)

instance : Neg Expr := ⟨Expr.neg⟩
instance : Add Expr := ⟨Expr.add⟩
instance : Sub Expr := ⟨Expr.sub⟩
instance : Mul Expr := ⟨Expr.mul⟩
instance : Div Expr := ⟨Expr.div⟩

/-- An operation of two operands of which one may not be finite. -/
def lift2 (f : ℝ → ℝ → Option ℝ) (x y : Option ℝ) : Option ℝ := x.bind fun a => y.bind fun b => f a b

/-- The exact value of a formula. -/
noncomputable def Expr.eval (env : Slot → ℝ) : Expr → Option ℝ
  | .var s => some (env s)
  | .const c => some c
  | .neg a => (a.eval env).map fun x => -x
  | .add a b => lift2 (fun x y => some (x + y)) (a.eval env) (b.eval env)
  | .sub a b => lift2 (fun x y => some (x - y)) (a.eval env) (b.eval env)
  | .mul a b => lift2 (fun x y => some (x * y)) (a.eval env) (b.eval env)
  | .sq a => (a.eval env).map fun x => x ^ 2
  | .div a b => lift2 div? (a.eval env) (b.eval env)
  | .sqrt a => (a.eval env).bind sqrt?
  | .exp a => (a.eval env).map Real.exp
  | .ifneg c a b => (c.eval env).bind fun x => if x < 0 then a.eval env else b.eval env

/-- `y` is `x` with an error of the last digit: at most `u` relative to `x`, or `u` if `x` is small; the sign is right. -/
structure Rounded (u x y : ℝ) : Prop where
  error : |y - x| ≤ u * (1 + |x|)
  nonneg : 0 ≤ x → 0 ≤ y
  nonpos : x ≤ 0 → y ≤ 0

/-- The result of an operation whose exact result is `e`. -/
def RoundedTo (u : ℝ) (e r : Option ℝ) : Prop :=
  match e with
  | none => r = none
  | some x => ∃ y, r = some y ∧ Rounded u x y

/-- The possible results of a computer: every operation and every constant has an error, and the same formula need not give
the same result when it occurs twice.  Changes of sign and comparisons are exact. -/
def Expr.Computes (u : ℝ) (env : Slot → ℝ) : Expr → Option ℝ → Prop
  | .var s, r => r = some (env s)
  | .const c, r => RoundedTo u (some c) r
  | .neg a, r => ∃ x, a.Computes u env x ∧ r = x.map fun x => -x
  | .add a b, r => ∃ x y, a.Computes u env x ∧ b.Computes u env y ∧
      RoundedTo u (lift2 (fun x y => some (x + y)) x y) r
  | .sub a b, r => ∃ x y, a.Computes u env x ∧ b.Computes u env y ∧
      RoundedTo u (lift2 (fun x y => some (x - y)) x y) r
  | .mul a b, r => ∃ x y, a.Computes u env x ∧ b.Computes u env y ∧
      RoundedTo u (lift2 (fun x y => some (x * y)) x y) r
  | .sq a, r => ∃ x, a.Computes u env x ∧ RoundedTo u (x.map fun x => x ^ 2) r
  | .div a b, r => ∃ x y, a.Computes u env x ∧ b.Computes u env y ∧ RoundedTo u (lift2 div? x y) r
  | .sqrt a, r => ∃ x, a.Computes u env x ∧ RoundedTo u (x.bind sqrt?) r
  | .exp a, r => ∃ x, a.Computes u env x ∧ RoundedTo u (x.map Real.exp) r
  | .ifneg c a b, r => ∃ x, c.Computes u env x ∧
      match x with
      | none => r = none
      | some v => if v < 0 then a.Computes u env r else b.Computes u env r

/-- A step of a computation: a formula for every number that is stored. -/
abbrev Stage := Slot → Expr

/-- The possible results of a sequence of steps; `none` is a result of which a part is not finite. -/
def Runs (u : ℝ) : List Stage → (Slot → ℝ) → Option (Slot → ℝ) → Prop
  | [], env, out => out = some env
  | s :: ss, env, out => ∃ v : Slot → Option ℝ, (∀ k, (s k).Computes u env (v k)) ∧
      ((∃ mid : Slot → ℝ, (∀ k, v k = some (mid k)) ∧ Runs u ss mid out) ∨ ((∃ k, v k = none) ∧ out = none))

/-! ## Surfaces -/

namespace Expr

/-- `np.abs`. -/
def abs (a : Expr) : Expr := .ifneg a (-a) a

/-- `np.sign`. -/
noncomputable def sign (a : Expr) : Expr := .ifneg a (.const (-1)) (.ifneg (-a) (.const 1) (.const 0))

/-- A value that is not finite. -/
noncomputable def inf : Expr := .const 1 / .const 0

/-- `.length` of a vector. -/
def norm (x y z : Expr) : Expr := .sqrt (.sq x + .sq y + .sq z)

end Expr

open Expr Slot

/-- The shapes of surfaces. -/
inductive Profile
  | flat
  | sphere (radius : ℝ)
  | cylinder (radius : ℝ)
  | parabola (focalLength : ℝ)
  | conic (radius conic : ℝ)

/-- The sag of a surface. -/
noncomputable def Profile.sag : Profile → Sag
  | .flat => flatSag
  | .sphere r => sphereSag r
  | .cylinder r => cylinderSag r
  | .parabola f => parabolaSag f
  | .conic r k => conicSag r k

/-- The path length of `SphericalSag.intercept`, `optika/sags/_spherical.py` lines 156–186. -/
noncomputable def spherePathE (r : ℝ) : Expr :=
  let z := var pz - const r
  let b := var dx * var px + var dy * var py + var dz * z
  Expr.neg b - Expr.sign (const r * var dz) *
    .sqrt (.sq b - (.sq (var px) + .sq (var py) + .sq z - .sq (const r)))

/-- The path length of `CylindricalSag.intercept`, `optika/sags/_cylindrical.py` lines 123–155; the products with the
components of the axis `(0, 1, 0)` are left out. -/
noncomputable def cylinderPathE (r : ℝ) : Expr :=
  let bx := const 0 - var px
  let bz := const r - var pz
  let cx := -var dz
  let cz := var dx
  let cc := cx * cx + cz * cz
  let disc := cc * .sq (const r) - .sq (bx * cx + bz * cz)
  .ifneg (-disc) ((cx * (-bz) + cz * bx - Expr.sign (const r * var dz) * .sqrt disc) / cc) (-var pz / var dz)

/-- The path length of `ParabolicSag.intercept`, `optika/sags/_parabolic.py` lines 124–153. -/
noncomputable def parabolaPathE (f : ℝ) : Expr :=
  let ox := var px
  let oy := var py
  let oz := var pz
  let ux := var dx
  let uy := var dy
  let uz := var dz
  let r2 := .sq ux + .sq uy
  .ifneg (const 1e-10 - r2)
    ((-ox * ux - oy * uy + const 2 * const f * uz - Expr.sign (const f * uz) *
      .sqrt (-.sq (oy * ux) - .sq (ox * uy) + const 2 * oy * uy * (ox * ux - const 2 * const f * uz)
        + const 4 * const f * (oz * r2 - ox * ux * uz + const f * .sq uz))) / r2)
    ((.sq ox + .sq oy - const 4 * const f * oz) / (const 4 * const f * uz))

/-- The coefficient `a` of `AbstractConicSag.intercept`, `optika/sags/_conic.py` line 130. -/
noncomputable def conicAE (r k : ℝ) : Expr :=
  const 1 / const r * (.sq (var dx) + .sq (var dy) + (const 1 + const k) * .sq (var dz))

/-- The coefficient `b`, line 131. -/
noncomputable def conicBE (r k : ℝ) : Expr :=
  const 2 * (const 1 / const r * (var px * var dx + var py * var dy + (const 1 + const k) * var pz * var dz) - var dz)

/-- The coefficient `cc`, line 132. -/
noncomputable def conicCE (r k : ℝ) : Expr :=
  const 1 / const r * (.sq (var px) + .sq (var py) + (const 1 + const k) * .sq (var pz)) - const 2 * var pz

/-- The discriminant, line 134. -/
noncomputable def conicDE (r k : ℝ) : Expr := .sq (conicBE r k) - const 4 * conicAE r k * conicCE r k

/-- The number that is not negative on the sheet of the vertex, lines 151–153. -/
noncomputable def conicSheetE (r : ℝ) (t : Expr) : Expr :=
  let x := var px + var dx * t
  let y := var py + var dy * t
  let z := var pz + var dz * t
  z * (const 1 / const r * (.sq x + .sq y) - z)

/-- A root, lines 146–150. -/
noncomputable def conicRootE (r k sign : ℝ) : Expr :=
  (-conicBE r k + const sign * .sqrt (conicDE r k)) / (const 2 * conicAE r k)

/-- The path length of `AbstractConicSag.intercept`, `optika/sags/_conic.py` lines 124–162: `inf` if there is no root, or
none on the sheet of the vertex. -/
noncomputable def conicPathE (r k : ℝ) : Expr :=
  let ta := conicRootE r k (-1)
  let tb := conicRootE r k 1
  let tl := -conicCE r k / conicBE r k
  .ifneg (conicDE r k) Expr.inf <|
    .ifneg (Expr.abs (conicAE r k) - const 1e-12)
      (.ifneg (conicSheetE r tl) Expr.inf tl)
      (.ifneg (conicSheetE r ta)
        (.ifneg (conicSheetE r tb) Expr.inf tb)
        (.ifneg (conicSheetE r tb) ta (.ifneg (Expr.abs tb - Expr.abs ta) tb ta)))

/-- The same with the curvature `c` in place of the radius: if the radius is infinite, `c = 1 / self.radius` is zero,
`optika/sags/_conic.py` lines 124–162. -/
noncomputable def conicPathC (c : Expr) (k : ℝ) : Expr :=
  let a := c * (.sq (var dx) + .sq (var dy) + (const 1 + const k) * .sq (var dz))
  let b := const 2 * (c * (var px * var dx + var py * var dy + (const 1 + const k) * var pz * var dz) - var dz)
  let cc := c * (.sq (var px) + .sq (var py) + (const 1 + const k) * .sq (var pz)) - const 2 * var pz
  let d := .sq b - const 4 * a * cc
  let sheet (t : Expr) : Expr :=
    let x := var px + var dx * t
    let y := var py + var dy * t
    let z := var pz + var dz * t
    z * (c * (.sq x + .sq y) - z)
  let ta := (Expr.neg b + const (-1) * .sqrt d) / (const 2 * a)
  let tb := (Expr.neg b + const 1 * .sqrt d) / (const 2 * a)
  let tl := Expr.neg cc / b
  .ifneg d Expr.inf <|
    .ifneg (Expr.abs a - const 1e-12)
      (.ifneg (sheet tl) Expr.inf tl)
      (.ifneg (sheet ta)
        (.ifneg (sheet tb) Expr.inf tb)
        (.ifneg (sheet tb) ta (.ifneg (Expr.abs tb - Expr.abs ta) tb ta)))

/-- The path length to the surface. -/
noncomputable def Profile.pathE : Profile → Expr
  | .flat => -var pz / var dz
  | .sphere r => spherePathE r
  | .cylinder r => cylinderPathE r
  | .parabola f => parabolaPathE f
  | .conic r k => conicPathE r k

/-- The normal of the surface: `NoSag.normal`, `SphericalSag.normal`, `CylindricalSag.normal`, `ParabolicSag.normal` and
`AbstractConicSag.normal` (cited in `Verif/Model/Sags.lean`). -/
noncomputable def Profile.normalE : Profile → Expr × Expr × Expr
  | .flat => (const 0, const 0, const (-1))
  | .sphere r =>
    let nx := const 1 / const r * var px
    let ny := const 1 / const r * var py
    (nx, ny, -.sqrt (const 1 - .sq nx - .sq ny))
  | .cylinder r =>
    let nx := var px / const r
    (nx, const 0, -.sqrt (const 1 - .sq nx))
  | .parabola f =>
    let r := const 2 * const f
    let s := .sqrt (.sq (var px / r) + .sq (var py / r) + const 1)
    (var px / s / r, var py / s / r, -r / s / r)
  | .conic r k =>
    let c := const 1 / const r
    let g := .sqrt (const 1 - (const 1 + const k) * .sq c * (.sq (var px) + .sq (var py)))
    let x := c * var px / g
    let y := c * var py / g
    let l := Expr.norm x y (const (-1))
    (x / l, y / l, const (-1) / l)

/-- The media behind a surface. -/
inductive Filling
  | vacuum
  | mirror
  | glass (g : Glass)

/-- The material of a surface. -/
noncomputable def Filling.material : Filling → Material
  | .vacuum => Optika.vacuum
  | .mirror => Optika.mirror
  | .glass g => g.material

/-- The index of refraction behind the surface; for glass the equation of Sellmeier (`Verif/Model/Glass.lean`). -/
noncomputable def Filling.indexE : Filling → Expr
  | .vacuum => const 1
  | .mirror => var index
  | .glass g =>
    let w2 := .sq (var wavelength)
    .sqrt (const 1 + (const g.b1 * w2 / (w2 - const g.c1) + const g.b2 * w2 / (w2 - const g.c2)
      + const g.b3 * w2 / (w2 - const g.c3)))

/-- The attenuation behind the surface. -/
noncomputable def Filling.attenuationE : Filling → Expr
  | .vacuum => const 0
  | .mirror => var attenuation
  | .glass _ => const 0

/-- Rulings of constant spacing. -/
structure Grooves where
  spacing : ℝ
  normal : V3
  order : ℝ

/-- Changes nothing. -/
def keep : Stage := var

/-- A row of a matrix times a vector. -/
def rowE (m : V3) (x y z : Expr) : Expr := const m.x * x + const m.y * y + const m.z * z

/-- An aperture and a formula that is negative for the rays it blocks. -/
structure Window where
  aperture : Aperture
  test : Expr

/-- The coordinates that an aperture looks at, `optika/apertures/_apertures.py` lines 82–102, in its own coordinate system. -/
def coordinatesE (unit : ApertureUnit) (g : Option Rigid) : Expr × Expr × Expr :=
  let c := match unit with
    | .dimensionless => (var dx, var dy, var dz)
    | _ => (var px, var py, var pz)
  match g with
  | none => c
  | some g =>
    let x := c.1 - const g.shift.x
    let y := c.2.1 - const g.shift.y
    let z := c.2.2 - const g.shift.z
    (rowE g.rot.transpose.r1 x y z, rowE g.rot.transpose.r2 x y z, rowE g.rot.transpose.r3 x y z)

/-- `inverted` and `active`: the sign of the formula is changed, or it is not negative at all. -/
noncomputable def flagsE (active inverted : Bool) (e : Expr) : Expr :=
  if active then (if inverted then -e else e) else const 1

/-- `CircularAperture.__call__`, `optika/apertures/_apertures.py` lines 292–314. -/
noncomputable def Window.circle (unit : ApertureUnit) (radius : ℝ) (active inverted : Bool) (g : Option Rigid) : Window :=
  let c := coordinatesE unit g
  ⟨⟨unit, circleMask radius active inverted g⟩,
    flagsE active inverted (const radius - .sqrt (.sq c.1 + .sq c.2.1))⟩

/-- `EllipticalAperture.__call__`, `optika/apertures/_apertures.py` lines 640–663. -/
noncomputable def Window.ellipse (unit : ApertureUnit) (rx ry : ℝ) (active inverted : Bool) (g : Option Rigid) : Window :=
  let c := coordinatesE unit g
  ⟨⟨unit, ellipseMask rx ry active inverted g⟩,
    flagsE active inverted (const 1 - (.sq (c.1 / const rx) + .sq (c.2.1 / const ry)))⟩

/-- `RectangularAperture.__call__`, `optika/apertures/_apertures.py` lines 941–968. -/
noncomputable def Window.rectangle (unit : ApertureUnit) (hx hy : ℝ) (active inverted : Bool) (g : Option Rigid) : Window :=
  let c := coordinatesE unit g
  ⟨⟨unit, rectangleMask hx hy active inverted g⟩,
    flagsE active inverted (.ifneg (c.1 - -const hx) (const (-1)) (.ifneg (c.2.1 - -const hy) (const (-1))
      (.ifneg (const hx - c.1) (const (-1)) (.ifneg (const hy - c.2.1) (const (-1)) (const 1)))))⟩

/-- A surface of which the formulas are known. -/
structure Element where
  profile : Profile
  filling : Filling
  grooves : Option Grooves
  aperture : Option Window
  transformation : Option Rigid

/-- The surface. -/
noncomputable def Element.surface (s : Element) : Surface where
  sag := s.profile.sag
  material := s.filling.material
  aperture := s.aperture.map Window.aperture
  rulings := s.grooves.map fun g => ⟨constantSpacing g.spacing g.normal, g.order, fun _ _ => some 1⟩
  transformation := s.transformation

/-- `transformation.inverse(rays)`, `optika/surfaces.py` lines 141–142. -/
def unmoveE (g : Rigid) : Stage
  | px => rowE g.rot.transpose.r1 (var px - const g.shift.x) (var py - const g.shift.y) (var pz - const g.shift.z)
  | py => rowE g.rot.transpose.r2 (var px - const g.shift.x) (var py - const g.shift.y) (var pz - const g.shift.z)
  | pz => rowE g.rot.transpose.r3 (var px - const g.shift.x) (var py - const g.shift.y) (var pz - const g.shift.z)
  | dx => rowE g.rot.transpose.r1 (var dx) (var dy) (var dz)
  | dy => rowE g.rot.transpose.r2 (var dx) (var dy) (var dz)
  | dz => rowE g.rot.transpose.r3 (var dx) (var dy) (var dz)
  | s => keep s

/-- `transformation(rays)`, `optika/surfaces.py` lines 195–196. -/
def moveE (g : Rigid) : Stage
  | px => rowE g.rot.r1 (var px) (var py) (var pz) + const g.shift.x
  | py => rowE g.rot.r2 (var px) (var py) (var pz) + const g.shift.y
  | pz => rowE g.rot.r3 (var px) (var py) (var pz) + const g.shift.z
  | dx => rowE g.rot.r1 (var dx) (var dy) (var dz)
  | dy => rowE g.rot.r2 (var dx) (var dy) (var dz)
  | dz => rowE g.rot.r3 (var dx) (var dy) (var dz)
  | s => keep s

/-- The path length to the surface. -/
noncomputable def pathStage (p : Profile) : Stage
  | path => p.pathE
  | s => keep s

/-- The new position and the attenuation on the way, `optika/sags/_abc.py` lines 109–122. -/
noncomputable def interceptStage : Stage
  | px => var px + var dx * var path
  | py => var py + var dy * var path
  | pz => var pz + var dz * var path
  | intensity => .exp (-var attenuation * Expr.norm (var px + var dx * var path - var px)
      (var py + var dy * var path - var py) (var pz + var dz * var path - var pz)) * var intensity
  | s => keep s

/-- The normal of the surface, `optika/surfaces.py` line 146. -/
noncomputable def normalStage (p : Profile) : Stage
  | nx => p.normalE.1
  | ny => p.normalE.2.1
  | nz => p.normalE.2.2
  | s => keep s

/-- The cosine of the angle between ray and normal. -/
def cosE : Expr := var dx * var nx + var dy * var ny + var dz * var nz

/-- The effective direction of a ray on rulings, `optika/rulings/_rulings.py` lines 100–128 and 187–204. -/
noncomputable def groovesStage (g : Grooves) : Stage :=
  let kx := const g.spacing * const g.normal.x
  let ky := const g.spacing * const g.normal.y
  let kz := const g.spacing * const g.normal.z
  let d := Expr.norm kx ky kz
  let f := Expr.sign cosE * const g.order * var wavelength
  fun
  | dx => var dx + f * (kx / d) / (var index * d)
  | dy => var dy + f * (ky / d) / (var index * d)
  | dz => var dz + f * (kz / d) / (var index * d)
  | s => keep s

/-- The new direction, `optika/materials/_snells_law.py` lines 341–366, wavelength, intensity, attenuation and index,
`optika/surfaces.py` lines 156–190. -/
noncomputable def refractStage (m : Filling) : Stage :=
  let r := var index / m.indexE
  let a2 := var dx * var dx + var dy * var dy + var dz * var dz
  let s := .sqrt (const 1 / (r * r) + cosE * cosE - a2)
  let sgn := -.ifneg cosE (const (-1)) (const 1)
  let d := -cosE + sgn * const (2 * (if m.material.isMirror then 1 else 0) - 1) * s
  fun
  | dx => r * (var dx + d * var nx)
  | dy => r * (var dy + d * var ny)
  | dz => r * (var dz + d * var nz)
  | wavelength => var wavelength / r
  | intensity => var intensity * (const 1 * const 1)
  | attenuation => m.attenuationE
  | index => m.indexE
  | s => keep s

/-- `rays.unvignetted & mask`, `optika/apertures/_apertures.py` lines 82–102. -/
noncomputable def flagStage (w : Window) : Stage
  | flag => .ifneg w.test (const 0) (var flag)
  | s => keep s

/-- The path length and the normal are of no use any more. -/
noncomputable def forgetStage : Stage
  | path => const 0
  | nx => const 0
  | ny => const 0
  | nz => const 0
  | s => keep s

/-- `AbstractSurface.propagate_rays`, `optika/surfaces.py` lines 123–198. -/
noncomputable def Element.program (s : Element) : List Stage :=
  (match s.transformation with
    | none => []
    | some g => [unmoveE g])
  ++ [pathStage s.profile, interceptStage, normalStage s.profile]
  ++ (match s.grooves with
    | none => []
    | some g => [groovesStage g])
  ++ [refractStage s.filling]
  ++ (match s.aperture with
    | none => []
    | some w => [flagStage w])
  ++ (match s.transformation with
    | none => []
    | some g => [moveE g])
  ++ [forgetStage]

/-- The numbers of a ray between two surfaces. -/
noncomputable def Ray.numbers (r : Ray) : Slot → ℝ
  | .px => r.position.x
  | .py => r.position.y
  | .pz => r.position.z
  | .dx => r.direction.x
  | .dy => r.direction.y
  | .dz => r.direction.z
  | .wavelength => r.wavelength
  | .intensity => r.intensity
  | .attenuation => r.attenuation
  | .index => r.index
  | .flag => if r.unvignetted then 1 else 0
  | _ => 0

end Optika
