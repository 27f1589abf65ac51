import Verif.Model.Sags

/-!
# Surfaces with an infinite radius

The default radius of the spherical, conic, cylindrical, parabolic and toroidal surfaces is infinite (`optika/sags`).  Here the
formulas of `Model/Sags` are transcribed once more, for numbers that may be infinite or not a number, with the rules of
IEEE 754.  Of a division by zero it is only recorded that it is not finite.
-/

namespace Optika

/-- A number of IEEE 754: finite, infinite (with its sign), or not a number.  Rounding and the sign of zero are left out. -/
inductive Fl
  | fin (x : ℝ)
  | inf (positive : Bool)
  | nan

namespace Fl

/-- Change of sign. -/
noncomputable def neg : Fl → Fl
  | fin x => fin (-x)
  | inf s => inf !s
  | nan => nan

/-- Sum. -/
noncomputable def add : Fl → Fl → Fl
  | fin x, fin y => fin (x + y)
  | fin _, inf s => inf s
  | inf s, fin _ => inf s
  | inf s, inf t => if s = t then inf s else nan
  | _, _ => nan

/-- Product. -/
noncomputable def mul : Fl → Fl → Fl
  | fin x, fin y => fin (x * y)
  | fin x, inf s => if x = 0 then nan else inf (decide (0 < x) == s)
  | inf s, fin x => if x = 0 then nan else inf (s == decide (0 < x))
  | inf s, inf t => inf (s == t)
  | _, _ => nan

/-- Quotient; `nan` stands for the quotients by zero, all of which are not finite. -/
noncomputable def div : Fl → Fl → Fl
  | fin x, fin y => if y = 0 then nan else fin (x / y)
  | fin _, inf _ => fin 0
  | inf s, fin x => if x = 0 then nan else inf (s == decide (0 < x))
  | _, _ => nan

noncomputable instance : Neg Fl := ⟨neg⟩
noncomputable instance : Add Fl := ⟨add⟩
noncomputable instance : Sub Fl := ⟨fun a b => add a (neg b)⟩
noncomputable instance : Mul Fl := ⟨mul⟩
noncomputable instance : Div Fl := ⟨div⟩

/-- `np.square`. -/
noncomputable def sq (a : Fl) : Fl := a * a

/-- `np.sqrt`. -/
noncomputable def sqrt : Fl → Fl
  | fin x => if x < 0 then nan else fin (Real.sqrt x)
  | inf true => inf true
  | _ => nan

/-- `np.sign`. -/
noncomputable def sign : Fl → Fl
  | fin x => fin (sgn x)
  | inf s => fin (if s then 1 else -1)
  | nan => nan

/-- `np.abs`. -/
noncomputable def abs : Fl → Fl
  | fin x => fin |x|
  | inf _ => inf true
  | nan => nan

/-- `a < b`; false if one of them is not a number. -/
noncomputable def lt : Fl → Fl → Bool
  | fin x, fin y => decide (x < y)
  | fin _, inf s => s
  | inf s, fin _ => !s
  | inf s, inf t => !s && t
  | _, _ => false

/-- `a <= b`; false if one of them is not a number. -/
noncomputable def le : Fl → Fl → Bool
  | fin x, fin y => decide (x ≤ y)
  | fin _, inf s => s
  | inf s, fin _ => !s
  | inf s, inf t => !s || t
  | _, _ => false

end Fl

open Fl

/-- A vector of such numbers. -/
structure FV3 where
  x : Fl
  y : Fl
  z : Fl

namespace FV3

/-- A vector of finite numbers. -/
noncomputable def fin (p : V3) : FV3 := ⟨.fin p.x, .fin p.y, .fin p.z⟩

/-- Difference. -/
noncomputable def sub (a b : FV3) : FV3 := ⟨a.x - b.x, a.y - b.y, a.z - b.z⟩

/-- `@` of vectors. -/
noncomputable def dot (a b : FV3) : Fl := a.x * b.x + a.y * b.y + a.z * b.z

/-- `cross` of vectors. -/
noncomputable def cross (a b : FV3) : FV3 :=
  ⟨a.y * b.z - a.z * b.y, a.z * b.x - a.x * b.z, a.x * b.y - a.y * b.x⟩

/-- `length` of vectors. -/
noncomputable def len (a : FV3) : Fl := Fl.sqrt (sq a.x + sq a.y + sq a.z)

/-- The point `o + u * t`. -/
noncomputable def along (o u : FV3) (t : Fl) : FV3 := ⟨o.x + u.x * t, o.y + u.y * t, o.z + u.z * t⟩

/-- Division by a number. -/
noncomputable def over (a : FV3) (b : Fl) : FV3 := ⟨a.x / b, a.y / b, a.z / b⟩

end FV3

open FV3

/-- `SphericalSag.__call__`, `optika/sags/_spherical.py` lines 112–123. -/
noncomputable def sphereHeightF (radius : Fl) (p : FV3) : Fl :=
  let c := Fl.fin 1 / radius
  let r2 := sq p.x + sq p.y
  c * r2 / (Fl.fin 1 + Fl.sqrt (Fl.fin 1 - sq c * r2))

/-- `SphericalSag.normal`, `optika/sags/_spherical.py` lines 130–146. -/
noncomputable def sphereNormalF (radius : Fl) (p : FV3) : FV3 :=
  let c := Fl.fin 1 / radius
  let nx := c * p.x
  let ny := c * p.y
  ⟨nx, ny, -Fl.sqrt (Fl.fin 1 - sq nx - sq ny)⟩

/-- `SphericalSag.intercept`, `optika/sags/_spherical.py` lines 156–186. -/
noncomputable def sphereInterceptF (r : Fl) (o u : FV3) : FV3 :=
  let pz := o.z - r
  along o u (-(u.x * o.x + u.y * o.y + u.z * pz)
    - Fl.sign (r * u.z) * Fl.sqrt (sq (u.x * o.x + u.y * o.y + u.z * pz) - (sq o.x + sq o.y + sq pz - sq r)))

/-- `AbstractConicSag.__call__`, `optika/sags/_conic.py` lines 35–48. -/
noncomputable def conicHeightF (radius conic : Fl) (p : FV3) : Fl :=
  let c := Fl.fin 1 / radius
  let r2 := sq p.x + sq p.y
  c * r2 / (Fl.fin 1 + Fl.sqrt (Fl.fin 1 - (Fl.fin 1 + conic) * sq c * r2))

/-- `AbstractConicSag.normal`, `optika/sags/_conic.py` lines 54–75. -/
noncomputable def conicNormalF (radius conic : Fl) (p : FV3) : FV3 :=
  let c := Fl.fin 1 / radius
  let g := Fl.sqrt (Fl.fin 1 - (Fl.fin 1 + conic) * sq c * (sq p.x + sq p.y))
  let result : FV3 := ⟨c * p.x / g, c * p.y / g, Fl.fin (-1)⟩
  result.over result.len

/-- `root` of `AbstractConicSag.intercept`, `optika/sags/_conic.py` lines 130–154. -/
noncomputable def conicRootF (c kp1 : Fl) (o u : FV3) (sign : ℝ) : Fl :=
  let a := c * (sq u.x + sq u.y + kp1 * sq u.z)
  let b := Fl.fin 2 * (c * (o.x * u.x + o.y * u.y + kp1 * o.z * u.z) - u.z)
  let cc := c * (sq o.x + sq o.y + kp1 * sq o.z) - Fl.fin 2 * o.z
  let discriminant := sq b - Fl.fin 4 * a * cc
  let real := Fl.le (.fin 0) discriminant
  let sqrtDiscriminant := Fl.sqrt (if real then discriminant else .fin 0)
  let degenerate := Fl.lt (Fl.abs a) (.fin 1e-12)
  let denominator := if degenerate then Fl.fin 1 else Fl.fin 2 * a
  let tLinear := -cc / b
  let t := if degenerate then tLinear else (-b + Fl.fin sign * sqrtDiscriminant) / denominator
  let position := along o u t
  let r2 := sq position.x + sq position.y
  let onVertexSheet := Fl.le (.fin 0) (position.z * (c * r2 - position.z))
  if real && onVertexSheet then t else .inf true

/-- `AbstractConicSag.intercept`, `optika/sags/_conic.py` lines 124–165. -/
noncomputable def conicInterceptF (radius conic : Fl) (o u : FV3) : FV3 :=
  let c := Fl.fin 1 / radius
  let kp1 := Fl.fin 1 + conic
  let ta := conicRootF c kp1 o u (-1)
  let tb := conicRootF c kp1 o u 1
  along o u (if Fl.le (Fl.abs ta) (Fl.abs tb) then ta else tb)

/-- `ParabolicSag.__call__`, inherited from `AbstractConicSag`, with `optika/sags/_parabolic.py` lines 32–38. -/
noncomputable def parabolaHeightF (f : Fl) (p : FV3) : Fl := conicHeightF (Fl.fin 2 * f) (.fin (-1)) p

/-- `ParabolicSag.normal`, `optika/sags/_parabolic.py` lines 45–63. -/
noncomputable def parabolaNormalF (f : Fl) (p : FV3) : FV3 :=
  let r := Fl.fin 2 * f
  let position : FV3 := ⟨p.x, p.y, -r⟩
  (position.over (Fl.sqrt (sq (p.x / r) + sq (p.y / r) + Fl.fin 1))).over r

/-- `ParabolicSag.intercept`, `optika/sags/_parabolic.py` lines 124–153. -/
noncomputable def parabolaInterceptF (f : Fl) (o u : FV3) : FV3 :=
  along o u (if Fl.lt (.fin 1e-10) (sq u.x + sq u.y) then
      (-o.x * u.x - o.y * u.y + Fl.fin 2 * f * u.z - Fl.sign (f * u.z) * Fl.sqrt (
        -sq (o.y * u.x) - sq (o.x * u.y) + Fl.fin 2 * o.y * u.y * (o.x * u.x - Fl.fin 2 * f * u.z)
          + Fl.fin 4 * f * (o.z * (sq u.x + sq u.y) - o.x * u.x * u.z + f * sq u.z))) / (sq u.x + sq u.y)
    else (sq o.x + sq o.y - Fl.fin 4 * f * o.z) / (Fl.fin 4 * f * u.z))

/-- `CylindricalSag.__call__`, `optika/sags/_cylindrical.py` lines 80–91. -/
noncomputable def cylinderHeightF (radius : Fl) (p : FV3) : Fl :=
  let c := Fl.fin 1 / radius
  let r2 := sq p.x
  c * r2 / (Fl.fin 1 + Fl.sqrt (Fl.fin 1 - sq c * r2))

/-- `CylindricalSag.normal`, `optika/sags/_cylindrical.py` lines 98–113. -/
noncomputable def cylinderNormalF (r : Fl) (p : FV3) : FV3 :=
  let nx := p.x / r
  ⟨nx, .fin 0, -Fl.sqrt (Fl.fin 1 - sq nx)⟩

/-- `CylindricalSag.intercept`, `optika/sags/_cylindrical.py` lines 123–155. -/
noncomputable def cylinderInterceptF (r : Fl) (o n : FV3) : FV3 :=
  let b := FV3.sub ⟨.fin 0, .fin 0, r⟩ o
  let a : FV3 := ⟨.fin 0, .fin 1, .fin 0⟩
  let nCrossA := n.cross a
  let nCrossASquared := nCrossA.dot nCrossA
  let negativeB := nCrossA.dot (b.cross a)
  let bSquared := nCrossASquared * sq r
  let fourAC := sq (b.dot nCrossA)
  let twoA := nCrossASquared
  let discriminant := bSquared - fourAC
  let sgn := Fl.sign (r * n.z)
  let d := if Fl.lt (.fin 0) discriminant then (negativeB - sgn * Fl.sqrt discriminant) / twoA else -o.z / n.z
  ⟨o.x + d * n.x, o.y + d * n.y, o.z + d * n.z⟩

/-- `ToroidalSag.__call__`, `optika/sags/_toroidal.py` lines 42–57. -/
noncomputable def torusHeightF (radius r : Fl) (p : FV3) : Fl :=
  let c := Fl.fin 1 / radius
  let x2 := sq p.x
  let y2 := sq p.y
  let zy := c * y2 / (Fl.fin 1 + Fl.sqrt (Fl.fin 1 - sq c * y2))
  r - Fl.sqrt (sq (r - zy) - x2)

/-- `ToroidalSag.normal`, `optika/sags/_toroidal.py` lines 63–88. -/
noncomputable def torusNormalF (radius r : Fl) (p : FV3) : FV3 :=
  let c := Fl.fin 1 / radius
  let x2 := sq p.x
  let y2 := sq p.y
  let g := Fl.sqrt (Fl.fin 1 - sq c * y2)
  let zy := c * y2 / (Fl.fin 1 + g)
  let f := Fl.sqrt (sq (r - zy) - x2)
  let dzdx := p.x / f
  let dzydy := c * p.y / g
  let dzdy := (r - zy) * dzydy / f
  let result : FV3 := ⟨dzdx, dzdy, .fin (-1)⟩
  result.over result.len

end Optika
