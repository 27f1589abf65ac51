import Verif.Spec.Rigid
import Mathlib.Analysis.SpecialFunctions.Complex.Arg
import Mathlib.Data.Int.Log
import Mathlib.Algebra.Order.Round

/-!
# Apertures

`optika/apertures/_apertures.py`: masks (`__call__`), bounds and wires of the apertures.  One
element of each (broadcast) array at a time; units are dropped.
-/

namespace Optika

/-- `transformation.inverse(position)` if there is a transformation (lines 297–298, 450–451,
645–646, 744–745, 946–947). -/
def toLocal (g : Option Rigid) (p : V3) : V3 := g.elim p fun g => g.ipoint p

/-- `transformation(position)` if there is a transformation. -/
def toParent (g : Option Rigid) (p : V3) : V3 := g.elim p fun g => g.point p

/-- `mask[inverted] = ~mask[inverted]; mask[~active] = True` (lines 311–312, 475–476, 660–661,
770–771, 965–966). -/
def applyFlags (active inverted mask : Bool) : Bool :=
  let mask := if inverted then !mask else mask
  if !active then true else mask

/-- Length of the `xy` part of a position. -/
noncomputable def xyLength (p : V3) : ℝ := Real.sqrt (p.x ^ 2 + p.y ^ 2)

/-- `CircularAperture.__call__`, lines 292–314. -/
noncomputable def circleMask (radius : ℝ) (active inverted : Bool) (g : Option Rigid)
    (p : V3) : Bool :=
  applyFlags active inverted (decide (xyLength (toLocal g p) ≤ radius))

/-- `np.arctan2(y, x)`. -/
noncomputable def arctan2 (y x : ℝ) : ℝ := Complex.arg ⟨x, y⟩

/-- `x % m` of Python and numpy: the result has the sign of `m`. -/
noncomputable def pyMod (x m : ℝ) : ℝ := x - m * ⌊x / m⌋

/-- `CircularSectorAperture.__call__`, lines 438–480. -/
noncomputable def sectorMask (radius angleStart angleStop : ℝ) (active inverted : Bool)
    (g : Option Rigid) (p : V3) : Bool :=
  let q := toLocal g p
  let maskRadius := decide (xyLength q ≤ radius)
  let angle := arctan2 q.y q.x
  let anglePositive := pyMod angle (2 * Real.pi)
  let angleNegative := pyMod angle (-(2 * Real.pi))
  let maskPositive := decide (angleStart < anglePositive) && decide (anglePositive < angleStop)
  let maskNegative := decide (angleStart < angleNegative) && decide (angleNegative < angleStop)
  applyFlags active inverted (maskRadius && (maskPositive || maskNegative))

/-- `EllipticalAperture.__call__`, lines 640–663, for radii that are not zero (a division by a
zero radius is not finite, or a NaN at the centre, and the comparison is false either way). -/
noncomputable def ellipseMask (rx ry : ℝ) (active inverted : Bool) (g : Option Rigid)
    (p : V3) : Bool :=
  let q := toLocal g p
  applyFlags active inverted
    (decide (rx ≠ 0 ∧ ry ≠ 0 ∧ (q.x / rx) ^ 2 + (q.y / ry) ^ 2 ≤ 1))

/-- `RectangularAperture.__call__`, lines 941–968. -/
noncomputable def rectangleMask (hx hy : ℝ) (active inverted : Bool) (g : Option Rigid)
    (p : V3) : Bool :=
  let q := toLocal g p
  applyFlags active inverted
    (decide (-hx ≤ q.x) && decide (-hy ≤ q.y) && decide (q.x ≤ hx) && decide (q.y ≤ hy))

/-- `AbstractPolygonalAperture.__call__`, lines 739–778.  The point-in-polygon test belongs to
named_arrays and is a parameter. -/
def polygonMask (pointInPolygon : List V3 → V3 → Bool) (vertices : List V3)
    (active inverted : Bool) (g : Option Rigid) (p : V3) : Bool :=
  if active then applyFlags active inverted (pointInPolygon vertices (toLocal g p)) else true

/-! ### Bounds -/

/-- `CircularAperture.bound_lower`, lines 316–325: the radius is subtracted from all three
components of the centre. -/
def circleLower (radius : ℝ) (g : Option Rigid) : V3 :=
  let c := toParent g 0
  ⟨c.x - radius, c.y - radius, c.z - radius⟩

/-- `CircularAperture.bound_upper`, lines 327–336. -/
def circleUpper (radius : ℝ) (g : Option Rigid) : V3 :=
  let c := toParent g 0
  ⟨c.x + radius, c.y + radius, c.z + radius⟩

/-- The two axes of an ellipse (or of a sector) in parent coordinates, lines 505–509 and
677–684. -/
def axisA (rx : ℝ) (g : Option Rigid) : V3 := toParent g ⟨rx, 0, 0⟩ - toParent g 0
@[inherit_doc axisA]
def axisB (ry : ℝ) (g : Option Rigid) : V3 := toParent g ⟨0, ry, 0⟩ - toParent g 0

/-- `EllipticalAperture._bound_center_half`, lines 665–692. -/
noncomputable def ellipseHalf (rx ry : ℝ) (g : Option Rigid) : V3 :=
  let a := axisA rx g
  let b := axisB ry g
  ⟨Real.sqrt (a.x ^ 2 + b.x ^ 2), Real.sqrt (a.y ^ 2 + b.y ^ 2), Real.sqrt (a.z ^ 2 + b.z ^ 2)⟩

/-- `EllipticalAperture.bound_lower`, lines 694–697. -/
noncomputable def ellipseLower (rx ry : ℝ) (g : Option Rigid) : V3 :=
  toParent g 0 - ellipseHalf rx ry g

/-- `EllipticalAperture.bound_upper`, lines 699–702. -/
noncomputable def ellipseUpper (rx ry : ℝ) (g : Option Rigid) : V3 :=
  toParent g 0 + ellipseHalf rx ry g

/-- Candidates for the extrema of a sector along one axis, lines 514–531: `c` is the
component of the apex, `a` and `b` those of the axes. -/
noncomputable def sectorCandidates (c a b angleStart angleStop : ℝ) : List ℝ :=
  let span := pyMod (angleStop - angleStart) (2 * Real.pi)
  let point (θ : ℝ) := c + a * Real.cos θ + b * Real.sin θ
  let critical := arctan2 b a
  let keep (θ : ℝ) :=
    if pyMod (θ - angleStart) (2 * Real.pi) ≤ span then point θ else point angleStart
  [c, point angleStart, point angleStop, keep critical, keep (critical + Real.pi)]

/-- `functools.reduce(np.minimum, l)`; an exception for an empty list. -/
noncomputable def reduceMin : List ℝ → ℝ
  | [] => 0
  | x :: l => l.foldl min x

/-- `functools.reduce(np.maximum, l)`. -/
noncomputable def reduceMax : List ℝ → ℝ
  | [] => 0
  | x :: l => l.foldl max x

/-- `CircularSectorAperture.bound_lower`, lines 482–541. -/
noncomputable def sectorLower (radius angleStart angleStop : ℝ) (g : Option Rigid) : V3 :=
  let c := toParent g 0
  let a := axisA radius g
  let b := axisB radius g
  ⟨reduceMin (sectorCandidates c.x a.x b.x angleStart angleStop),
   reduceMin (sectorCandidates c.y a.y b.y angleStart angleStop),
   reduceMin (sectorCandidates c.z a.z b.z angleStart angleStop)⟩

/-- `CircularSectorAperture.bound_upper`, lines 482–546. -/
noncomputable def sectorUpper (radius angleStart angleStop : ℝ) (g : Option Rigid) : V3 :=
  let c := toParent g 0
  let a := axisA radius g
  let b := axisB radius g
  ⟨reduceMax (sectorCandidates c.x a.x b.x angleStart angleStop),
   reduceMax (sectorCandidates c.y a.y b.y angleStart angleStop),
   reduceMax (sectorCandidates c.z a.z b.z angleStart angleStop)⟩

/-- `RectangularAperture.vertices`, lines 970–986. -/
noncomputable def rectangleVertices (hx hy : ℝ) : List V3 :=
  (List.range 4).map fun k : ℕ =>
    let az : ℝ := k * (Real.pi / 2) + Real.pi / 4
    ⟨Real.sqrt 2 * Real.cos az * hx, Real.sqrt 2 * Real.sin az * hy, 0⟩

/-- `AbstractRegularPolygonalAperture.vertices`, lines 1009–1027; eight vertices for the
octagon. -/
noncomputable def regularVertices (radius : ℝ) (n : ℕ) : List V3 :=
  (List.range n).map fun k : ℕ =>
    let az : ℝ := 2 * Real.pi * k / n
    ⟨radius * Real.cos az, radius * Real.sin az, 0⟩

/-- `AbstractIsoscelesTrapezoidalAperture.vertices`, lines 1109–1134. -/
noncomputable def trapezoidVertices (xLeft xRight angle : ℝ) : List V3 :=
  let m := Real.tan (angle / 2)
  [⟨xLeft, m * xLeft, 0⟩, ⟨xRight, m * xRight, 0⟩, ⟨xRight, -(m * xRight), 0⟩,
   ⟨xLeft, -(m * xLeft), 0⟩]

/-- `AbstractPolygonalAperture.bound_lower`, lines 780–785. -/
noncomputable def polygonLower (vertices : List V3) (g : Option Rigid) : V3 :=
  let v := vertices.map (toParent g)
  ⟨reduceMin (v.map V3.x), reduceMin (v.map V3.y), reduceMin (v.map V3.z)⟩

/-- `AbstractPolygonalAperture.bound_upper`, lines 787–792. -/
noncomputable def polygonUpper (vertices : List V3) (g : Option Rigid) : V3 :=
  let v := vertices.map (toParent g)
  ⟨reduceMax (v.map V3.x), reduceMax (v.map V3.y), reduceMax (v.map V3.z)⟩

/-! ### Wires -/

/-- `na.linspace(0, 1, num, endpoint)` as `np.linspace` computes it. -/
noncomputable def linspace01 (num : ℕ) (endpoint : Bool) : List ℝ :=
  let div := if endpoint then num - 1 else num
  (List.range num).map fun k : ℕ => if div = 0 then (k : ℝ) else (k : ℝ) / div

/-- `int(x)`: truncation towards zero. -/
def pyInt (x : ℚ) : ℤ := if 0 ≤ x then ⌊x⌋ else ⌈x⌉

/-- The number of samples of each side and whether the end point is included: the loops of
lines 565–576 and 808–825.  `rnd` is the rounding of the floating point operations (`id` for
exact arithmetic); `per` is `num / num_sides`, `v` the index of the side, `cum` the cumulative
number of samples. -/
def sideCounts (rnd : ℚ → ℚ) (num : ℕ) (per : ℚ) : (remaining v : ℕ) → (cum : ℤ) →
    List (ℕ × Bool)
  | 0, _, _ => []
  | k + 1, v, cum =>
    let nv := pyInt (rnd (rnd (((v + 1 : ℕ) : ℚ) * per) - (cum : ℚ)))
    let cum' := cum + nv
    (nv.toNat, decide (cum' = (num : ℤ))) :: sideCounts rnd num per k (v + 1) cum'

/-- Samples along the sides: `side v t` is the point at parameter `t` of side `v`. -/
noncomputable def sampleSides (side : ℕ → ℝ → V3) : (v : ℕ) → List (ℕ × Bool) → List V3
  | _, [] => []
  | v, (n, e) :: l => (linspace01 n e).map (side v) ++ sampleSides side (v + 1) l

/-- The side of a polygon from vertex `v` to the next one, lines 801–806 and 826–829. -/
noncomputable def polygonSide (vertices : List V3) (v : ℕ) (t : ℝ) : V3 :=
  let left := vertices.getD v 0
  let right := vertices.getD ((v + 1) % vertices.length) 0
  left + t • (right - left)

/-- `AbstractPolygonalAperture.wire`, lines 794–835. -/
noncomputable def polygonWire (rnd : ℚ → ℚ) (vertices : List V3) (g : Option Rigid) (num : ℕ) :
    List V3 :=
  let n := vertices.length
  (sampleSides (polygonSide vertices) 0
    (sideCounts rnd num (rnd ((num : ℚ) / (n : ℚ))) n 0 0)).map (toParent g)

/-- The three parts of the boundary of a sector, lines 577–591. -/
noncomputable def sectorSide (radius angleStart angleStop : ℝ) (s : ℕ) (t : ℝ) : V3 :=
  let ρ := if s = 0 then radius * t else if s = 1 then radius else radius * (1 - t)
  let θ := if s = 0 then angleStart else
    if s = 1 then angleStart + (angleStop - angleStart) * t else angleStop
  ⟨ρ * Real.cos θ, ρ * Real.sin θ, 0⟩

/-- `CircularSectorAperture.wire`, lines 548–594. -/
noncomputable def sectorWire (rnd : ℚ → ℚ) (radius angleStart angleStop : ℝ) (g : Option Rigid)
    (num : ℕ) : List V3 :=
  (sampleSides (sectorSide radius angleStart angleStop) 0
    (sideCounts rnd num (rnd ((num : ℚ) / 3)) 3 0 0)).map (toParent g)

/-- `EllipticalAperture.wire`, lines 704–721, and `CircularAperture.wire`, lines 338–355, with
equal radii. -/
noncomputable def ellipseWire (rx ry : ℝ) (g : Option Rigid) (num : ℕ) : List V3 :=
  ((linspace01 num true).map fun t =>
    (⟨rx * Real.cos (2 * Real.pi * t), ry * Real.sin (2 * Real.pi * t), 0⟩ : V3)).map (toParent g)

/-- Round half to even. -/
def roundHalfEven (x : ℚ) : ℤ :=
  let f := ⌊x⌋
  if x - f < 1 / 2 then f else if 1 / 2 < x - f then f + 1 else if f % 2 = 0 then f else f + 1

/-- Rounding of a rational number to binary64 (53 significant bits, no overflow or underflow),
for numbers that are not negative. -/
def binary64 (x : ℚ) : ℚ :=
  if x ≤ 0 then x else
    let ulp : ℚ := (2 : ℚ) ^ (Int.log 2 x - 52)
    roundHalfEven (x / ulp) * ulp

end Optika
