import Verif.Spec.Vec

/-!
# Specification of apertures
-/

namespace Optika

/-- What the two flags of an aperture mean: an inactive aperture accepts everything, an active
one accepts the inside, or, if inverted, the outside. -/
def Accepts (active inverted : Bool) (inside : Prop) : Prop :=
  active = true → (inside ↔ inverted = false)

/-- `p` is componentwise between `lo` and `hi`. -/
def Within (lo p hi : V3) : Prop :=
  (lo.x ≤ p.x ∧ p.x ≤ hi.x) ∧ (lo.y ≤ p.y ∧ p.y ≤ hi.y) ∧ (lo.z ≤ p.z ∧ p.z ≤ hi.z)

/-- `p` is a convex combination of the points of `l`: the points can be weighted with
non-negative weights of sum one. -/
def InHull (l : List V3) (p : V3) : Prop :=
  ∃ w : List ℝ, w.length = l.length ∧ (∀ a ∈ w, 0 ≤ a) ∧ w.sum = 1 ∧
    p = ((w.zip l).map fun a => a.1 • a.2).foldr (· + ·) 0

/-- `p` is on the closed segment from `a` to `b`. -/
def OnSegment (a b p : V3) : Prop := ∃ t : ℝ, 0 ≤ t ∧ t ≤ 1 ∧ p = a + t • (b - a)

end Optika
