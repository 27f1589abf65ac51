import Verif.Spec.Vec
import Mathlib.Analysis.Calculus.Deriv.Basic

/-!
# What it means for a point to lie on a surface, and to be normal to it
-/

namespace Optika
open Filter Topology

/-- `q` lies on the straight line through `o` with direction `u`. -/
def OnLine (o u q : V3) : Prop := ∃ t : ℝ, q = o + t • u

/-- `q` lies on the graph of the height function `height` (which ignores `q.z`). -/
def OnGraph (height : V3 → Option ℝ) (q : V3) : Prop := height q = some q.z

/-- The partial derivative of a height function in `x`. -/
def HasSlopeX (height : V3 → Option ℝ) (p : V3) (d : ℝ) : Prop :=
  ∃ h : ℝ → ℝ, (∀ᶠ s in 𝓝 p.x, height ⟨s, p.y, p.z⟩ = some (h s)) ∧ HasDerivAt h d p.x

/-- The partial derivative of a height function in `y`. -/
def HasSlopeY (height : V3 → Option ℝ) (p : V3) (d : ℝ) : Prop :=
  ∃ h : ℝ → ℝ, (∀ᶠ s in 𝓝 p.y, height ⟨p.x, s, p.z⟩ = some (h s)) ∧ HasDerivAt h d p.y

/-- `n` is the unit vector perpendicular to the graph of `height` at `p` that points to
negative `z`: orthogonal to both tangent vectors `(1, 0, ∂z/∂x)` and `(0, 1, ∂z/∂y)`. -/
structure IsGraphNormal (height : V3 → Option ℝ) (p n : V3) : Prop where
  unit : n.dot n = 1
  down : n.z < 0
  tangents : ∃ dx dy, HasSlopeX height p dx ∧ HasSlopeY height p dy ∧
    n.dot ⟨1, 0, dx⟩ = 0 ∧ n.dot ⟨0, 1, dy⟩ = 0

end Optika
