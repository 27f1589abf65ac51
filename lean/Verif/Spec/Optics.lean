import Verif.Spec.Vec

/-!
# Laws of geometrical optics, stated without reference to the code
-/

namespace Optika
open V3

/-- `b` is the direction of a wave leaving a surface with unit normal `u` into a medium of
index `n2`, produced by an incident wave with direction `a` in a medium of index `n1`, when
the surface adds the tangential momentum `k`: unit length, and matching of the tangential
wave vectors. -/
structure PhaseMatched (a b : V3) (n1 n2 : ℝ) (u k : V3) : Prop where
  unit : b.dot b = 1
  tangential : n2 • b.tang u = n1 • a.tang u + k

/-- `b` leaves through the side of the surface that `a` was heading to. -/
def SameSide (a b u : V3) : Prop := 0 ≤ a.dot u * b.dot u

/-- `b` leaves through the side of the surface that `a` came from. -/
def OppositeSide (a b u : V3) : Prop := a.dot u * b.dot u ≤ 0

end Optika
