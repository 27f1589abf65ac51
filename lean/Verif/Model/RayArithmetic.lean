import Verif.Model.Surface

/-!
# Arithmetic of rays

`optika/rays/_ray_vectors.py` lines 105–187: matrices times rays and sums of rays and vectors, by
which transformations act on rays.  Rays are one ray at a time.
-/

namespace Optika

/-- What may be an operand. -/
inductive RayOperand where
  | rays (r : Ray)
  | matrix (m : M3)
  | vector (v : V3)
  | scalar (x : ℝ)

/-- What an operation returns: a value, `NotImplemented` (numpy raises `TypeError` if no operand
implements the operation), or `None`. -/
inductive RayResult where
  | value (r : Ray)
  | notImplemented
  | nothing

/-- `vector @ matrix` of named_arrays: the vector is a row. -/
def V3.matmulRow (v : V3) (m : M3) : V3 :=
  ⟨v.x * m.r1.x + v.y * m.r2.x + v.z * m.r3.x, v.x * m.r1.y + v.y * m.r2.y + v.z * m.r3.y,
    v.x * m.r1.z + v.y * m.r2.z + v.z * m.r3.z⟩

/-- `AbstractRayVectorArray.__array_matmul__`, lines 105–140.  `super().__array_matmul__` of
named_arrays is taken to be `NotImplemented` for these operands. -/
def rayMatmul : RayOperand → RayOperand → RayResult
  | .rays x1, .matrix x2 =>
    .value { x1 with position := x1.position.matmulRow x2, direction := x1.direction.matmulRow x2 }
  | .rays _, _ => .notImplemented
  | .matrix x1, .rays x2 =>
    .value { x2 with position := x1.mulVec x2.position, direction := x1.mulVec x2.direction }
  | _, _ => .notImplemented

/-- `AbstractRayVectorArray.__array_add__`, lines 142–166. -/
def rayAdd : RayOperand → RayOperand → RayResult
  | .rays x1, .vector x2 => .value { x1 with position := x1.position + x2 }
  | .rays _, _ => .notImplemented
  | .vector x1, .rays x2 => .value { x2 with position := x1 + x2.position }
  | _, _ => .notImplemented

/-- The functions of numpy. -/
inductive RayFunction where
  | add
  | subtract
  | multiply

/-- `AbstractRayVectorArray.__array_ufunc__`, lines 168–187, for one ray and one vector;
`super().__array_ufunc__` of named_arrays is `NotImplemented` for operands of different types.
Functions other than `numpy.add` reach the end of the method. -/
def rayUfunc : RayFunction → RayOperand → RayOperand → RayResult
  | .add, x1, x2 => rayAdd x1 x2
  | _, _, _ => .nothing

/-- `transformation(rays)` of named_arrays for a matrix and a vector: `matrix @ rays + vector`. -/
def affineRays (m : M3) (v : V3) (r : Ray) : RayResult :=
  match rayMatmul (.matrix m) (.rays r) with
  | .value r => rayUfunc .add (.rays r) (.vector v)
  | e => e

end Optika
