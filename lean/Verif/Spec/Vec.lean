import Mathlib.Analysis.SpecialFunctions.Sqrt
import Mathlib.Tactic.Ring
import Mathlib.Tactic.Linarith
import Mathlib.Tactic.LinearCombination
import Mathlib.Tactic.FieldSimp
import Mathlib.Tactic.Positivity
import Mathlib.Tactic.NormNum

/-!
# Three dimensional vectors

Plain real 3-vectors (`na.Cartesian3dVectorArray`, one element at a time) and the few
operations on them that are needed to read the property statements.
-/

namespace Optika

/-- A real 3-vector. -/
@[ext]
structure V3 where
  x : ℝ
  y : ℝ
  z : ℝ

namespace V3

instance : Zero V3 := ⟨⟨0, 0, 0⟩⟩
instance : Add V3 := ⟨fun a b => ⟨a.x + b.x, a.y + b.y, a.z + b.z⟩⟩
instance : Sub V3 := ⟨fun a b => ⟨a.x - b.x, a.y - b.y, a.z - b.z⟩⟩
instance : Neg V3 := ⟨fun a => ⟨-a.x, -a.y, -a.z⟩⟩
noncomputable instance : SMul ℝ V3 := ⟨fun c a => ⟨c * a.x, c * a.y, c * a.z⟩⟩

@[simp] theorem zero_x : (0 : V3).x = 0 := rfl
@[simp] theorem zero_y : (0 : V3).y = 0 := rfl
@[simp] theorem zero_z : (0 : V3).z = 0 := rfl
@[simp] theorem add_x (a b : V3) : (a + b).x = a.x + b.x := rfl
@[simp] theorem add_y (a b : V3) : (a + b).y = a.y + b.y := rfl
@[simp] theorem add_z (a b : V3) : (a + b).z = a.z + b.z := rfl
@[simp] theorem sub_x (a b : V3) : (a - b).x = a.x - b.x := rfl
@[simp] theorem sub_y (a b : V3) : (a - b).y = a.y - b.y := rfl
@[simp] theorem sub_z (a b : V3) : (a - b).z = a.z - b.z := rfl
@[simp] theorem neg_x (a : V3) : (-a).x = -a.x := rfl
@[simp] theorem neg_y (a : V3) : (-a).y = -a.y := rfl
@[simp] theorem neg_z (a : V3) : (-a).z = -a.z := rfl
@[simp] theorem smul_x (c : ℝ) (a : V3) : (c • a).x = c * a.x := rfl
@[simp] theorem smul_y (c : ℝ) (a : V3) : (c • a).y = c * a.y := rfl
@[simp] theorem smul_z (c : ℝ) (a : V3) : (c • a).z = c * a.z := rfl

/-- Scalar product. -/
def dot (a b : V3) : ℝ := a.x * b.x + a.y * b.y + a.z * b.z

/-- Vector product. -/
def cross (a b : V3) : V3 :=
  ⟨a.y * b.z - a.z * b.y, a.z * b.x - a.x * b.z, a.x * b.y - a.y * b.x⟩

/-- Euclidean length (`.length` in named_arrays). -/
noncomputable def len (a : V3) : ℝ := Real.sqrt (a.dot a)

/-- The part of `v` tangential to the plane with unit normal `u`. -/
noncomputable def tang (v u : V3) : V3 := v - (v.dot u) • u

@[simp] theorem cross_x (a b : V3) : (a.cross b).x = a.y * b.z - a.z * b.y := rfl
@[simp] theorem cross_y (a b : V3) : (a.cross b).y = a.z * b.x - a.x * b.z := rfl
@[simp] theorem cross_z (a b : V3) : (a.cross b).z = a.x * b.y - a.y * b.x := rfl

theorem dot_comm (a b : V3) : a.dot b = b.dot a := by unfold dot; ring
theorem dot_add (a b c : V3) : a.dot (b + c) = a.dot b + a.dot c := by simp [dot]; ring
theorem add_dot (a b c : V3) : (a + b).dot c = a.dot c + b.dot c := by simp [dot]; ring
theorem sub_dot (a b c : V3) : (a - b).dot c = a.dot c - b.dot c := by simp [dot]; ring
theorem dot_sub (a b c : V3) : a.dot (b - c) = a.dot b - a.dot c := by simp [dot]; ring
theorem smul_dot (k : ℝ) (a b : V3) : (k • a).dot b = k * a.dot b := by simp [dot]; ring
theorem dot_smul (k : ℝ) (a b : V3) : a.dot (k • b) = k * a.dot b := by simp [dot]; ring
theorem neg_dot (a b : V3) : (-a).dot b = -a.dot b := by simp [dot]; ring
theorem dot_neg (a b : V3) : a.dot (-b) = -a.dot b := by simp [dot]; ring
theorem dot_self_nonneg (a : V3) : 0 ≤ a.dot a := by
  unfold dot; nlinarith [sq_nonneg a.x, sq_nonneg a.y, sq_nonneg a.z]

theorem len_nonneg (a : V3) : 0 ≤ a.len := Real.sqrt_nonneg _
theorem len_sq (a : V3) : a.len * a.len = a.dot a := Real.mul_self_sqrt a.dot_self_nonneg

theorem dot_self_eq_zero {a : V3} (h : a.dot a = 0) : a = 0 := by
  unfold dot at h
  have hx : a.x = 0 := by nlinarith [sq_nonneg a.x, sq_nonneg a.y, sq_nonneg a.z]
  have hy : a.y = 0 := by nlinarith [sq_nonneg a.x, sq_nonneg a.y, sq_nonneg a.z]
  have hz : a.z = 0 := by nlinarith [sq_nonneg a.x, sq_nonneg a.y, sq_nonneg a.z]
  ext <;> simp [hx, hy, hz]

theorem len_smul (k : ℝ) (a : V3) : (k • a).len = |k| * a.len := by
  unfold len
  rw [smul_dot, dot_smul, ← mul_assoc, Real.sqrt_mul (mul_self_nonneg k), Real.sqrt_mul_self_eq_abs]

end V3

/-- Unfold vector operations to components. -/
macro "vsimp" loc:(Lean.Parser.Tactic.location)? : tactic => `(tactic| simp only [V3.add_x, V3.add_y, V3.add_z, V3.sub_x, V3.sub_y,
  V3.sub_z, V3.neg_x, V3.neg_y, V3.neg_z, V3.smul_x, V3.smul_y, V3.smul_z, V3.zero_x, V3.zero_y,
  V3.zero_z, V3.cross_x, V3.cross_y, V3.cross_z, V3.tang] $(loc)?)

/-- Prove a vector identity componentwise by `ring`. -/
macro "vring" : tactic => `(tactic| (apply V3.ext <;> vsimp <;> ring))

end Optika
