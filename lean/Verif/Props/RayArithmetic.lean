import Verif.Model.RayArithmetic

/-!
# C79: rays are moved by matrices and vectors

Specification: the points of a ray are `position + t • direction`; moving the ray moves each of its
points, and changes neither its light nor its medium.
-/

namespace Optika

/-- The point of a ray at parameter `t`. -/
noncomputable def Ray.at (r : Ray) (t : ℝ) : V3 := r.position + t • r.direction

/-- Everything about a ray except where it is and where it goes. -/
def Ray.SameLight (r s : Ray) : Prop :=
  s.wavelength = r.wavelength ∧ s.intensity = r.intensity ∧ s.attenuation = r.attenuation
    ∧ s.index = r.index ∧ s.unvignetted = r.unvignetted

/-- `matrix @ rays + vector` moves every point of the ray by the affine map, and only that. -/
theorem C79_affine (m : M3) (v : V3) (r : Ray) :
    ∃ s, affineRays m v r = .value s ∧ (∀ t, s.at t = m.mulVec (r.at t) + v) ∧ r.SameLight s := by
  refine ⟨{ r with position := m.mulVec r.position + v, direction := m.mulVec r.direction },
    rfl, fun t => ?_, rfl, rfl, rfl, rfl, rfl⟩
  simp only [Ray.at, M3.mulVec_add, M3.mulVec_smul]
  vring

/-- The transformation of a surface acts on rays by these operations. -/
theorem C79_move (g : Rigid) (r : Ray) : affineRays g.rot g.shift r = .value (r.move g) := rfl

/-- The inverse of a transformation, `matrix.inverse @ rays + matrix.inverse @ (-vector)`, brings the
rays back. -/
theorem C79_inverse (g : Rigid) (r : Ray) :
    affineRays g.inv.rot g.inv.shift (r.move g) = .value r := by
  have h : (r.move g).move g.inv = r := by
    have hp : g.inv.point (g.point r.position) = r.position := by
      rw [← g.ipoint_point r.position]
      simp only [Rigid.inv, Rigid.point, Rigid.ipoint, M3.mulVec_sub, M3.mulVec_add, g.left_inv,
        g.right_inv]
      vring
    have hv : g.inv.vec (g.vec r.direction) = r.direction := g.ivec_vec r.direction
    simp only [Ray.move, hp, hv]
  rw [C79_move, h]

/-- Shifting rays does not depend on the order of the operands, moves every point of them by the
vector, and does not turn them. -/
theorem C79_shift_partial (v : V3) (r : Ray) :
    ∃ s, rayUfunc .add (.rays r) (.vector v) = .value s
      ∧ rayUfunc .add (.vector v) (.rays r) = .value s
      ∧ (∀ t, s.at t = r.at t + v) ∧ s.direction = r.direction ∧ r.SameLight s := by
  refine ⟨{ r with position := r.position + v }, rfl, ?_, fun t => ?_, rfl, rfl, rfl, rfl, rfl, rfl⟩
  · have : v + r.position = r.position + v := by vring
    simp only [rayUfunc, rayAdd, this]
  · simp only [Ray.at]; vring

/-- A matrix on the right undoes a rotation on the left. -/
theorem C79_right (g : Rigid) (r s : Ray) (h : rayMatmul (.matrix g.rot) (.rays r) = .value s) :
    rayMatmul (.rays s) (.matrix g.rot) = .value r := by
  have key : ∀ w : V3, (g.rot.mulVec w).matmulRow g.rot = w := by
    intro w
    conv_rhs => rw [← g.left_inv w]
    apply V3.ext <;> simp only [V3.matmulRow, M3.mulVec, M3.transpose, V3.dot] <;> ring
  simp only [rayMatmul, RayResult.value.injEq] at h
  subst h
  simp only [rayMatmul, key]

/-- Two matrices act as their product, from the left and from the right. -/
theorem C79_product (m n : M3) (r s : Ray) :
    (rayMatmul (.matrix n) (.rays r) = .value s →
      rayMatmul (.matrix m) (.rays s) = rayMatmul (.matrix (m.mul n)) (.rays r))
    ∧ (rayMatmul (.rays r) (.matrix m) = .value s →
      rayMatmul (.rays s) (.matrix n) = rayMatmul (.rays r) (.matrix (m.mul n))) := by
  constructor <;> intro h <;> simp only [rayMatmul, RayResult.value.injEq] at h <;> subst h
  · simp only [rayMatmul, M3.mulVec_mul]
  · have key : ∀ w : V3, (w.matmulRow m).matmulRow n = w.matmulRow (m.mul n) := by
      intro w
      apply V3.ext <;> simp only [V3.matmulRow, M3.mul, M3.transpose, V3.dot] <;> ring
    simp only [rayMatmul, key]

/-- Operands that make no sense are refused, and no rays come out of functions other than sums. -/
theorem C79_refused (r : Ray) (x : ℝ) (v : V3) :
    rayMatmul (.rays r) (.vector v) = .notImplemented
    ∧ rayMatmul (.vector v) (.rays r) = .notImplemented
    ∧ rayUfunc .add (.rays r) (.scalar x) = .notImplemented
    ∧ rayUfunc .add (.scalar x) (.rays r) = .notImplemented
    ∧ ∀ f, f ≠ RayFunction.add → ∀ a b s, rayUfunc f a b ≠ .value s := by
  refine ⟨rfl, rfl, rfl, rfl, fun f hf a b s => ?_⟩
  cases f <;> simp_all [rayUfunc]

/-- The claim is false for differences: `rays - vector` is neither the rays shifted back nor
refused, but `None`. -/
theorem C79_subtract_counterexample :
    ∃ (r : Ray) (v : V3), (∃ s, rayUfunc .add (.rays r) (.vector (-v)) = .value s)
      ∧ (¬ ∃ s, rayUfunc .subtract (.rays r) (.vector v) = .value s)
      ∧ rayUfunc .subtract (.rays r) (.vector v) ≠ .notImplemented :=
  ⟨⟨1, 0, 0, 1, 0, 1, true⟩, ⟨0, 0, 1⟩, ⟨_, rfl⟩, fun ⟨_, h⟩ => (by simp [rayUfunc] at h),
    by simp [rayUfunc]⟩

/-- A quarter turn about the axis and a shift along it. -/
example : ∃ s, affineRays ⟨⟨0, -1, 0⟩, ⟨1, 0, 0⟩, ⟨0, 0, 1⟩⟩ ⟨0, 0, 5⟩
    ⟨1, ⟨1, 0, 0⟩, ⟨0, 1, 0⟩, 1, 0, 1, true⟩ = .value s
      ∧ s.position = ⟨0, 1, 5⟩ ∧ s.direction = ⟨-1, 0, 0⟩ := by
  refine ⟨_, rfl, ?_, ?_⟩ <;> apply V3.ext <;> norm_num [M3.mulVec, V3.dot]

end Optika
