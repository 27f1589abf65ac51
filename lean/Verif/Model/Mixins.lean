import Verif.Spec.Rigid
import Mathlib.Analysis.SpecialFunctions.Trigonometric.Basic

/-!
# Mixins for the placement of objects

`optika/mixins.py` lines 166–248.
-/

namespace Optika
open V3

/-- `na.transformations.Cartesian3dRotationX`. -/
noncomputable def rotationX (θ : ℝ) : Rigid where
  rot := ⟨⟨1, 0, 0⟩, ⟨0, Real.cos θ, -Real.sin θ⟩, ⟨0, Real.sin θ, Real.cos θ⟩⟩
  shift := 0
  left_inv v := by
    apply V3.ext <;> simp only [M3.mulVec, M3.transpose, dot] <;> first | ring | skip
    · linear_combination v.y * Real.cos_sq_add_sin_sq θ
    · linear_combination v.z * Real.cos_sq_add_sin_sq θ
  right_inv v := by
    apply V3.ext <;> simp only [M3.mulVec, M3.transpose, dot] <;> first | ring | skip
    · linear_combination v.y * Real.cos_sq_add_sin_sq θ
    · linear_combination v.z * Real.cos_sq_add_sin_sq θ

/-- `na.transformations.Cartesian3dRotationY`. -/
noncomputable def rotationY (θ : ℝ) : Rigid where
  rot := ⟨⟨Real.cos θ, 0, Real.sin θ⟩, ⟨0, 1, 0⟩, ⟨-Real.sin θ, 0, Real.cos θ⟩⟩
  shift := 0
  left_inv v := by
    apply V3.ext <;> simp only [M3.mulVec, M3.transpose, dot] <;> first | ring | skip
    · linear_combination v.x * Real.cos_sq_add_sin_sq θ
    · linear_combination v.z * Real.cos_sq_add_sin_sq θ
  right_inv v := by
    apply V3.ext <;> simp only [M3.mulVec, M3.transpose, dot] <;> first | ring | skip
    · linear_combination v.x * Real.cos_sq_add_sin_sq θ
    · linear_combination v.z * Real.cos_sq_add_sin_sq θ

/-- `na.transformations.Cartesian3dRotationZ`. -/
noncomputable def rotationZ (θ : ℝ) : Rigid where
  rot := ⟨⟨Real.cos θ, -Real.sin θ, 0⟩, ⟨Real.sin θ, Real.cos θ, 0⟩, ⟨0, 0, 1⟩⟩
  shift := 0
  left_inv v := by
    apply V3.ext <;> simp only [M3.mulVec, M3.transpose, dot] <;> first | ring | skip
    · linear_combination v.x * Real.cos_sq_add_sin_sq θ
    · linear_combination v.y * Real.cos_sq_add_sin_sq θ
  right_inv v := by
    apply V3.ext <;> simp only [M3.mulVec, M3.transpose, dot] <;> first | ring | skip
    · linear_combination v.x * Real.cos_sq_add_sin_sq θ
    · linear_combination v.y * Real.cos_sq_add_sin_sq θ

/-- A base class with the value of its attribute. -/
inductive Mixin
  | translatable (translation : V3)
  | pitchable (pitch : ℝ)
  | yawable (yaw : ℝ)
  | rollable (roll : ℝ)

/-- The motion that a mixin appends, lines 191–194, 208–212, 226–230 and 244–248. -/
noncomputable def Mixin.motion : Mixin → Rigid
  | .translatable t => .translation t
  | .pitchable θ => rotationX θ
  | .yawable θ => rotationY θ
  | .rollable θ => rotationZ θ

/-- `transformation` of a class with the given base classes in the order of their declaration: each is
`super().transformation @ motion`, where `super()` is the next base class, and `Transformable` returns
the identity (lines 166–177). -/
noncomputable def mixinTransformation : List Mixin → Rigid
  | [] => Rigid.id
  | m :: ms => (mixinTransformation ms).comp m.motion

end Optika
