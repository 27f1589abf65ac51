import Verif.Model.Mixins
import Verif.Lemmas.Surface

/-!
# C73: objects placed by mixins
-/

namespace Optika
open V3

/-- **C73**: the motions are applied in the order in which the base classes are declared, to positions
and directions in the frame of the object. -/
theorem C73_order (ms : List Mixin) (v : V3) :
    (mixinTransformation ms).point v = ms.foldl (fun v m => m.motion.point v) v ∧
      (mixinTransformation ms).vec v = ms.foldl (fun v m => m.motion.vec v) v := by
  induction ms generalizing v with
  | nil => exact ⟨Rigid.id_point v, Rigid.id_vec v⟩
  | cons m ms ih =>
    simp only [mixinTransformation, Rigid.comp_point, Rigid.comp_vec, List.foldl_cons]
    exact ⟨(ih _).1, (ih _).2⟩

/-- **C73**: the shape of the object does not change. -/
theorem C73_rigid (ms : List Mixin) (v w : V3) :
    ((mixinTransformation ms).point v - (mixinTransformation ms).point w).dot
      ((mixinTransformation ms).point v - (mixinTransformation ms).point w) = (v - w).dot (v - w) := by
  have : (mixinTransformation ms).point v - (mixinTransformation ms).point w
      = (mixinTransformation ms).vec (v - w) := by
    simp only [Rigid.point, Rigid.vec, M3.mulVec_sub]; vring
  rw [this, Rigid.vec_dot_vec]

/-- **C73**: pitch, yaw and roll are turns about the `x`, `y` and `z` axes by the given angle, and a
translation is a displacement by the given vector. -/
theorem C73_motions (θ : ℝ) (t v : V3) :
    (mixinTransformation [.pitchable θ]).point v
      = ⟨v.x, Real.cos θ * v.y - Real.sin θ * v.z, Real.sin θ * v.y + Real.cos θ * v.z⟩ ∧
    (mixinTransformation [.yawable θ]).point v
      = ⟨Real.cos θ * v.x + Real.sin θ * v.z, v.y, Real.cos θ * v.z - Real.sin θ * v.x⟩ ∧
    (mixinTransformation [.rollable θ]).point v
      = ⟨Real.cos θ * v.x - Real.sin θ * v.y, Real.sin θ * v.x + Real.cos θ * v.y, v.z⟩ ∧
    (mixinTransformation [.translatable t]).point v = v + t := by
  simp only [mixinTransformation, Rigid.comp_point, Rigid.id_point, Mixin.motion]
  refine ⟨?_, ?_, ?_, ?_⟩ <;> apply V3.ext <;>
    simp [Rigid.point, rotationX, rotationY, rotationZ, Rigid.translation, Rigid.id, M3.one, M3.mulVec,
      dot] <;> ring

/-- Turns, as opposed to displacements. -/
def Mixin.IsTurn : Mixin → Prop
  | .translatable _ => False
  | _ => True

theorem turns_origin (ms : List Mixin) (h : ∀ m ∈ ms, m.IsTurn) :
    ms.foldl (fun v m => m.motion.point v) (0 : V3) = 0 := by
  induction ms with
  | nil => rfl
  | cons m ms ih =>
    rw [List.foldl_cons]
    have : m.motion.point 0 = 0 := by
      have hm := h m (by simp)
      cases m with
      | translatable t => exact absurd hm (by simp [Mixin.IsTurn])
      | pitchable θ => apply V3.ext <;> simp [Mixin.motion, Rigid.point, rotationX, M3.mulVec, dot]
      | yawable θ => apply V3.ext <;> simp [Mixin.motion, Rigid.point, rotationY, M3.mulVec, dot]
      | rollable θ => apply V3.ext <;> simp [Mixin.motion, Rigid.point, rotationZ, M3.mulVec, dot]
    rw [this]
    exact ih fun m hm => h m (by simp [hm])

/-- **C73** (partial): the origin of the object is at its `translation` if `Translatable` is the last of
the base classes. -/
theorem C73_origin_partial (ms : List Mixin) (h : ∀ m ∈ ms, m.IsTurn) (t : V3) :
    (mixinTransformation (ms ++ [.translatable t])).point 0 = t := by
  rw [(C73_order _ _).1, List.foldl_append, turns_origin ms h]
  apply V3.ext <;> simp [Mixin.motion, Rigid.point, Rigid.translation, Rigid.id, M3.one, M3.mulVec, dot]

/-- Non-vacuity of `C73_origin_partial`. -/
example : ∀ m ∈ [Mixin.pitchable 1, .yawable 2, .rollable 3], m.IsTurn := by simp [Mixin.IsTurn]

/-- Disagreement with C73: with the base classes in the order `Translatable`, `Rollable` the
displacement is turned as well. -/
theorem C73_origin_counterexample :
    (mixinTransformation [.translatable ⟨1, 0, 0⟩, .rollable (Real.pi / 2)]).point 0 = ⟨0, 1, 0⟩ := by
  rw [(C73_order _ _).1]
  apply V3.ext <;> simp [Mixin.motion, Rigid.point, Rigid.translation, rotationZ, Rigid.id, M3.one,
    M3.mulVec, dot]

end Optika
