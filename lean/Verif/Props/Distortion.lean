import Verif.Model.System

/-!
# C27: linear distortion
-/

namespace Optika
open Real

theorem SimpleDistortion.matrix_eq (m : SimpleDistortion) (hp : m.plateScale ≠ 0)
    (hd : m.dispersion ≠ 0) :
    m.matrix = some ⟨⟨1, 0, 0⟩, ⟨1 / m.dispersion, cos m.angle / m.plateScale,
      -(sin m.angle / m.plateScale)⟩, ⟨0, sin m.angle / m.plateScale,
      cos m.angle / m.plateScale⟩⟩ := by
  simp [SimpleDistortion.matrix, div?, hp, hd]

/-- **C27**: what the distortion does.  The scene is rotated by the angle and scaled by the plate
scale, and displaced along `x` in proportion to the distance from the reference wavelength; the
wavelength is not changed. -/
theorem C27_distort (m : SimpleDistortion) (hp : m.plateScale ≠ 0) (hd : m.dispersion ≠ 0)
    (c : Spectral) : m.distort c = some
      ⟨c.wavelength,
       m.reference.x + (c.wavelength - m.reference.wavelength) / m.dispersion +
        (cos m.angle * c.x - sin m.angle * c.y) / m.plateScale,
       m.reference.y + (sin m.angle * c.x + cos m.angle * c.y) / m.plateScale⟩ := by
  unfold SimpleDistortion.distort
  rw [m.matrix_eq hp hd]
  simp only [Option.bind_eq_bind, Option.bind_some, Option.pure_def, Option.some.injEq]
  apply Spectral.ext <;>
    simp only [SpectralMatrix.apply, Spectral.add, Spectral.sub, SimpleDistortion.center] <;> ring

/-- **C27**: the field centre at the reference wavelength maps to the reference position. -/
theorem C27_reference (m : SimpleDistortion) (hp : m.plateScale ≠ 0) (hd : m.dispersion ≠ 0) :
    m.distort ⟨m.reference.wavelength, 0, 0⟩ = some m.reference := by
  rw [C27_distort m hp hd]
  congr 1
  apply Spectral.ext <;> simp

theorem SimpleDistortion.undistort_eq (m : SimpleDistortion) (hp : m.plateScale ≠ 0)
    (hd : m.dispersion ≠ 0) (c : Spectral) : m.undistort c = some
      ⟨c.wavelength,
       m.plateScale * (cos m.angle * (c.x - m.reference.x -
          (c.wavelength - m.reference.wavelength) / m.dispersion) +
        sin m.angle * (c.y - m.reference.y)),
       m.plateScale * (-sin m.angle * (c.x - m.reference.x -
          (c.wavelength - m.reference.wavelength) / m.dispersion) +
        cos m.angle * (c.y - m.reference.y))⟩ := by
  unfold SimpleDistortion.undistort
  rw [m.matrix_eq hp hd]
  have hsc := sin_sq_add_cos_sq m.angle
  have hdet : (SpectralMatrix.mk ⟨1, 0, 0⟩ ⟨1 / m.dispersion, cos m.angle / m.plateScale,
      -(sin m.angle / m.plateScale)⟩ ⟨0, sin m.angle / m.plateScale,
      cos m.angle / m.plateScale⟩).det = 1 / m.plateScale ^ 2 := by
    simp only [SpectralMatrix.det]
    field_simp
    linear_combination m.dispersion * hsc
  have hne : (1 : ℝ) / m.plateScale ^ 2 ≠ 0 := by positivity
  simp only [Option.bind_eq_bind, Option.bind_some, Option.pure_def, SpectralMatrix.inverse, hdet,
    if_neg hne, Option.some.injEq]
  apply Spectral.ext <;>
    simp only [SpectralMatrix.apply, Spectral.add, Spectral.sub, SimpleDistortion.center] <;>
    field_simp
  · linear_combination (c.wavelength - m.reference.wavelength) * hsc
  · ring
  · ring

/-- **C27**: `undistort` is the two-sided inverse of `distort`, and both leave the wavelength
alone. -/
theorem C27_inverse (m : SimpleDistortion) (hp : m.plateScale ≠ 0) (hd : m.dispersion ≠ 0)
    (c : Spectral) :
    (m.distort c).bind m.undistort = some c ∧ (m.undistort c).bind m.distort = some c ∧
    (∀ d, m.distort c = some d → d.wavelength = c.wavelength) ∧
    (∀ d, m.undistort c = some d → d.wavelength = c.wavelength) := by
  have hsc := sin_sq_add_cos_sq m.angle
  refine ⟨?_, ?_, ?_, ?_⟩
  · rw [C27_distort m hp hd, Option.bind_some, m.undistort_eq hp hd, Option.some.injEq]
    apply Spectral.ext
    · rfl
    · field_simp; linear_combination m.dispersion * c.x * hsc
    · field_simp; linear_combination m.dispersion * c.y * hsc
  · rw [m.undistort_eq hp hd, Option.bind_some, C27_distort m hp hd, Option.some.injEq]
    apply Spectral.ext
    · rfl
    · field_simp
      linear_combination ((c.x - m.reference.x) * m.dispersion -
        (c.wavelength - m.reference.wavelength)) * hsc
    · field_simp
      linear_combination ((c.y - m.reference.y) * m.dispersion) * hsc
  · intro d h; rw [C27_distort m hp hd] at h; simp only [Option.some.injEq] at h; rw [← h]
  · intro d h; rw [m.undistort_eq hp hd] at h; simp only [Option.some.injEq] at h; rw [← h]

/-- **C27**: without plate scale or dispersion neither direction is defined. -/
theorem C27_undefined (m : SimpleDistortion) (h : m.plateScale = 0 ∨ m.dispersion = 0)
    (c : Spectral) : m.distort c = none ∧ m.undistort c = none := by
  have : m.matrix = none := by
    unfold SimpleDistortion.matrix
    rcases h with h | h <;> simp [div?, h]
  simp [SimpleDistortion.distort, SimpleDistortion.undistort, this]

example : (⟨2, 4, 0, ⟨100, 5, 6⟩⟩ : SimpleDistortion).distort ⟨108, 10, 20⟩
    = some ⟨108, 12, 16⟩ := by
  rw [C27_distort _ (by norm_num) (by norm_num)]
  norm_num

end Optika
