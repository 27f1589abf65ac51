import Verif.Model.Snell

namespace Optika
open V3

/-- Closed form of the model of Snell's law. -/
theorem snellsLaw_eq_some {a u b : V3} {n1 n2 : ℝ} {m : Bool} :
    snellsLaw a n1 n2 m u = some b ↔
      n2 ≠ 0 ∧ n1 ≠ 0 ∧ 0 ≤ (n2 / n1) ^ 2 + (a.dot u) ^ 2 - a.dot a ∧
      b = (n1 / n2) • (a + (-(a.dot u) + (if m then -1 else 1) * copysign1 (a.dot u) *
        Real.sqrt ((n2 / n1) ^ 2 + (a.dot u) ^ 2 - a.dot a)) • u) := by
  unfold snellsLaw
  have key : n2 ≠ 0 → n1 ≠ 0 → 1 / (n1 / n2 * (n1 / n2)) = (n2 / n1) ^ 2 := by
    intro h2 h1; field_simp
  have hd : a.x * u.x + a.y * u.y + a.z * u.z = a.dot u := rfl
  have hd' : a.x * a.x + a.y * a.y + a.z * a.z = a.dot a := rfl
  rw [hd, hd']
  constructor
  · intro h
    simp only [Option.bind_eq_bind, Option.bind_eq_some_iff, div?_eq_some, sqrt?_eq_some] at h
    obtain ⟨r, ⟨h2, rfl⟩, q, ⟨h1, rfl⟩, s, ⟨hs, rfl⟩, h⟩ := h
    have h1' : n1 ≠ 0 := by rintro rfl; simp at h1
    rw [key h2 h1'] at hs h
    refine ⟨h2, h1', by simpa [pow_two] using hs, ?_⟩
    simp only [Option.pure_def, Option.some.injEq] at h
    rw [← h]
    have e : (n2 / n1) ^ 2 + a.dot u * a.dot u - a.dot a
        = (n2 / n1) ^ 2 + a.dot u ^ 2 - a.dot a := by ring
    rw [e]
    generalize Real.sqrt _ = s
    cases m <;> ext <;>
      simp only [V3.smul_x, V3.smul_y, V3.smul_z, V3.add_x, V3.add_y, V3.add_z,
        Bool.false_eq_true, if_true, if_false] <;> ring
  · rintro ⟨h2, h1, hs, rfl⟩
    simp only [Option.bind_eq_bind, Option.bind_eq_some_iff, div?_eq_some, sqrt?_eq_some]
    refine ⟨n1 / n2, ⟨h2, rfl⟩, _, ⟨?_, rfl⟩, _, ⟨?_, rfl⟩, ?_⟩
    · exact mul_ne_zero (div_ne_zero h1 h2) (div_ne_zero h1 h2)
    · rw [key h2 h1]; simpa [pow_two] using hs
    · rw [key h2 h1]
      have e : (n2 / n1) ^ 2 + a.dot u * a.dot u - a.dot a
          = (n2 / n1) ^ 2 + a.dot u ^ 2 - a.dot a := by ring
      rw [e]
      simp only [Option.pure_def, Option.some.injEq]
      generalize Real.sqrt _ = s
      cases m <;> ext <;>
        simp only [V3.smul_x, V3.smul_y, V3.smul_z, V3.add_x, V3.add_y, V3.add_z,
          Bool.false_eq_true, if_true, if_false] <;> ring

theorem copysign1_sq (x : ℝ) : copysign1 x * copysign1 x = 1 := by
  unfold copysign1; split <;> norm_num

theorem copysign1_mul_self_nonneg (x : ℝ) : 0 ≤ copysign1 x * x := by
  unfold copysign1; split <;> linarith

theorem copysign1_neg {x : ℝ} (h : x ≠ 0) : copysign1 (-x) = -copysign1 x := by
  unfold copysign1
  rcases lt_or_gt_of_ne h with h' | h'
  · rw [if_neg (by linarith), if_pos h']; norm_num
  · rw [if_pos (by linarith), if_neg (by linarith)]

end Optika
