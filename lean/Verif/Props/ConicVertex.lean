import Verif.Props.Sags

/-!
# Rays through the vertex of a conic

`ConicSag.intercept` solves a linear equation instead of the quadratic one if its leading
coefficient is small.  The point it finds lies beside the surface, and the test that is to select
the sheet of the vertex rejects it.
-/

namespace Optika
open V3

/-- The vertex is on the line of sight and on the surface of a paraboloid written as a `ConicSag`,
but almost axial rays do not find it. -/
theorem C08_conic_vertex_counterexample {R : ℝ} {u : V3} (hR : R ≠ 0) (hz : 1 / 2 ≤ u.z)
    (hw : 0 < u.x ^ 2 + u.y ^ 2) (hsmall : |1 / R * (u.x ^ 2 + u.y ^ 2)| < 1e-12) :
    OnGraph (conicSag R (-1)).height ⟨0, 0, 0⟩ ∧ OnLine (-u) u ⟨0, 0, 0⟩ ∧
      (conicSag R (-1)).intercept (-u) u = none := by
  refine ⟨?_, ⟨1, by vring⟩, ?_⟩
  · have h1 : sqrt? (1 - (1 + -1) * (1 / R) ^ 2 * ((0 : ℝ) ^ 2 + 0 ^ 2)) = some 1 := by
      rw [sqrt?_of_nonneg (by norm_num)]; norm_num
    simp only [OnGraph, conicSag, conicHeight, div?_of_ne hR, Option.bind_eq_bind, Option.bind_some, h1]
    rw [div?_of_ne (by norm_num)]
    norm_num
  · have hc : (1 / R) ≠ 0 := one_div_ne_zero hR
    generalize hRc : 1 / R = c at hc hsmall
    set w := u.x ^ 2 + u.y ^ 2 with hwd
    have hcw : c * w ≠ 0 := mul_ne_zero hc hw.ne'
    have hs := abs_lt.1 hsmall
    norm_num at hs
    have none_root : ∀ σ, conicRoot c 0 (-u) u σ = none := by
      intro σ
      unfold conicRoot
      simp only [zero_mul, add_zero, neg_x, neg_y, neg_z, Option.bind_eq_bind]
      rw [← hwd]
      split_ifs with h1 
      · rfl
      · have hb : 2 * (c * (-u.x * u.x + -u.y * u.y) - u.z) ≠ 0 := by
          have : 2 * (c * (-u.x * u.x + -u.y * u.y) - u.z) = -2 * (c * w + u.z) := by rw [hwd]; ring
          rw [this]
          have : 0 < c * w + u.z := by linarith
          positivity
        rw [div?_of_ne hb]
        simp only [Option.bind_some]
        rw [if_neg]
        rw [not_le]
        have hD : 0 < c * w + u.z := by linarith
        generalize ht : -(c * ((-u.x) ^ 2 + (-u.y) ^ 2) - 2 * -u.z)
          / (2 * (c * (-u.x * u.x + -u.y * u.y) - u.z)) = t
        have ht1 : t - 1 = -(c * w) / (2 * (c * w + u.z)) := by
          rw [← ht]
          have e1 : -(c * ((-u.x) ^ 2 + (-u.y) ^ 2) - 2 * -u.z) = -(c * w + 2 * u.z) := by
            rw [hwd]; ring
          have e2 : 2 * (c * (-u.x * u.x + -u.y * u.y) - u.z) = -(2 * (c * w + u.z)) := by
            rw [hwd]; ring
          rw [e1, e2]; field_simp; ring
        have e3 : (-u.z + u.z * t) * (c * ((-u.x + u.x * t) ^ 2 + (-u.y + u.y * t) ^ 2)
            - (-u.z + u.z * t)) = u.z * (t - 1) ^ 2 * (c * w * (t - 1) - u.z) := by rw [hwd]; ring
        rw [e3]
        have h2 : c * w * (t - 1) ≤ 0 := by
          rw [ht1]
          have : c * w * (-(c * w) / (2 * (c * w + u.z))) = -((c * w) ^ 2 / (2 * (c * w + u.z))) := by
            ring
          rw [this]
          have : 0 ≤ (c * w) ^ 2 / (2 * (c * w + u.z)) := by positivity
          linarith
        have h3 : 0 < (t - 1) ^ 2 := by
          have : t - 1 ≠ 0 := by rw [ht1]; exact div_ne_zero (neg_ne_zero.2 hcw) (by positivity)
          positivity
        have h4 : 0 < u.z * (t - 1) ^ 2 := mul_pos (by linarith) h3
        exact mul_neg_of_pos_of_neg h4 (by linarith)
    simp only [conicSag, conicIntercept, div?_of_ne hR, Option.bind_eq_bind, Option.bind_some, hRc,
      show (1 : ℝ) + -1 = 0 by norm_num, conicPath, none_root]
    rfl

/-- A paraboloid of radius one metre and a ray inclined by a tenth of an arcsecond. -/
example : (conicSag 1 (-1)).intercept ⟨-1e-7, 0, -1⟩ ⟨1e-7, 0, 1⟩ = none := by
  have := (C08_conic_vertex_counterexample (R := 1) (u := ⟨1e-7, 0, 1⟩) one_ne_zero (by norm_num)
    (by norm_num) (by norm_num [abs_lt])).2.2
  have e : -(⟨1e-7, 0, 1⟩ : V3) = ⟨-1e-7, 0, -1⟩ := by apply V3.ext <;> simp
  rwa [e] at this

end Optika
