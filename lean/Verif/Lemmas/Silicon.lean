import Verif.Spec.Silicon
import Verif.Model.Silicon
import Mathlib.MeasureTheory.Integral.IntegralEqImproper
import Mathlib.Analysis.SpecialFunctions.ImproperIntegrals
import Mathlib.Analysis.Convex.SpecificFunctions.Basic
import Mathlib.Tactic.LinearCombination

/-!
# Lemmas on silicon sensors
-/

namespace Optika
open MeasureTheory intervalIntegral

theorem exp_decay_hasDerivAt (a z : ℝ) :
    HasDerivAt (fun z => Real.exp (-(a * z))) (-a * Real.exp (-(a * z))) z := by
  have h : HasDerivAt (fun z : ℝ => -(a * z)) (-a) z := by
    simpa using ((hasDerivAt_id z).const_mul a).fun_neg
  simpa [mul_comm] using h.exp

/-- Moments of the exponential distribution on an interval. -/
theorem integral_poly_exp {a : ℝ} (ha : a ≠ 0) (p q r t : ℝ) :
    ∫ z in (0 : ℝ)..t, (p + q * z + r * z ^ 2) * Real.exp (-(a * z))
      = (p / a + q / a ^ 2 + 2 * r / a ^ 3)
        - (p / a + q / a ^ 2 + 2 * r / a ^ 3 + (q / a + 2 * r / a ^ 2) * t + r / a * t ^ 2)
          * Real.exp (-(a * t)) := by
  have h : ∀ z ∈ Set.uIcc 0 t, HasDerivAt
      (fun z => -((p / a + q / a ^ 2 + 2 * r / a ^ 3 + (q / a + 2 * r / a ^ 2) * z + r / a * z ^ 2)
        * Real.exp (-(a * z))))
      ((p + q * z + r * z ^ 2) * Real.exp (-(a * z))) z := by
    intro z _
    have h1 : HasDerivAt (fun z => p / a + q / a ^ 2 + 2 * r / a ^ 3
        + (q / a + 2 * r / a ^ 2) * z + r / a * z ^ 2)
        ((q / a + 2 * r / a ^ 2) + r / a * (2 * z)) z := by
      have h2 := ((hasDerivAt_id z).const_mul (q / a + 2 * r / a ^ 2)).const_add
        (p / a + q / a ^ 2 + 2 * r / a ^ 3)
      have h3 := (hasDerivAt_pow 2 z).const_mul (r / a)
      have := h2.fun_add h3
      simpa using this
    have h4 := (h1.fun_mul (exp_decay_hasDerivAt a z)).fun_neg
    refine h4.congr_deriv ?_
    field_simp
    ring
  rw [integral_eq_sub_of_hasDerivAt h (Continuous.intervalIntegrable (by fun_prop) _ _)]
  simp
  ring

theorem integral_exp_decay {a : ℝ} (ha : a ≠ 0) (t : ℝ) :
    ∫ z in (0 : ℝ)..t, Real.exp (-(a * z)) = (1 - Real.exp (-(a * t))) / a := by
  have := integral_poly_exp ha 1 0 0 t
  simp only [zero_mul, add_zero, one_mul, zero_div, mul_zero] at this
  rw [this]
  field_simp

theorem integral_exp_Ioi {a : ℝ} (ha : 0 < a) (t : ℝ) :
    ∫ z in Set.Ioi t, Real.exp (-(a * z)) = Real.exp (-(a * t)) / a := by
  have h := integral_exp_mul_Ioi (a := -a) (by linarith) t
  simp only [neg_mul] at h
  rw [h]
  field_simp

theorem integrableOn_exp_Ioi {a : ℝ} (ha : 0 < a) (t : ℝ) :
    IntegrableOn (fun z => Real.exp (-(a * z))) (Set.Ioi t) := by
  simpa using exp_neg_integrableOn_Ioi t ha

/-- Means of quantities that are one below some depth. -/
theorem absorptionMean_split {a W : ℝ} (ha : 0 < a) (hW : 0 ≤ W) {q : ℝ → ℝ}
    (hq : ∀ z, W ≤ z → q z = 1)
    (hi : IntervalIntegrable (fun z => q z * Real.exp (-(a * z))) volume 0 W) :
    absorptionMean a q = a * (∫ z in (0 : ℝ)..W, q z * Real.exp (-(a * z))) + Real.exp (-(a * W)) := by
  unfold absorptionMean
  have h1 : ∫ z in Set.Ioi W, q z * Real.exp (-(a * z)) = Real.exp (-(a * W)) / a := by
    rw [← integral_exp_Ioi ha]
    refine setIntegral_congr_fun measurableSet_Ioi fun z hz => ?_
    simp only [hq z (le_of_lt hz), one_mul]
  have h2 : IntegrableOn (fun z => q z * Real.exp (-(a * z))) (Set.Ioi W) := by
    refine (integrableOn_exp_Ioi ha W).congr_fun (fun z hz => ?_) measurableSet_Ioi
    simp only [hq z (le_of_lt hz), one_mul]
  rw [← Set.Ioc_union_Ioi_eq_Ioi hW, setIntegral_union Set.Ioc_disjoint_Ioi_same measurableSet_Ioi
    ((intervalIntegrable_iff_integrableOn_Ioc_of_le hW).1 hi) h2, h1,
    Set.Ioc_union_Ioi_eq_Ioi hW, integral_exp_Ioi ha, ← integral_of_le hW]
  simp
  field_simp

/-- The Stern profile and its square are polynomials in the implant layer. -/
theorem sternProfile_poly {η₀ W z : ℝ} (hW : 0 < W) (hz : z ≤ W) :
    sternProfile η₀ W z = η₀ + (1 - η₀) / W * z + 0 * z ^ 2 := by
  unfold sternProfile
  split_ifs with h
  · ring
  · have : z = W := le_antisymm hz (not_lt.1 h)
    subst this
    field_simp
    ring

theorem sternProfile_deep {η₀ W z : ℝ} (hz : W ≤ z) : sternProfile η₀ W z = 1 := by
  unfold sternProfile
  rw [if_neg (not_lt.2 hz)]

theorem sternProfile_mean {a W : ℝ} (ha : 0 < a) (hW : 0 < W) (η₀ : ℝ) :
    absorptionMean a (sternProfile η₀ W)
      = η₀ + (1 - η₀) / (a * W) * (1 - Real.exp (-(a * W))) := by
  have e : Set.EqOn (fun z => sternProfile η₀ W z * Real.exp (-(a * z)))
      (fun z => (η₀ + (1 - η₀) / W * z + 0 * z ^ 2) * Real.exp (-(a * z))) (Set.uIcc 0 W) := by
    intro z hz
    rw [Set.uIcc_of_le hW.le] at hz
    simp only [sternProfile_poly hW hz.2]
  rw [absorptionMean_split ha hW.le (fun z hz => sternProfile_deep hz)
    ((Continuous.intervalIntegrable (by fun_prop) _ _).congr
      (fun z hz => (e (Set.uIoc_subset_uIcc hz)).symm)),
    integral_congr e, integral_poly_exp ha.ne']
  have := hW.ne'
  have := ha.ne'
  field_simp
  ring

/-- The mean square of the Stern profile. -/
theorem sternProfile_sq_mean {a W : ℝ} (ha : 0 < a) (hW : 0 < W) (η₀ : ℝ) :
    absorptionMean a (fun z => sternProfile η₀ W z ^ 2)
      = η₀ ^ 2 + 2 * η₀ * (1 - η₀) / (a * W) * (1 - Real.exp (-(a * W)))
        + 2 * (1 - η₀) ^ 2 / (a * W) ^ 2 * (1 - (1 + a * W) * Real.exp (-(a * W))) := by
  have e : Set.EqOn (fun z => sternProfile η₀ W z ^ 2 * Real.exp (-(a * z)))
      (fun z => (η₀ ^ 2 + 2 * η₀ * (1 - η₀) / W * z + (1 - η₀) ^ 2 / W ^ 2 * z ^ 2)
        * Real.exp (-(a * z))) (Set.uIcc 0 W) := by
    intro z hz
    rw [Set.uIcc_of_le hW.le] at hz
    simp only [sternProfile_poly hW hz.2]
    ring
  rw [absorptionMean_split ha hW.le (fun z hz => by rw [sternProfile_deep hz, one_pow])
    ((Continuous.intervalIntegrable (by fun_prop) _ _).congr
      (fun z hz => (e (Set.uIoc_subset_uIcc hz)).symm)),
    integral_congr e, integral_poly_exp ha.ne']
  have := hW.ne'
  have := ha.ne'
  field_simp
  ring

/-- `(1 - e^{-x}) / x` lies between zero and one and decreases. -/
theorem decay_ratio_pos {x : ℝ} (hx : 0 < x) : 0 < (1 - Real.exp (-x)) / x := by
  have : Real.exp (-x) < 1 := by rw [Real.exp_lt_one_iff]; linarith
  apply div_pos _ hx
  linarith

theorem decay_ratio_lt_one {x : ℝ} (hx : 0 < x) : (1 - Real.exp (-x)) / x < 1 := by
  rw [div_lt_one hx]
  have := Real.add_one_lt_exp (x := -x) (by linarith)
  linarith

theorem decay_ratio_anti {x y : ℝ} (hx : 0 < x) (h : x < y) :
    (1 - Real.exp (-y)) / y < (1 - Real.exp (-x)) / x := by
  have hy : 0 < y := hx.trans h
  have hc := strictConvexOn_exp.2 (Set.mem_univ (-y)) (Set.mem_univ 0) (by linarith)
    (show 0 < x / y by positivity)
    (show 0 < 1 - x / y by rw [sub_pos, div_lt_one hy]; exact h) (by ring)
  simp only [smul_eq_mul, mul_zero, add_zero, Real.exp_zero, mul_one] at hc
  have e : x / y * -y = -x := by field_simp
  rw [e] at hc
  rw [div_lt_div_iff₀ hy hx]
  have e2 : x / y * Real.exp (-y) + (1 - x / y) = (x * Real.exp (-y) + (y - x)) / y := by
    field_simp
  rw [e2, lt_div_iff₀ hy] at hc
  nlinarith

end Optika
