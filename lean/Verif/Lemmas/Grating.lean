import Verif.Spec.Grating
import Mathlib.Analysis.Fourier.AddCircle
import Mathlib.Analysis.SpecialFunctions.Integrals.Basic
import Mathlib.Analysis.Real.Pi.Bounds

/-!
# Fourier coefficients of thin gratings
-/

namespace Optika
open MeasureTheory Set Complex

/-! ### Thin gratings conserve energy -/

/-- The efficiencies of a thin grating of any shape sum to one. -/
theorem thinGrating_hasSum {h : ℝ → ℝ} (hm : Measurable h) (phase : ℝ) :
    HasSum (thinGrating h phase) 1 := by
  set f : ℝ → ℂ := fun x => exp (I * (phase * h x : ℝ)) with hf
  have hn : ∀ x, ‖f x‖ = 1 := fun x => by
    rw [hf]; simp only; rw [mul_comm, norm_exp_ofReal_mul_I]
  have hL2 : MemLp f 2 (volume.restrict (Ioc (0 : ℝ) 1)) := by
    refine MemLp.of_bound ?_ 1 (Filter.Eventually.of_forall fun x => (hn x).le)
    have : Measurable f := by fun_prop
    exact this.aestronglyMeasurable
  have hs := hasSum_sq_fourierCoeffOn (zero_lt_one (α := ℝ)) hL2
  simp only [hn, one_pow, intervalIntegral.integral_const, sub_zero, inv_one, one_smul] at hs
  convert hs using 1
  ext i
  unfold thinGrating
  congr 2
  rw [fourierCoeffOn_eq_integral]
  simp only [sub_zero, div_one, one_smul]
  refine intervalIntegral.integral_congr fun x _ => ?_
  rw [fourier_coe_apply, smul_eq_mul, mul_comm, hf]
  congr 2
  push_cast
  ring

theorem thinGrating_mem {h : ℝ → ℝ} (hm : Measurable h) (phase : ℝ) (i : ℤ) :
    0 ≤ thinGrating h phase i ∧ thinGrating h phase i ≤ 1 := by
  have h0 : ∀ j, 0 ≤ thinGrating h phase j := fun j => by unfold thinGrating; positivity
  exact ⟨h0 i, le_hasSum (thinGrating_hasSum hm phase) i fun j _ => h0 j⟩

theorem integral_cexp_01 {k : ℝ} (hk : k ≠ 0) (a b : ℝ) :
    ∫ x in a..b, exp (-(k * x : ℝ) * I) = (exp (-(k * b : ℝ) * I) - exp (-(k * a : ℝ) * I)) / (-k * I) := by
  have hc : (-(k : ℂ) * I) ≠ 0 := mul_ne_zero (neg_ne_zero.2 (ofReal_ne_zero.2 hk)) I_ne_zero
  have e : ∀ x : ℝ, exp (-(k * x : ℝ) * I) = exp (-(k : ℂ) * I * x) := fun x => by
    congr 1; push_cast; ring
  simp_rw [e]
  exact integral_exp_mul_complex hc

theorem norm_sq_one_sub_exp (t : ℝ) : ‖1 - exp (t * I)‖ ^ 2 = 2 * (1 - Real.cos t) := by
  rw [← normSq_eq_norm_sq, normSq_apply]
  simp only [sub_re, one_re, sub_im, one_im, exp_ofReal_mul_I_re, exp_ofReal_mul_I_im]
  nlinarith [Real.sin_sq_add_cos_sq t]

theorem two_pi_int_ne {i : ℤ} (hi : i ≠ 0) : 2 * Real.pi * (i : ℝ) ≠ 0 := by
  have : (i : ℝ) ≠ 0 := by exact_mod_cast hi
  have := Real.pi_ne_zero
  positivity

theorem exp_two_pi_int (i : ℤ) : exp (-(2 * Real.pi * i : ℝ) * I) = 1 := by
  rw [Complex.exp_eq_one_iff]
  refine ⟨-i, ?_⟩
  push_cast; ring

/-- The coefficient of a rectangular groove. -/
theorem rectangular_integral {D : ℝ} (h0 : 0 ≤ D) (h1 : D ≤ 1) (phase : ℝ) (i : ℤ) :
    ∫ x in (0 : ℝ)..1, exp (I * (phase * rectangularGroove D x : ℝ)) * exp (-(2 * Real.pi * i * x : ℝ) * I)
      = exp (phase * I) * (∫ x in (0 : ℝ)..D, exp (-(2 * Real.pi * i * x : ℝ) * I))
        + ∫ x in D..1, exp (-(2 * Real.pi * i * x : ℝ) * I) := by
  have hc : Continuous fun x : ℝ => exp (-(2 * Real.pi * i * x : ℝ) * I) := by fun_prop
  have e1 : ∀ x ∈ uIoc (0 : ℝ) D, exp (I * (phase * rectangularGroove D x : ℝ))
      * exp (-(2 * Real.pi * i * x : ℝ) * I) = exp (phase * I) * exp (-(2 * Real.pi * i * x : ℝ) * I) := by
    intro x hx
    rw [uIoc_of_le h0] at hx
    rw [rectangularGroove, if_pos hx.2, mul_one, mul_comm I]
  have e2 : ∀ x ∈ uIoc D 1, exp (I * (phase * rectangularGroove D x : ℝ))
      * exp (-(2 * Real.pi * i * x : ℝ) * I) = exp (-(2 * Real.pi * i * x : ℝ) * I) := by
    intro x hx
    rw [uIoc_of_le h1] at hx
    rw [rectangularGroove, if_neg (not_le.2 hx.1)]
    simp
  have i1 : IntervalIntegrable (fun x : ℝ => exp (I * (phase * rectangularGroove D x : ℝ))
      * exp (-(2 * Real.pi * i * x : ℝ) * I)) volume 0 D :=
    (Continuous.intervalIntegrable (by fun_prop : Continuous fun x : ℝ =>
      exp (phase * I) * exp (-(2 * Real.pi * i * x : ℝ) * I)) 0 D).congr fun x hx => (e1 x hx).symm
  have i2 : IntervalIntegrable (fun x : ℝ => exp (I * (phase * rectangularGroove D x : ℝ))
      * exp (-(2 * Real.pi * i * x : ℝ) * I)) volume D 1 :=
    (hc.intervalIntegrable D 1).congr fun x hx => (e2 x hx).symm
  rw [← intervalIntegral.integral_add_adjacent_intervals i1 i2,
    intervalIntegral.integral_congr_ae (Filter.Eventually.of_forall e1),
    intervalIntegral.integral_congr_ae (Filter.Eventually.of_forall e2),
    intervalIntegral.integral_const_mul]

theorem norm_exp_neg_mul_I (t : ℝ) : ‖exp (-(t : ℂ) * I)‖ = 1 := by
  have := norm_exp_ofReal_mul_I (-t)
  rwa [ofReal_neg] at this

/-- The efficiencies of a rectangular groove. -/
theorem thinGrating_rectangular {D : ℝ} (h0 : 0 ≤ D) (h1 : D ≤ 1) (phase : ℝ) (i : ℤ) :
    thinGrating (rectangularGroove D) phase i =
      if i = 0 then 1 - 4 * D * (1 - D) * Real.sin (phase / 2) ^ 2
      else 2 / (i * Real.pi) ^ 2 * (1 - Real.cos (i * (2 * Real.pi * D)))
        * Real.sin (phase / 2) ^ 2 := by
  have hcos : Real.cos phase = 1 - 2 * Real.sin (phase / 2) ^ 2 := by
    have h2 := Real.cos_sq' (phase / 2)
    have h3 := Real.cos_two_mul (phase / 2)
    rw [mul_div_cancel₀ _ two_ne_zero] at h3
    rw [h3, h2]; ring
  unfold thinGrating
  rw [rectangular_integral h0 h1]
  split
  · rename_i hi
    subst hi
    simp only [Int.cast_zero, mul_zero, zero_mul, ofReal_zero, neg_zero, exp_zero,
      intervalIntegral.integral_const, sub_zero]
    rw [← normSq_eq_norm_sq, normSq_apply]
    simp only [add_re, add_im, mul_re, mul_im, exp_ofReal_mul_I_re, exp_ofReal_mul_I_im,
      real_smul, ofReal_re, ofReal_im, mul_one, mul_zero, sub_zero, zero_add, add_zero]
    have h2 := Real.sin_sq_add_cos_sq phase
    linear_combination D ^ 2 * h2 + 2 * D * (1 - D) * hcos
  · rename_i hi
    have hk := two_pi_int_ne hi
    have hi' : (i : ℝ) ≠ 0 := by exact_mod_cast hi
    have hpi := Real.pi_ne_zero
    rw [integral_cexp_01 hk, integral_cexp_01 hk]
    have e1 : exp (-((2 * Real.pi * i * 1 : ℝ) : ℂ) * I) = 1 := by
      rw [mul_one]; exact exp_two_pi_int i
    have e0 : exp (-((2 * Real.pi * i * 0 : ℝ) : ℂ) * I) = 1 := by simp
    rw [e1, e0]
    set t : ℝ := -(2 * Real.pi * i * D) with ht
    have et : exp (-((2 * Real.pi * i * D : ℝ) : ℂ) * I) = exp ((t : ℂ) * I) := by
      rw [ht, ofReal_neg]
    rw [et]
    have key : exp (phase * I) * ((exp ((t : ℂ) * I) - 1) / (-((2 * Real.pi * i : ℝ) : ℂ) * I))
        + (1 - exp ((t : ℂ) * I)) / (-((2 * Real.pi * i : ℝ) : ℂ) * I)
        = (1 - exp (phase * I)) * (1 - exp ((t : ℂ) * I)) / (-((2 * Real.pi * i : ℝ) : ℂ) * I) := by
      rw [← mul_div_assoc, ← add_div]
      congr 1; ring
    rw [key, norm_div, norm_mul, div_pow, mul_pow, norm_sq_one_sub_exp, norm_sq_one_sub_exp,
      norm_mul, norm_neg, norm_I, mul_one, norm_real, Real.norm_eq_abs, sq_abs, hcos]
    have : Real.cos t = Real.cos (i * (2 * Real.pi * D)) := by
      rw [ht, Real.cos_neg]; congr 1; ring
    rw [this]
    field_simp
    ring

/-- The efficiencies of a sawtooth. -/
theorem thinGrating_sawtooth {g : ℝ} {i : ℤ} (h : g + i ≠ 0) :
    thinGrating sawtoothGroove (2 * Real.pi * g) i
      = (Real.sin (Real.pi * g) / (Real.pi * (g + i))) ^ 2 := by
  have hpi := Real.pi_ne_zero
  have hk : 2 * Real.pi * (g + i) ≠ 0 := by positivity
  unfold thinGrating
  have e : ∀ x : ℝ, exp (I * (2 * Real.pi * g * sawtoothGroove x : ℝ))
      * exp (-(2 * Real.pi * i * x : ℝ) * I)
      = exp ((2 * Real.pi * g : ℝ) * I) * exp (-(2 * Real.pi * (g + i) * x : ℝ) * I) := by
    intro x
    rw [← exp_add, ← exp_add]
    congr 1
    unfold sawtoothGroove
    push_cast
    ring
  simp_rw [e]
  rw [intervalIntegral.integral_const_mul, integral_cexp_01 hk, norm_mul, norm_exp_ofReal_mul_I,
    one_mul, norm_div, norm_mul, norm_neg, norm_I, norm_real, Real.norm_eq_abs, div_pow,
    mul_one, mul_one, sq_abs, mul_zero, ofReal_zero, neg_zero, zero_mul, exp_zero, norm_sub_rev,
    ← ofReal_neg, norm_sq_one_sub_exp, Real.cos_neg]
  have hc : Real.cos (2 * Real.pi * (g + i)) = 1 - 2 * Real.sin (Real.pi * g) ^ 2 := by
    rw [show 2 * Real.pi * (g + i) = 2 * (Real.pi * g) + i * (2 * Real.pi) by ring,
      Real.cos_add_int_mul_two_pi, Real.cos_two_mul]
    nlinarith [Real.sin_sq_add_cos_sq (Real.pi * g)]
  rw [hc]
  field_simp
  ring

theorem rectangularGroove_measurable (D : ℝ) : Measurable (rectangularGroove D) := by
  unfold rectangularGroove
  exact Measurable.ite measurableSet_Iic measurable_const measurable_const

theorem sawtoothGroove_measurable : Measurable sawtoothGroove := by
  unfold sawtoothGroove; fun_prop


/-- Bessel functions in the form of the integral representation. -/
theorem besselIntegral_sq (x : ℝ) (i : ℤ) :
    thinGrating sinusoidalGroove (2 * x) i
      = (1 / Real.pi * ∫ t in (0 : ℝ)..Real.pi, Real.cos (i * t - x * Real.sin t)) ^ 2 := by
  have hpi := Real.pi_ne_zero
  have hpi0 := Real.pi_pos
  set g : ℝ → ℂ := fun t => exp ((x * Real.sin t - i * t : ℝ) * I) with hg
  have hgc : Continuous g := by rw [hg]; fun_prop
  unfold thinGrating
  have e : ∀ y : ℝ, exp (I * (2 * x * sinusoidalGroove y : ℝ))
      * exp (-(2 * Real.pi * i * y : ℝ) * I)
      = exp ((x : ℂ) * I) * g (2 * Real.pi * y) := by
    intro y
    rw [hg]
    simp only
    rw [← exp_add, ← exp_add]
    congr 1
    unfold sinusoidalGroove
    push_cast
    ring
  simp_rw [e]
  rw [intervalIntegral.integral_const_mul, norm_mul, norm_exp_ofReal_mul_I, one_mul,
    intervalIntegral.integral_comp_mul_left g (by positivity : (2 * Real.pi) ≠ 0), mul_zero, mul_one]
  have hsplit := intervalIntegral.integral_add_adjacent_intervals
    (hgc.intervalIntegrable (μ := volume) 0 Real.pi)
    (hgc.intervalIntegrable (μ := volume) Real.pi (2 * Real.pi))
  have hrefl : ∫ t in Real.pi..(2 * Real.pi), g t = ∫ t in (0 : ℝ)..Real.pi, g (2 * Real.pi - t) := by
    rw [intervalIntegral.integral_comp_sub_left g (2 * Real.pi)]
    congr 1 <;> ring
  have hconj : ∀ t : ℝ, g (2 * Real.pi - t) = exp (-(x * Real.sin t - i * t : ℝ) * I) := by
    intro t
    rw [hg]
    simp only
    rw [Real.sin_two_pi_sub]
    have h1 := exp_two_pi_int i
    have : ((x * -Real.sin t - i * (2 * Real.pi - t) : ℝ) : ℂ) * I
        = -(x * Real.sin t - i * t : ℝ) * I + -(2 * Real.pi * i : ℝ) * I := by
      push_cast; ring
    rw [this, exp_add, h1, mul_one]
  rw [← hsplit, hrefl]
  simp_rw [hconj]
  rw [← intervalIntegral.integral_add (hgc.intervalIntegrable _ _)
    (Continuous.intervalIntegrable (by fun_prop) _ _)]
  have hsum : ∀ t : ℝ, g t + exp (-(x * Real.sin t - i * t : ℝ) * I)
      = ((2 * Real.cos (i * t - x * Real.sin t) : ℝ) : ℂ) := by
    intro t
    rw [hg]
    simp only
    rw [← Real.cos_neg, show -((i : ℝ) * t - x * Real.sin t) = x * Real.sin t - i * t by ring]
    push_cast
    rw [Complex.cos]
    ring
  simp_rw [hsum]
  rw [intervalIntegral.integral_ofReal, intervalIntegral.integral_const_mul, real_smul,
    ← ofReal_mul, norm_real, Real.norm_eq_abs, sq_abs]
  field_simp

end Optika
