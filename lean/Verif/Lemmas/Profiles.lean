import Verif.Model.Profiles
import Mathlib.Analysis.SpecialFunctions.Gaussian.FourierTransform
import Mathlib.Analysis.SpecialFunctions.ImproperIntegrals
import Mathlib.MeasureTheory.Integral.Gamma
import Mathlib.MeasureTheory.Integral.IntegralEqImproper
import Mathlib.Analysis.Real.Pi.Bounds

/-!
# Lemmas on the interface profiles
-/

namespace Optika

open MeasureTheory Set Filter Topology

/-! ## The error function -/

theorem erf_hasDerivAt (x : ℝ) :
    HasDerivAt erf (2 / Real.sqrt Real.pi * Real.exp (-x ^ 2)) x := by
  unfold erf
  have hc : Continuous fun t : ℝ => Real.exp (-t ^ 2) := by fun_prop
  exact (intervalIntegral.integral_hasDerivAt_right (hc.intervalIntegrable 0 x)
    (hc.stronglyMeasurableAtFilter _ _) hc.continuousAt).const_mul _

theorem erf_strictMono : StrictMono erf := by
  refine strictMono_of_deriv_pos fun x => ?_
  rw [(erf_hasDerivAt x).deriv]
  have := Real.sqrt_pos.mpr Real.pi_pos
  positivity

@[simp] theorem erf_zero : erf 0 = 0 := by simp [erf]

theorem erf_neg (x : ℝ) : erf (-x) = -erf x := by
  unfold erf
  have h := intervalIntegral.integral_comp_neg (a := 0) (b := x) fun t : ℝ => Real.exp (-t ^ 2)
  simp only [neg_zero, neg_sq] at h
  rw [intervalIntegral.integral_symm, ← h]
  ring

theorem erf_tendsto_atTop : Tendsto erf atTop (𝓝 1) := by
  have hi : IntegrableOn (fun t : ℝ => Real.exp (-t ^ 2)) (Ioi 0) := by
    have := (integrable_exp_neg_mul_sq (b := 1) one_pos).integrableOn (s := Ioi 0)
    simpa using this
  have h := intervalIntegral_tendsto_integral_Ioi 0 hi tendsto_id
  have hv : ∫ t in Ioi (0 : ℝ), Real.exp (-t ^ 2) = Real.sqrt Real.pi / 2 := by
    have := integral_gaussian_Ioi 1
    simpa using this
  rw [hv] at h
  have h2 := h.const_mul (2 / Real.sqrt Real.pi)
  have hp := (Real.sqrt_pos.mpr Real.pi_pos).ne'
  have e : 2 / Real.sqrt Real.pi * (Real.sqrt Real.pi / 2) = 1 := by field_simp
  rw [e] at h2
  exact h2

theorem erf_tendsto_atBot : Tendsto erf atBot (𝓝 (-1)) := by
  have h := (erf_tendsto_atTop.comp tendsto_neg_atBot_atTop).neg
  refine h.congr fun x => ?_
  simp [erf_neg]

theorem erf_lt_one (x : ℝ) : erf x < 1 :=
  lt_of_lt_of_le (erf_strictMono (lt_add_one x))
    (erf_strictMono.monotone.ge_of_tendsto erf_tendsto_atTop _)

theorem neg_one_lt_erf (x : ℝ) : -1 < erf x := by
  have := erf_lt_one (-x)
  rw [erf_neg] at this
  linarith

theorem erf_nonneg {x : ℝ} (h : 0 ≤ x) : 0 ≤ erf x := by
  rw [← erf_zero]; exact erf_strictMono.monotone h

/-! ## The derivatives of the profiles -/

theorem erfProfile_hasDerivAt {w : ℝ} (hw : 0 < w) (z : ℝ) :
    HasDerivAt (erfProfile w)
      (1 / (Real.sqrt (2 * Real.pi) * w) * Real.exp (-(z / w) ^ 2 / 2)) z := by
  have h2 := Real.sqrt_pos.mpr (zero_lt_two (α := ℝ))
  have hp := Real.sqrt_pos.mpr Real.pi_pos
  have h1 : HasDerivAt (fun z : ℝ => z / (Real.sqrt 2 * w)) (1 / (Real.sqrt 2 * w)) z :=
    (hasDerivAt_id z).div_const _
  have h3 := (((erf_hasDerivAt _).comp z h1).const_add 1).div_const 2
  refine h3.congr_deriv ?_
  rw [Real.sqrt_mul (by norm_num)]
  have e : -(z / (Real.sqrt 2 * w)) ^ 2 = -(z / w) ^ 2 / 2 := by
    rw [div_pow, mul_pow, Real.sq_sqrt (by norm_num)]
    field_simp
  rw [e]
  field_simp

theorem exponentialProfile_of_pos {w z : ℝ} (hz : 0 < z) :
    exponentialProfile w z = 1 - Real.exp (-Real.sqrt 2 * z / w) / 2 := by
  unfold exponentialProfile sgn
  simp only [not_lt.mpr hz.le, hz.ne', if_false]
  ring_nf

theorem exponentialProfile_of_neg {w z : ℝ} (hz : z < 0) :
    exponentialProfile w z = Real.exp (Real.sqrt 2 * z / w) / 2 := by
  unfold exponentialProfile sgn
  simp only [hz, if_true]
  ring_nf

@[simp] theorem exponentialProfile_zero {w : ℝ} : exponentialProfile w 0 = 1 / 2 := by
  simp [exponentialProfile, sgn]

theorem exponentialProfile_hasDerivAt {w z : ℝ} (hz : z ≠ 0) :
    HasDerivAt (exponentialProfile w)
      (1 / (Real.sqrt 2 * w) * Real.exp (-Real.sqrt 2 / w * |z|)) z := by
  have h2 := Real.sqrt_pos.mpr (zero_lt_two (α := ℝ))
  have hs : Real.sqrt 2 * Real.sqrt 2 = 2 := Real.mul_self_sqrt (by norm_num)
  have e2 : Real.sqrt 2 / w / 2 = 1 / (Real.sqrt 2 * w) := by
    rcases eq_or_ne w 0 with rfl | hw
    · simp
    · field_simp; nlinarith
  rcases lt_or_gt_of_ne hz with h | h
  · have h1 : HasDerivAt (fun z : ℝ => Real.exp (Real.sqrt 2 * z / w) / 2)
        (Real.exp (Real.sqrt 2 * z / w) * (Real.sqrt 2 * 1 / w) / 2) z :=
      ((((hasDerivAt_id z).const_mul _).div_const _).exp).div_const _
    have := h1.congr_of_eventuallyEq (f₁ := exponentialProfile w)
      ((eventually_lt_nhds h).mono fun y hy => exponentialProfile_of_neg hy)
    refine this.congr_deriv ?_
    rw [abs_of_neg h, ← e2]
    ring_nf
  · have h1 : HasDerivAt (fun z : ℝ => 1 - Real.exp (-Real.sqrt 2 * z / w) / 2)
        (-(Real.exp (-Real.sqrt 2 * z / w) * (-Real.sqrt 2 * 1 / w) / 2)) z :=
      (((((hasDerivAt_id z).const_mul _).div_const _).exp).div_const _).const_sub _
    have := h1.congr_of_eventuallyEq (f₁ := exponentialProfile w)
      ((eventually_gt_nhds h).mono fun y hy => exponentialProfile_of_pos hy)
    refine this.congr_deriv ?_
    rw [abs_of_pos h, ← e2]
    ring_nf

/-- A profile that is constant outside of `[-b, b]`, where its derivative is `g`. -/
theorem deriv_clipped {f g : ℝ → ℝ} {b c d : ℝ}
    (hl : ∀ z < -b, f z = c) (hr : ∀ z > b, f z = d)
    (hm : ∀ z, -b < z → z < b → HasDerivAt f (g z) z) :
    deriv f =ᵐ[volume] (Ioc (-b) b).indicator g := by
  have h1 : ∀ᵐ z : ℝ, z ≠ -b := by simp [ae_iff]
  have h2 : ∀ᵐ z : ℝ, z ≠ b := by simp [ae_iff]
  filter_upwards [h1, h2] with z hz1 hz2
  rcases lt_or_gt_of_ne hz1 with h | h
  · rw [indicator_of_notMem (by simp [h.le])]
    have : HasDerivAt f 0 z := (hasDerivAt_const z c).congr_of_eventuallyEq
      ((eventually_lt_nhds h).mono fun y hy => hl y hy)
    exact this.deriv
  · rcases lt_or_gt_of_ne hz2 with h' | h'
    · rw [indicator_of_mem (by simp [h, h'.le])]
      exact (hm z h h').deriv
    · rw [indicator_of_notMem (by simp [h'])]
      have : HasDerivAt f 0 z := (hasDerivAt_const z d).congr_of_eventuallyEq
        ((eventually_gt_nhds h').mono fun y hy => hr y hy)
      exact this.deriv

/-- The integral of such a derivative against any function. -/
theorem integral_clipped {f g : ℝ → ℝ} {b : ℝ} (hb : 0 ≤ b)
    (h : deriv f =ᵐ[volume] (Ioc (-b) b).indicator g) (k : ℝ → ℂ) :
    ∫ z : ℝ, ((deriv f z : ℝ) : ℂ) * k z = ∫ z in (-b)..b, (g z : ℂ) * k z := by
  rw [intervalIntegral.integral_of_le (by linarith), ← integral_indicator measurableSet_Ioc]
  refine integral_congr_ae ?_
  filter_upwards [h] with z hz
  rw [hz]
  by_cases hm : z ∈ Ioc (-b) b
  · rw [indicator_of_mem hm, indicator_of_mem hm]
  · rw [indicator_of_notMem hm, indicator_of_notMem hm]; simp

theorem linear_cases (w : ℝ) (hw : 0 < w) (z : ℝ) :
    (z ≤ -(Real.sqrt 3 * w) → linearProfile w z = 0) ∧
    (Real.sqrt 3 * w ≤ z → linearProfile w z = 1) ∧
    (-(Real.sqrt 3 * w) ≤ z → z ≤ Real.sqrt 3 * w →
      linearProfile w z = 1 / 2 + z / (2 * Real.sqrt 3 * w)) := by
  have h3 := Real.sqrt_pos.mpr (zero_lt_three (α := ℝ))
  have hd : 0 < 2 * Real.sqrt 3 * w := by positivity
  have key : (z / (2 * Real.sqrt 3 * w)) * (2 * Real.sqrt 3 * w) = z := div_mul_cancel₀ _ hd.ne'
  unfold linearProfile
  refine ⟨fun h => ?_, fun h => ?_, fun h1 h2 => ?_⟩
  · have : z / (2 * Real.sqrt 3 * w) ≤ -1 / 2 := by rw [div_le_iff₀ hd]; linarith
    dsimp only
    rw [max_eq_right (by linarith), min_eq_right (by norm_num)]
  · have : 1 / 2 ≤ z / (2 * Real.sqrt 3 * w) := by rw [le_div_iff₀ hd]; linarith
    dsimp only
    rw [max_eq_left (by linarith), min_eq_left (by linarith)]
  · have e1 : -1 / 2 ≤ z / (2 * Real.sqrt 3 * w) := by rw [le_div_iff₀ hd]; linarith
    have e2 : z / (2 * Real.sqrt 3 * w) ≤ 1 / 2 := by rw [div_le_iff₀ hd]; linarith
    dsimp only
    rw [max_eq_left (by linarith), min_eq_right (by linarith)]

theorem linearProfile_deriv {w : ℝ} (hw : 0 < w) :
    deriv (linearProfile w) =ᵐ[volume]
      (Ioc (-(Real.sqrt 3 * w)) (Real.sqrt 3 * w)).indicator
        fun _ => 1 / (2 * Real.sqrt 3 * w) := by
  refine deriv_clipped (c := 0) (d := 1) (fun z hz => (linear_cases w hw z).1 hz.le)
    (fun z hz => (linear_cases w hw z).2.1 hz.le) fun z h1 h2 => ?_
  have : HasDerivAt (fun z : ℝ => 1 / 2 + z / (2 * Real.sqrt 3 * w))
      (1 / (2 * Real.sqrt 3 * w)) z := ((hasDerivAt_id z).div_const _).const_add _
  refine this.congr_of_eventuallyEq ?_
  filter_upwards [eventually_gt_nhds h1, eventually_lt_nhds h2] with y hy1 hy2
  exact (linear_cases w hw y).2.2 hy1.le hy2.le

/-- The half-width of the sinusoidal profile for unit width. -/
noncomputable def sinusoidalA : ℝ := Real.pi / (Real.pi ^ 2 - 8)

theorem sinusoidalA_pos : 0 < sinusoidalA := by
  have := Real.pi_gt_three
  exact div_pos Real.pi_pos (by nlinarith)

theorem sinusoidal_cases (w : ℝ) (hw : 0 < w) (z : ℝ) :
    (z ≤ -(sinusoidalA * w) → sinusoidalProfile w z = 0) ∧
    (sinusoidalA * w ≤ z → sinusoidalProfile w z = 1) ∧
    (-(sinusoidalA * w) ≤ z → z ≤ sinusoidalA * w →
      sinusoidalProfile w z = 1 / 2 + Real.sin (Real.pi * z / (2 * sinusoidalA * w)) / 2) := by
  have ha := sinusoidalA_pos
  have haw := mul_pos ha hw
  unfold sinusoidalProfile
  rw [← sinusoidalA]
  refine ⟨fun h => ?_, fun h => ?_, fun h1 h2 => ?_⟩
  · dsimp only
    rw [max_eq_right (by linarith), min_eq_right (by linarith)]
    have : Real.pi * (-sinusoidalA * w) / (2 * sinusoidalA * w) = -(Real.pi / 2) := by field_simp
    rw [this, Real.sin_neg, Real.sin_pi_div_two]; norm_num
  · dsimp only
    rw [max_eq_left (by linarith), min_eq_left (by linarith)]
    have : Real.pi * (sinusoidalA * w) / (2 * sinusoidalA * w) = Real.pi / 2 := by field_simp
    rw [this, Real.sin_pi_div_two]; norm_num
  · dsimp only
    rw [max_eq_left (by linarith), min_eq_right (by linarith)]

theorem sinusoidalProfile_deriv {w : ℝ} (hw : 0 < w) :
    deriv (sinusoidalProfile w) =ᵐ[volume]
      (Ioc (-(sinusoidalA * w)) (sinusoidalA * w)).indicator
        fun z => Real.pi / (4 * sinusoidalA * w)
          * Real.cos (Real.pi * z / (2 * sinusoidalA * w)) := by
  refine deriv_clipped (c := 0) (d := 1) (fun z hz => (sinusoidal_cases w hw z).1 hz.le)
    (fun z hz => (sinusoidal_cases w hw z).2.1 hz.le) fun z h1 h2 => ?_
  have ha := sinusoidalA_pos
  have h := (((((hasDerivAt_id z).const_mul Real.pi).div_const
    (2 * sinusoidalA * w)).sin).div_const 2).const_add (1 / 2)
  have h' : HasDerivAt (fun z : ℝ => 1 / 2 + Real.sin (Real.pi * z / (2 * sinusoidalA * w)) / 2)
      (Real.pi / (4 * sinusoidalA * w) * Real.cos (Real.pi * z / (2 * sinusoidalA * w))) z := by
    refine h.congr_deriv ?_
    simp only [id]
    field_simp
    ring
  refine h'.congr_of_eventuallyEq ?_
  filter_upwards [eventually_gt_nhds h1, eventually_lt_nhds h2] with y hy1 hy2
  exact (sinusoidal_cases w hw y).2.2 hy1.le hy2.le

/-! ## Fourier transforms -/

theorem erf_fourier {w : ℝ} (hw : 0 < w) (s : ℝ) :
    ∫ z : ℝ, ((deriv (erfProfile w) z : ℝ) : ℂ) * Complex.exp (-Complex.I * s * z)
      = (Real.exp (-(s * w) ^ 2 / 2) : ℂ) := by
  have hb : 0 < ((1 / (2 * w ^ 2) : ℝ) : ℂ).re := by rw [Complex.ofReal_re]; positivity
  have h := fourierIntegral_gaussian hb (-(s : ℂ))
  have hcpow : ((Real.pi : ℂ) / ((1 / (2 * w ^ 2) : ℝ) : ℂ)) ^ (1 / 2 : ℂ)
      = ((Real.sqrt (2 * Real.pi) * w : ℝ) : ℂ) := by
    rw [← Complex.ofReal_div,
      show (1 / 2 : ℂ) = ((1 / 2 : ℝ) : ℂ) by push_cast; rfl,
      ← Complex.ofReal_cpow (by positivity), ← Real.sqrt_eq_rpow]
    congr 1
    rw [show Real.pi / (1 / (2 * w ^ 2)) = (2 * Real.pi) * w ^ 2 by field_simp,
      Real.sqrt_mul (by positivity), Real.sqrt_sq hw.le]
  rw [hcpow] at h
  have hne : ((Real.sqrt (2 * Real.pi) * w : ℝ) : ℂ) ≠ 0 := by
    rw [Complex.ofReal_ne_zero]
    have := Real.sqrt_pos.mpr (mul_pos (zero_lt_two (α := ℝ)) Real.pi_pos)
    positivity
  have e : ∀ z : ℝ, ((deriv (erfProfile w) z : ℝ) : ℂ) * Complex.exp (-Complex.I * s * z)
      = ((Real.sqrt (2 * Real.pi) * w : ℝ) : ℂ)⁻¹ *
        (Complex.exp (Complex.I * -(s : ℂ) * z)
          * Complex.exp (-((1 / (2 * w ^ 2) : ℝ) : ℂ) * z ^ 2)) := by
    intro z
    rw [(erfProfile_hasDerivAt hw z).deriv]
    push_cast
    rw [show -((z : ℂ) / w) ^ 2 / 2 = -(1 / (2 * (w : ℂ) ^ 2)) * z ^ 2 by ring,
      show -Complex.I * (s : ℂ) * z = Complex.I * -(s : ℂ) * z by ring]
    ring
  simp_rw [e]
  rw [integral_const_mul, h, ← mul_assoc, inv_mul_cancel₀ hne, one_mul]
  push_cast
  congr 1
  have : (w : ℂ) ≠ 0 := by exact_mod_cast hw.ne'
  field_simp
  ring

theorem exponential_fourier {w : ℝ} (hw : 0 < w) (s : ℝ) :
    ∫ z : ℝ, ((deriv (exponentialProfile w) z : ℝ) : ℂ) * Complex.exp (-Complex.I * s * z)
      = (1 / (1 + (s * w) ^ 2 / 2) : ℝ) := by
  have h2 := Real.sqrt_pos.mpr (zero_lt_two (α := ℝ))
  have hs : Real.sqrt 2 * Real.sqrt 2 = 2 := Real.mul_self_sqrt (by norm_num)
  set κ : ℝ := Real.sqrt 2 / w with hκ
  have hκ0 : 0 < κ := by positivity
  set c : ℝ := 1 / (Real.sqrt 2 * w) with hc
  have hne : ∀ᵐ z : ℝ, z ≠ 0 := by simp [ae_iff]
  have e : ∫ z : ℝ, ((deriv (exponentialProfile w) z : ℝ) : ℂ) * Complex.exp (-Complex.I * s * z)
      = ∫ z : ℝ, (c : ℂ) * Complex.exp (((-κ * |z| : ℝ) : ℂ) + -Complex.I * s * z) := by
    refine integral_congr_ae ?_
    filter_upwards [hne] with z hz
    rw [(exponentialProfile_hasDerivAt hz).deriv, Complex.exp_add, ← Complex.ofReal_exp,
      show -Real.sqrt 2 / w * |z| = -κ * |z| by rw [hκ]; ring, ← hc, Complex.ofReal_mul, mul_assoc]
  rw [e, integral_const_mul]
  have r1 : 0 < ((κ : ℂ) - Complex.I * s).re := by simp [hκ0]
  have r2 : (-(κ : ℂ) - Complex.I * s).re < 0 := by simp [hκ0]
  have i1 : ∫ z in Iic (0 : ℝ), Complex.exp (((-κ * |z| : ℝ) : ℂ) + -Complex.I * s * z)
      = 1 / ((κ : ℂ) - Complex.I * s) := by
    have := integral_exp_mul_complex_Iic r1 0
    rw [Complex.ofReal_zero, mul_zero, Complex.exp_zero] at this
    rw [← this]
    refine setIntegral_congr_fun measurableSet_Iic fun z hz => ?_
    rw [abs_of_nonpos hz]
    congr 1; push_cast; ring
  have i2 : ∫ z in Ioi (0 : ℝ), Complex.exp (((-κ * |z| : ℝ) : ℂ) + -Complex.I * s * z)
      = -1 / (-(κ : ℂ) - Complex.I * s) := by
    have := integral_exp_mul_complex_Ioi r2 0
    rw [Complex.ofReal_zero, mul_zero, Complex.exp_zero] at this
    rw [← this]
    refine setIntegral_congr_fun measurableSet_Ioi fun z hz => ?_
    rw [abs_of_pos hz]
    congr 1; push_cast; ring
  have g1 : IntegrableOn (fun z : ℝ =>
      Complex.exp (((-κ * |z| : ℝ) : ℂ) + -Complex.I * s * z)) (Iic 0) := by
    refine (integrableOn_exp_mul_complex_Iic r1 0).congr_fun (fun z hz => ?_) measurableSet_Iic
    simp only
    rw [abs_of_nonpos hz]
    congr 1; push_cast; ring
  have g2 : IntegrableOn (fun z : ℝ =>
      Complex.exp (((-κ * |z| : ℝ) : ℂ) + -Complex.I * s * z)) (Ioi 0) := by
    refine (integrableOn_exp_mul_complex_Ioi r2 0).congr_fun (fun z hz => ?_) measurableSet_Ioi
    simp only
    rw [abs_of_pos hz]
    congr 1; push_cast; ring
  rw [← intervalIntegral.integral_Iic_add_Ioi g1 g2, i1, i2]
  have n1 : (κ : ℂ) - Complex.I * s ≠ 0 := fun h => by rw [h] at r1; simp at r1
  have n2 : -(κ : ℂ) - Complex.I * s ≠ 0 := fun h => by rw [h] at r2; simp at r2
  have n3 : (κ : ℂ) + Complex.I * s ≠ 0 := fun h => n2 (by linear_combination -h)
  have e3 : 1 / ((κ : ℂ) - Complex.I * s) + -1 / (-(κ : ℂ) - Complex.I * s)
      = ((2 * κ / (κ ^ 2 + s ^ 2) : ℝ) : ℂ) := by
    have hk : (κ : ℂ) ^ 2 + s ^ 2 = ((κ : ℂ) - Complex.I * s) * ((κ : ℂ) + Complex.I * s) := by
      linear_combination ((s : ℂ) ^ 2) * Complex.I_sq
    push_cast
    rw [hk, show -(κ : ℂ) - Complex.I * s = -((κ : ℂ) + Complex.I * s) by ring, neg_div_neg_eq]
    field_simp
    ring
  rw [e3, ← Complex.ofReal_mul]
  congr 1
  rw [hc, hκ]
  have hsq : Real.sqrt 2 ^ 2 = 2 := by rw [sq]; exact hs
  have : (Real.sqrt 2 / w) ^ 2 + s ^ 2 ≠ 0 := by positivity
  have : 1 + (s * w) ^ 2 / 2 ≠ 0 := by positivity
  field_simp
  rw [hsq]

theorem integral_cexp_symm (b s : ℝ) (hs : s ≠ 0) :
    ∫ z in (-b)..b, Complex.exp (-Complex.I * s * z) = ((2 * Real.sin (s * b) / s : ℝ) : ℂ) := by
  have hs' : (s : ℂ) ≠ 0 := by exact_mod_cast hs
  have hc : -Complex.I * (s : ℂ) ≠ 0 := mul_ne_zero (neg_ne_zero.mpr Complex.I_ne_zero) hs'
  rw [integral_exp_mul_complex hc]
  push_cast
  rw [Complex.sin, show -Complex.I * (s : ℂ) * -(b : ℂ) = (s * b : ℂ) * Complex.I by ring,
    show -Complex.I * (s : ℂ) * (b : ℂ) = -(s * b : ℂ) * Complex.I by ring]
  generalize Complex.exp (-(s * b : ℂ) * Complex.I) = p
  generalize Complex.exp ((s * b : ℂ) * Complex.I) = q
  have hI := Complex.I_ne_zero
  field_simp
  linear_combination (q - p) * Complex.I_sq

theorem linear_fourier {w : ℝ} (hw : 0 < w) {s : ℝ} (hs : s ≠ 0) :
    ∫ z : ℝ, ((deriv (linearProfile w) z : ℝ) : ℂ) * Complex.exp (-Complex.I * s * z)
      = (Real.sin (Real.sqrt 3 * w * s) / (Real.sqrt 3 * w * s) : ℝ) := by
  have h3 := Real.sqrt_pos.mpr (zero_lt_three (α := ℝ))
  rw [integral_clipped (by positivity) (linearProfile_deriv hw), intervalIntegral.integral_const_mul,
    integral_cexp_symm _ _ hs, ← Complex.ofReal_mul]
  congr 1
  rw [show s * (Real.sqrt 3 * w) = Real.sqrt 3 * w * s by ring]
  field_simp

theorem sinusoidal_fourier {w : ℝ} (hw : 0 < w) {s : ℝ}
    (h1 : sinusoidalA * w * s - Real.pi / 2 ≠ 0) (h2 : sinusoidalA * w * s + Real.pi / 2 ≠ 0) :
    ∫ z : ℝ, ((deriv (sinusoidalProfile w) z : ℝ) : ℂ) * Complex.exp (-Complex.I * s * z)
      = (Real.pi * (Real.sin (sinusoidalA * w * s - Real.pi / 2)
            / (sinusoidalA * w * s - Real.pi / 2)
          + Real.sin (sinusoidalA * w * s + Real.pi / 2)
            / (sinusoidalA * w * s + Real.pi / 2)) / 4 : ℝ) := by
  have ha := sinusoidalA_pos
  have hb : 0 < sinusoidalA * w := mul_pos ha hw
  rw [integral_clipped hb.le (sinusoidalProfile_deriv hw)]
  generalize hB : sinusoidalA * w = b at *
  have e0 : ∀ z : ℝ, ((Real.pi / (4 * sinusoidalA * w)
        * Real.cos (Real.pi * z / (2 * sinusoidalA * w)) : ℝ) : ℂ)
        * Complex.exp (-Complex.I * s * z)
      = ((Real.pi / (8 * b) : ℝ) : ℂ) * (Complex.exp (-Complex.I * ((s - Real.pi / (2 * b) : ℝ) : ℂ) * z)
        + Complex.exp (-Complex.I * ((s + Real.pi / (2 * b) : ℝ) : ℂ) * z)) := by
    intro z
    rw [show 4 * sinusoidalA * w = 4 * b by rw [← hB]; ring,
      show 2 * sinusoidalA * w = 2 * b by rw [← hB]; ring]
    push_cast
    rw [Complex.cos,
      show -Complex.I * ((s : ℂ) - Real.pi / (2 * b)) * z
        = (Real.pi * z / (2 * b)) * Complex.I + -Complex.I * s * z by ring,
      show -Complex.I * ((s : ℂ) + Real.pi / (2 * b)) * z
        = -(Real.pi * z / (2 * b)) * Complex.I + -Complex.I * s * z by ring,
      Complex.exp_add, Complex.exp_add]
    have : (b : ℂ) ≠ 0 := by exact_mod_cast hb.ne'
    field_simp
    ring
  simp_rw [e0]
  have n1 : s - Real.pi / (2 * b) ≠ 0 := fun h => h1 (by
    have : s = Real.pi / (2 * b) := by linarith
    rw [this]; field_simp; ring)
  have n2 : s + Real.pi / (2 * b) ≠ 0 := fun h => h2 (by
    have : s = -(Real.pi / (2 * b)) := by linarith
    rw [this]; field_simp; ring)
  rw [intervalIntegral.integral_const_mul, intervalIntegral.integral_add
    (Continuous.intervalIntegrable (by fun_prop) _ _)
    (Continuous.intervalIntegrable (by fun_prop) _ _),
    integral_cexp_symm _ _ n1, integral_cexp_symm _ _ n2, ← Complex.ofReal_add,
    ← Complex.ofReal_mul]
  congr 1
  have e1 : (s - Real.pi / (2 * b)) * b = b * s - Real.pi / 2 := by field_simp
  have e2 : (s + Real.pi / (2 * b)) * b = b * s + Real.pi / 2 := by field_simp
  rw [e1, e2]
  have e3 : s - Real.pi / (2 * b) = (b * s - Real.pi / 2) / b := by field_simp
  have e4 : s + Real.pi / (2 * b) = (b * s + Real.pi / 2) / b := by field_simp
  rw [e3, e4]
  field_simp
  ring

/-! ## Second moments -/

theorem integral_clipped_real {f g : ℝ → ℝ} {b : ℝ} (hb : 0 ≤ b)
    (h : deriv f =ᵐ[volume] (Ioc (-b) b).indicator g) (k : ℝ → ℝ) :
    ∫ z : ℝ, deriv f z * k z = ∫ z in (-b)..b, g z * k z := by
  rw [intervalIntegral.integral_of_le (by linarith), ← integral_indicator measurableSet_Ioc]
  refine integral_congr_ae ?_
  filter_upwards [h] with z hz
  rw [hz]
  by_cases hm : z ∈ Ioc (-b) b
  · rw [indicator_of_mem hm, indicator_of_mem hm]
  · rw [indicator_of_notMem hm, indicator_of_notMem hm]; simp

theorem erf_moment {w : ℝ} (hw : 0 < w) : ∫ z : ℝ, deriv (erfProfile w) z * z ^ 2 = w ^ 2 := by
  have h2 := Real.sqrt_pos.mpr (zero_lt_two (α := ℝ))
  have hp := Real.sqrt_pos.mpr Real.pi_pos
  have hb : 0 < 1 / (2 * w ^ 2) := by positivity
  have e : ∀ z : ℝ, deriv (erfProfile w) z * z ^ 2
      = (fun x : ℝ => 1 / (Real.sqrt (2 * Real.pi) * w)
          * (x ^ 2 * Real.exp (-(1 / (2 * w ^ 2)) * x ^ 2))) |z| := by
    intro z
    simp only
    rw [(erfProfile_hasDerivAt hw z).deriv, sq_abs,
      show -(z / w) ^ 2 / 2 = -(1 / (2 * w ^ 2)) * z ^ 2 by field_simp]
    ring
  rw [integral_congr_ae (Eventually.of_forall e), integral_comp_abs (f := fun x : ℝ =>
    1 / (Real.sqrt (2 * Real.pi) * w) * (x ^ 2 * Real.exp (-(1 / (2 * w ^ 2)) * x ^ 2))),
    integral_const_mul]
  have h := integral_rpow_mul_exp_neg_mul_rpow (p := 2) (q := 2) (b := 1 / (2 * w ^ 2))
    (by norm_num) (by norm_num) hb
  simp only [Real.rpow_two] at h
  rw [h]
  have e1 : Real.Gamma ((2 + 1) / 2) = Real.sqrt Real.pi / 2 := by
    rw [show ((2 : ℝ) + 1) / 2 = 1 / 2 + 1 by norm_num, Real.Gamma_add_one (by norm_num),
      Real.Gamma_one_half_eq]
    ring
  have e2 : (1 / (2 * w ^ 2)) ^ (-(2 + 1) / 2 : ℝ) = 2 * Real.sqrt 2 * w ^ 3 := by
    rw [one_div, Real.inv_rpow (by positivity), ← Real.rpow_neg (by positivity),
      show -(-(2 + 1) / 2 : ℝ) = 1 + 1 / 2 by norm_num, Real.rpow_add (by positivity),
      Real.rpow_one, ← Real.sqrt_eq_rpow, Real.sqrt_mul (by norm_num), Real.sqrt_sq hw.le]
    ring
  rw [e1, e2, Real.sqrt_mul (by norm_num)]
  field_simp

theorem exponential_moment {w : ℝ} (hw : 0 < w) :
    ∫ z : ℝ, deriv (exponentialProfile w) z * z ^ 2 = w ^ 2 := by
  have h2 := Real.sqrt_pos.mpr (zero_lt_two (α := ℝ))
  have hsq : Real.sqrt 2 ^ 2 = 2 := Real.sq_sqrt (by norm_num)
  have hk : 0 < Real.sqrt 2 / w := by positivity
  have hne : ∀ᵐ z : ℝ, z ≠ 0 := by simp [ae_iff]
  have e : ∫ z : ℝ, deriv (exponentialProfile w) z * z ^ 2
      = ∫ z : ℝ, (fun x : ℝ => 1 / (Real.sqrt 2 * w)
          * (x ^ 2 * Real.exp (-(Real.sqrt 2 / w) * x))) |z| := by
    refine integral_congr_ae ?_
    filter_upwards [hne] with z hz
    rw [(exponentialProfile_hasDerivAt hz).deriv, sq_abs, neg_div]
    ring
  rw [e, integral_comp_abs (f := fun x : ℝ => 1 / (Real.sqrt 2 * w)
    * (x ^ 2 * Real.exp (-(Real.sqrt 2 / w) * x))), integral_const_mul]
  have h := integral_rpow_mul_exp_neg_mul_rpow (p := 1) (q := 2) (b := Real.sqrt 2 / w)
    (by norm_num) (by norm_num) hk
  simp only [Real.rpow_two, Real.rpow_one] at h
  rw [h]
  have e1 : Real.Gamma ((2 + 1) / 1) = 2 := by
    have := Real.Gamma_nat_eq_factorial 2
    norm_num at this ⊢
  have e2 : (Real.sqrt 2 / w) ^ (-(2 + 1) / 1 : ℝ) = (w / Real.sqrt 2) ^ 3 := by
    rw [show (-(2 + 1) / 1 : ℝ) = -((3 : ℕ) : ℝ) by norm_num, Real.rpow_neg hk.le,
      Real.rpow_natCast, ← inv_pow, inv_div]
  rw [e1, e2]
  field_simp
  nlinarith [hsq]

theorem linear_moment {w : ℝ} (hw : 0 < w) :
    ∫ z : ℝ, deriv (linearProfile w) z * z ^ 2 = w ^ 2 := by
  have h3 := Real.sqrt_pos.mpr (zero_lt_three (α := ℝ))
  have hsq : Real.sqrt 3 ^ 2 = 3 := Real.sq_sqrt (by norm_num)
  rw [integral_clipped_real (by positivity) (linearProfile_deriv hw),
    intervalIntegral.integral_const_mul, integral_pow]
  field_simp
  push_cast
  linear_combination (2 * Real.sqrt 3 * w ^ 3) * hsq

theorem sinusoidal_moment {w : ℝ} (hw : 0 < w) :
    ∫ z : ℝ, deriv (sinusoidalProfile w) z * z ^ 2 = w ^ 2 / (Real.pi ^ 2 - 8) := by
  have ha := sinusoidalA_pos
  have hp := Real.pi_pos
  have h8 : 0 < Real.pi ^ 2 - 8 := by nlinarith [Real.pi_gt_three]
  have hb : 0 < sinusoidalA * w := mul_pos ha hw
  rw [integral_clipped_real hb.le (sinusoidalProfile_deriv hw)]
  set k := Real.pi / (2 * sinusoidalA * w) with hk
  have hk0 : 0 < k := by positivity
  have hd : ∀ z ∈ uIcc (-(sinusoidalA * w)) (sinusoidalA * w), HasDerivAt (fun z : ℝ =>
      (z ^ 2 * Real.sin (k * z) + 2 / k * z * Real.cos (k * z) - 2 / k ^ 2 * Real.sin (k * z)) / 2)
      (Real.pi / (4 * sinusoidalA * w) * Real.cos (Real.pi * z / (2 * sinusoidalA * w)) * z ^ 2)
      z := by
    intro z _
    have hkz : HasDerivAt (fun z : ℝ => k * z) k z := by
      simpa using (hasDerivAt_id z).const_mul k
    have h1 := (hasDerivAt_pow 2 z).mul hkz.sin
    have h2 := ((hasDerivAt_id z).const_mul (2 / k)).mul hkz.cos
    have h3 := hkz.sin.const_mul (2 / k ^ 2)
    refine (((h1.add h2).sub h3).div_const 2).congr_deriv ?_
    rw [show Real.pi * z / (2 * sinusoidalA * w) = k * z by rw [hk]; ring,
      show Real.pi / (4 * sinusoidalA * w) = k / 2 by rw [hk]; field_simp; norm_num]
    simp only [id]
    field_simp
    ring
  rw [intervalIntegral.integral_eq_sub_of_hasDerivAt hd
    (Continuous.intervalIntegrable (by fun_prop) _ _)]
  have e1 : k * (sinusoidalA * w) = Real.pi / 2 := by rw [hk]; field_simp
  have e2 : k * -(sinusoidalA * w) = -(Real.pi / 2) := by rw [mul_neg, e1]
  rw [e1, e2, Real.sin_neg, Real.cos_neg, Real.sin_pi_div_two, Real.cos_pi_div_two, hk, sinusoidalA]
  field_simp
  ring

end Optika
