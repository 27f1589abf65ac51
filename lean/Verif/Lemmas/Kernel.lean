import Verif.Model.Silicon
import Verif.Lemmas.Profiles
import Mathlib.Topology.Algebra.InfiniteSum.NatInt

/-!
# Lemmas on the kernel of charge diffusion
-/

namespace Optika
open MeasureTheory intervalIntegral Filter Topology

/-- The function whose second difference is the kernel. -/
noncomputable def kernelH (x m : ℝ) : ℝ :=
  1 / (x * Real.sqrt (2 * Real.pi)) * Real.exp (-x ^ 2 * m ^ 2 / 2)
    + m * erf (x * m / Real.sqrt 2) / 2

theorem kernel1d_eq {w d : ℝ} (hw : 0 < w) (hd : 0 < d) (n : ℝ) :
    kernel1d w d n = some (kernelH (d / w) (n + 1) - 2 * kernelH (d / w) n + kernelH (d / w) (n - 1)) := by
  have hx : d / w ≠ 0 := by positivity
  have h2 : d / w * Real.sqrt (2 * Real.pi) ≠ 0 := by positivity
  unfold kernel1d kernelH
  simp only [div?_of_ne hw.ne', div?_of_ne h2, Option.bind_eq_bind, Option.bind_some,
    Option.pure_def]
  congr 1
  ring

theorem kernelH_hasDerivAt {x : ℝ} (hx : 0 < x) (m : ℝ) :
    HasDerivAt (kernelH x) (erf (x * m / Real.sqrt 2) / 2) m := by
  have h2 : Real.sqrt 2 ≠ 0 := by positivity
  have h1 : HasDerivAt (fun m => x * m / Real.sqrt 2) (x / Real.sqrt 2) m := by
    simpa using ((hasDerivAt_id m).const_mul x).div_const (Real.sqrt 2)
  have h3 := ((hasDerivAt_id m).fun_mul ((erf_hasDerivAt _).comp m h1)).div_const 2
  have h4 : HasDerivAt (fun m : ℝ => -x ^ 2 * m ^ 2 / 2) (-x ^ 2 * m) m := by
    have := ((hasDerivAt_pow 2 m).const_mul (-x ^ 2)).div_const 2
    refine this.congr_deriv ?_
    simp
    ring
  have h5 := (h4.exp.const_mul (1 / (x * Real.sqrt (2 * Real.pi)))).fun_add h3
  refine (h5.congr_deriv ?_)
  have e : -(x * m / Real.sqrt 2) ^ 2 = -x ^ 2 * m ^ 2 / 2 := by
    rw [div_pow, Real.sq_sqrt (by norm_num)]; ring
  simp only [Function.comp, id, e]
  rw [Real.sqrt_mul (by norm_num)]
  have h6 : Real.sqrt 2 ^ 2 = 2 := Real.sq_sqrt (by norm_num)
  have h7 : Real.sqrt Real.pi ≠ 0 := by positivity
  field_simp
  ring

theorem erf_continuous : Continuous erf :=
  continuous_iff_continuousAt.2 fun x => (erf_hasDerivAt x).continuousAt

/-- First differences. -/
theorem kernelH_sub {x : ℝ} (hx : 0 < x) (m : ℝ) :
    kernelH x (m + 1) - kernelH x m = ∫ t in (0 : ℝ)..1, erf (x * (m + t) / Real.sqrt 2) / 2 := by
  have h := integral_eq_sub_of_hasDerivAt (a := m) (b := m + 1)
    (fun z _ => kernelH_hasDerivAt hx z)
    (Continuous.intervalIntegrable ((erf_continuous.comp (by fun_prop)).div_const 2) _ _)
  rw [← h]
  have := integral_comp_add_left (a := (0 : ℝ)) (b := 1)
    (fun z => erf (x * z / Real.sqrt 2) / 2) m
  rw [this, add_zero]

theorem kernelH_neg (x m : ℝ) : kernelH x (-m) = kernelH x m := by
  unfold kernelH
  rw [show x * -m / Real.sqrt 2 = -(x * m / Real.sqrt 2) by ring, erf_neg]
  ring_nf

/-- The kernel as a mean over the position in the pixel. -/
theorem kernel_integral {x : ℝ} (hx : 0 < x) (n : ℝ) :
    kernelH x (n + 1) - 2 * kernelH x n + kernelH x (n - 1)
      = ∫ t in (0 : ℝ)..1, (erf (x * (n + t) / Real.sqrt 2) - erf (x * (n - 1 + t) / Real.sqrt 2)) / 2 := by
  have h1 := kernelH_sub hx n
  have h2 := kernelH_sub hx (n - 1)
  rw [sub_add_cancel] at h2
  have : ∀ m : ℝ, IntervalIntegrable (fun t => erf (x * (m + t) / Real.sqrt 2) / 2) volume 0 1 :=
    fun m => Continuous.intervalIntegrable ((erf_continuous.comp (by fun_prop)).div_const 2) _ _
  simp only [sub_div]
  rw [integral_sub (this n) (this (n - 1)), ← h1, ← h2]
  ring

theorem kernel_pos {x : ℝ} (hx : 0 < x) (n : ℝ) :
    0 < kernelH x (n + 1) - 2 * kernelH x n + kernelH x (n - 1) := by
  rw [kernel_integral hx]
  refine intervalIntegral_pos_of_pos (Continuous.intervalIntegrable ?_ _ _) (fun t => ?_) one_pos
  · exact ((erf_continuous.comp (by fun_prop)).sub (erf_continuous.comp (by fun_prop))).div_const 2
  · have h2 : 0 < Real.sqrt 2 := by positivity
    have : x * (n - 1 + t) / Real.sqrt 2 < x * (n + t) / Real.sqrt 2 := by
      rw [div_lt_div_iff_of_pos_right h2]; nlinarith
    have := erf_strictMono this
    linarith

theorem kernelH_sub_tendsto {x : ℝ} (hx : 0 < x) :
    Tendsto (fun N : ℕ => kernelH x (N + 1) - kernelH x N) atTop (𝓝 (1 / 2)) := by
  have h2 : 0 < Real.sqrt 2 := by positivity
  have hl : Tendsto (fun N : ℕ => erf (x * N / Real.sqrt 2) / 2) atTop (𝓝 (1 / 2)) := by
    refine (erf_tendsto_atTop.comp ?_).div_const 2
    have : (fun N : ℕ => x * N / Real.sqrt 2) = fun N : ℕ => (x / Real.sqrt 2) * (N : ℝ) := by
      ext; ring
    rw [this]
    exact tendsto_natCast_atTop_atTop.const_mul_atTop (by positivity)
  have hc : Continuous fun z => erf (x * z / Real.sqrt 2) / 2 :=
    (erf_continuous.comp (by fun_prop)).div_const 2
  refine tendsto_of_tendsto_of_tendsto_of_le_of_le hl tendsto_const_nhds (fun N => ?_) (fun N => ?_)
  · rw [kernelH_sub hx]
    have := integral_mono_on (a := 0) (b := 1) (μ := volume) zero_le_one
      (f := fun _ => erf (x * N / Real.sqrt 2) / 2)
      (g := fun t => erf (x * (N + t) / Real.sqrt 2) / 2) (by simp)
      (Continuous.intervalIntegrable (hc.comp (continuous_const.add continuous_id)) _ _)
      (fun t ht => by
        have : erf (x * N / Real.sqrt 2) ≤ erf (x * (N + t) / Real.sqrt 2) :=
          erf_strictMono.monotone (by
            rw [div_le_div_iff_of_pos_right h2]; nlinarith [ht.1])
        linarith)
    simpa using this
  · rw [kernelH_sub hx]
    have := integral_mono_on (a := 0) (b := 1) (μ := volume) zero_le_one
      (g := fun _ => (1 : ℝ) / 2)
      (f := fun t => erf (x * (N + t) / Real.sqrt 2) / 2) 
      (Continuous.intervalIntegrable (hc.comp (continuous_const.add continuous_id)) _ _) (by simp)
      (fun t ht => by have := erf_lt_one (x * (N + t) / Real.sqrt 2); linarith)
    simpa using this

end Optika
