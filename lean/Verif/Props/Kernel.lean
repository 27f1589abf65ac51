import Verif.Lemmas.Kernel
import Verif.Model.Electrons
import Mathlib.Probability.Distributions.Gaussian.Real

/-!
# The kernel of charge diffusion (C48)
-/

namespace Optika
open MeasureTheory intervalIntegral Filter Topology ProbabilityTheory

/-- The kernel is positive ... -/
theorem C48_positive {w d : ℝ} (hw : 0 < w) (hd : 0 < d) (n : ℤ) :
    ∃ k, kernel1d w d n = some k ∧ 0 < k :=
  ⟨_, kernel1d_eq hw hd n, kernel_pos (by positivity) n⟩

/-- ... and symmetric, ... -/
theorem C48_even {w d : ℝ} (hw : 0 < w) (hd : 0 < d) (n : ℤ) :
    kernel1d w d (-n : ℤ) = kernel1d w d n := by
  rw [kernel1d_eq hw hd, kernel1d_eq hw hd]
  push_cast
  rw [show -(n : ℝ) + 1 = -(n - 1) by ring, show -(n : ℝ) - 1 = -(n + 1) by ring]
  simp only [kernelH_neg]
  congr 1
  ring

/-- ... and its sum over all pixels is one. -/
theorem C48_sum {w d : ℝ} (hw : 0 < w) (hd : 0 < d) :
    HasSum (fun n : ℤ => (kernel1d w d n).getD 0) 1 := by
  have hx : 0 < d / w := by positivity
  set H := kernelH (d / w) with hH
  have e : ∀ n : ℤ, (kernel1d w d n).getD 0 = H (n + 1) - 2 * H n + H (n - 1) := fun n => by
    rw [kernel1d_eq hw hd]; rfl
  have key : ∀ c : ℕ, HasSum (fun n : ℕ => H ((n + c : ℕ) + 1) - 2 * H ((n + c : ℕ) : ℝ)
      + H ((n + c : ℕ) - 1)) (1 / 2 - (H c - H (c - 1))) := by
    intro c
    rw [hasSum_iff_tendsto_nat_of_nonneg (fun n => (kernel_pos hx _).le)]
    have hp : ∀ N : ℕ, ∑ n ∈ Finset.range N, (H ((n + c : ℕ) + 1) - 2 * H ((n + c : ℕ) : ℝ)
        + H ((n + c : ℕ) - 1)) = (H ((N + c : ℕ)) - H ((N + c : ℕ) - 1)) - (H c - H (c - 1)) := by
      intro N
      induction N with
      | zero => simp
      | succ N ih =>
        rw [Finset.sum_range_succ, ih]
        push_cast
        rw [show (N : ℝ) + 1 + c = N + c + 1 by ring, show (N : ℝ) + c + 1 - 1 = N + c by ring]
        ring
    refine Tendsto.congr (fun N => (hp N).symm) ?_
    refine Tendsto.sub_const ?_ _
    have h := (kernelH_sub_tendsto hx).comp (tendsto_add_atTop_nat c)
    rw [← tendsto_add_atTop_iff_nat 1]
    refine h.congr fun N => ?_
    simp only [Function.comp]
    push_cast
    rw [show (N : ℝ) + 1 + c = N + c + 1 by ring, show (N : ℝ) + c + 1 - 1 = N + c by ring]
  have h0 := key 0
  have h1 := key 1
  have a0 : HasSum (fun n : ℕ => (kernel1d w d (n : ℤ)).getD 0) (1 / 2 - (H 0 - H (-1))) := by
    have e0 : (fun n : ℕ => (kernel1d w d (n : ℤ)).getD 0) = fun n : ℕ =>
        H ((n + 0 : ℕ) + 1) - 2 * H ((n + 0 : ℕ) : ℝ) + H ((n + 0 : ℕ) - 1) := by
      ext n
      rw [e]
      push_cast
      simp
    rw [e0]
    convert h0 using 3 <;> simp
  have a1 : HasSum (fun n : ℕ => (kernel1d w d (-((n : ℤ) + 1) : ℤ)).getD 0)
      (1 / 2 - (H 1 - H 0)) := by
    have e1 : (fun n : ℕ => (kernel1d w d (-((n : ℤ) + 1) : ℤ)).getD 0) = fun n : ℕ =>
        H ((n + 1 : ℕ) + 1) - 2 * H ((n + 1 : ℕ) : ℝ) + H ((n + 1 : ℕ) - 1) := by
      ext n
      rw [C48_even hw hd, e]
      push_cast
      ring_nf
    rw [e1]
    convert h1 using 3 <;> simp
  have := HasSum.of_nat_of_neg_add_one (f := fun n : ℤ => (kernel1d w d n).getD 0) a0 a1
  have hn : H (-1) = H 1 := kernelH_neg _ _
  rw [hn] at this
  convert this using 1
  ring

/-- The number of pixels by which an electron moves is the nearest integer. -/
theorem pyRound_of_lt {x : ℝ} {n : ℤ} (h1 : (n : ℝ) - 1 / 2 < x) (h2 : x < n + 1 / 2) :
    pyRound x = n := by
  unfold pyRound
  dsimp only
  rcases lt_or_ge x n with h | h
  · have hf : ⌊x⌋ = n - 1 := by rw [Int.floor_eq_iff]; push_cast; constructor <;> linarith
    rw [hf]
    push_cast
    rw [if_neg (by linarith), if_pos (by linarith)]
    ring
  · have hf : ⌊x⌋ = n := by rw [Int.floor_eq_iff]; constructor <;> linarith
    rw [hf, if_pos (by linarith)]

theorem pyRound_bounds (x : ℝ) : (pyRound x : ℝ) - 1 / 2 ≤ x ∧ x ≤ pyRound x + 1 / 2 := by
  have h1 := Int.floor_le x
  have h2 := Int.lt_floor_add_one x
  unfold pyRound
  dsimp only
  split_ifs with h h' h''
  · constructor <;> linarith
  · push_cast; constructor <;> linarith
  · constructor <;> linarith
  · push_cast; constructor <;> linarith

/-- Probabilities of the normal distribution. -/
theorem gaussian_Icc {a b : ℝ} (h : a ≤ b) :
    (gaussianReal 0 1).real (Set.Icc a b) = (erf (b / Real.sqrt 2) - erf (a / Real.sqrt 2)) / 2 := by
  unfold Measure.real
  rw [gaussianReal_apply_eq_integral _ one_ne_zero, ENNReal.toReal_ofReal
    (setIntegral_nonneg measurableSet_Icc fun x _ => gaussianPDFReal_nonneg _ _ _),
    integral_Icc_eq_integral_Ioc, ← integral_of_le h]
  have hd : ∀ x ∈ Set.uIcc a b, HasDerivAt (fun x => erf (x / Real.sqrt 2) / 2)
      (gaussianPDFReal 0 1 x) x := by
    intro x _
    have h1 : HasDerivAt (fun x : ℝ => x / Real.sqrt 2) (1 / Real.sqrt 2) x :=
      (hasDerivAt_id x).div_const _
    have h2 := ((erf_hasDerivAt _).comp x h1).div_const 2
    refine h2.congr_deriv ?_
    unfold gaussianPDFReal
    rw [div_pow, Real.sq_sqrt (by norm_num)]
    simp only [NNReal.coe_one, mul_one, sub_zero]
    rw [Real.sqrt_mul (by norm_num), neg_div]
    have h6 : Real.sqrt 2 ≠ 0 := by positivity
    have h7 : Real.sqrt Real.pi ≠ 0 := by positivity
    field_simp
  rw [integral_eq_sub_of_hasDerivAt hd
    ((integrable_gaussianPDFReal 0 1).intervalIntegrable)]
  ring

theorem gaussian_round {σ u : ℝ} (hσ : 0 < σ) (n : ℤ) :
    (gaussianReal 0 1).real {g | pyRound (u + σ * g) = n}
      = (gaussianReal 0 1).real (Set.Icc ((n - 1 / 2 - u) / σ) ((n + 1 / 2 - u) / σ)) := by
  have := nullSingletonClass_gaussianReal (μ := 0) (v := 1) one_ne_zero
  apply le_antisymm
  · refine measureReal_mono (fun g hg => ?_)
    have hb := pyRound_bounds (u + σ * g)
    rw [Set.mem_setOf_eq] at hg
    rw [hg] at hb
    constructor
    · rw [div_le_iff₀ hσ]; linarith
    · rw [le_div_iff₀ hσ]; linarith
  · rw [← measureReal_congr Ioo_ae_eq_Icc]
    refine measureReal_mono (fun g hg => ?_)
    refine pyRound_of_lt ?_ ?_
    · have := hg.1; rw [div_lt_iff₀ hσ] at this; linarith
    · have := hg.2; rw [lt_div_iff₀ hσ] at this; linarith

/-- **C48**: the kernel is the distribution of the displacement (in pixels) in the simulation of
electrons: a normal random number, scaled by the width of diffusion, from a photon that strikes
anywhere in a pixel. -/
theorem C48_simulation {w d : ℝ} (hw : 0 < w) (hd : 0 < d) (n : ℤ) :
    kernel1d w d n = some (∫ u in (-1 / 2 : ℝ)..(1 / 2),
      (gaussianReal 0 1).real {g | pyRound (u + w / d * g) = n}) := by
  rw [kernel1d_eq hw hd, kernel_integral (by positivity)]
  congr 1
  have h := integral_comp_sub_left (a := (-1 / 2 : ℝ)) (b := 1 / 2)
    (fun t => (erf (d / w * (n + t) / Real.sqrt 2) - erf (d / w * (n - 1 + t) / Real.sqrt 2)) / 2)
    (1 / 2)
  rw [show (1 / 2 : ℝ) - 1 / 2 = 0 by norm_num, show (1 / 2 : ℝ) - -1 / 2 = 1 by norm_num] at h
  rw [← h]
  refine integral_congr fun u _ => ?_
  rw [gaussian_round (by positivity), gaussian_Icc]
  · congr 3
    · congr 1; field_simp; ring
    · congr 1; field_simp; ring
  · rw [div_le_div_iff_of_pos_right (by positivity)]; linarith

/-- **C48**: the mean charge capture is the square of the central weight. -/
theorem C48_capture {w d : ℝ} (hw : 0 < w) (hd : 0 < d) :
    meanChargeCapture w d = (kernel1d w d 0).map fun k => k ^ 2 := by
  have hx : 0 < d / w := by positivity
  rw [kernel1d_eq hw hd, Option.map_some]
  unfold meanChargeCapture
  simp only [div?_of_ne hw.ne', div?_of_ne hx.ne', Option.bind_eq_bind, Option.bind_some,
    Option.pure_def]
  congr 2
  rw [show (0 : ℝ) - 1 = -(0 + 1) by ring, kernelH_neg]
  unfold kernelH
  generalize d / w = x at *
  rw [Real.sqrt_div (by norm_num), Real.sqrt_mul (by norm_num)]
  have h6 : Real.sqrt 2 ^ 2 = 2 := Real.sq_sqrt (by norm_num)
  have h7 : Real.sqrt Real.pi ≠ 0 := by positivity
  simp only [zero_add, mul_one, one_pow, mul_zero, zero_div, zero_mul, add_zero, Real.exp_zero, ne_eq,
    OfNat.ofNat_ne_zero, not_false_eq_true, zero_pow]
  field_simp
  linear_combination 2 * (Real.exp (-(x ^ 2 / 2)) - 1) * h6

/-- **C48**: it lies between zero and one. -/
theorem C48_capture_range {w d : ℝ} (hw : 0 < w) (hd : 0 < d) :
    ∃ c, meanChargeCapture w d = some c ∧ 0 < c ∧ c < 1 := by
  have hx : 0 < d / w := by positivity
  have hp := fun n => kernel_pos hx n
  have hs := C48_sum hw hd
  refine ⟨_, (C48_capture hw hd).trans (by rw [kernel1d_eq hw hd]; rfl), by have := hp 0; positivity, ?_⟩
  have h01 := sum_le_hasSum {0, 1} (fun n _ => by rw [kernel1d_eq hw hd]; exact (hp n).le) hs
  rw [Finset.sum_pair (by norm_num), kernel1d_eq hw hd, kernel1d_eq hw hd] at h01
  have h1 := hp (1 : ℤ)
  have h0 := hp 0
  simp only [Option.getD_some, Int.cast_zero] at h01
  have : kernelH (d / w) (0 + 1) - 2 * kernelH (d / w) 0 + kernelH (d / w) (0 - 1) < 1 := by linarith
  exact pow_lt_one₀ h0.le this (by norm_num)

/-- The documented definition of the mean charge capture. -/
theorem C48_capture_definition {σ d : ℝ} (hσ : 0 < σ) (hd : 0 < d) :
    meanChargeCapture σ d = some ((1 / (2 * d) * ∫ x in (-d / 2)..(d / 2),
      (erf ((d - 2 * x) / (2 * Real.sqrt 2 * σ)) + erf ((d + 2 * x) / (2 * Real.sqrt 2 * σ)))) ^ 2) := by
  have h2 : Real.sqrt 2 ≠ 0 := by positivity
  have hσ' := hσ.ne'
  have hd' := hd.ne'
  rw [C48_capture hσ hd, kernel1d_eq hσ hd, Option.map_some, kernel_integral (by positivity)]
  congr 2
  have e1 := integral_comp_sub_left (a := (-1 / 2 : ℝ)) (b := 1 / 2)
    (fun t => (erf (d / σ * (0 + t) / Real.sqrt 2) - erf (d / σ * (0 - 1 + t) / Real.sqrt 2)) / 2)
    (1 / 2)
  rw [show (1 / 2 : ℝ) - 1 / 2 = 0 by norm_num, show (1 / 2 : ℝ) - -1 / 2 = 1 by norm_num] at e1
  have e2 := integral_comp_mul_left (a := (-1 / 2 : ℝ)) (b := 1 / 2) (c := d)
    (fun x => erf ((d - 2 * x) / (2 * Real.sqrt 2 * σ)) + erf ((d + 2 * x) / (2 * Real.sqrt 2 * σ))) hd'
  rw [show d * (-1 / 2) = -d / 2 by ring, show d * (1 / 2) = d / 2 by ring, smul_eq_mul] at e2
  have e3 : ∀ I : ℝ, 1 / (2 * d) * I = (d⁻¹ * I) / 2 := fun I => by field_simp
  rw [← e1, e3, ← e2, ← intervalIntegral.integral_div]
  refine integral_congr fun s _ => ?_
  have a1 : d / σ * (0 + (1 / 2 - s)) / Real.sqrt 2 = (d - 2 * (d * s)) / (2 * Real.sqrt 2 * σ) := by
    field_simp; ring
  have a2 : d / σ * (0 - 1 + (1 / 2 - s)) / Real.sqrt 2
      = -((d + 2 * (d * s)) / (2 * Real.sqrt 2 * σ)) := by
    field_simp; ring
  simp only [a1, a2, erf_neg, sub_neg_eq_add]

theorem kernelDiffusion_eq {w d m z : ℝ} (h1 : kernel1d w d 1 = some m) (h2 : kernel1d w d (-1) = some m)
    (h0 : kernel1d w d 0 = some z) (hm : 0 < m) (hz : 0 < z) (i j : ℤ) :
    kernelDiffusion w d i j = some ((if i = 0 then z else m) * (if j = 0 then z else m)
      / (m + z + m) ^ 2) := by
  unfold kernelDiffusion
  simp only [h0, h1, h2, Option.bind_eq_bind, Option.bind_some]
  have hk : ∀ l : ℤ, (if l = -1 then m else if l = 0 then z else m) = if l = 0 then z else m := by
    intro l
    split_ifs with h h' <;> first | rfl | omega
  have e : ([-1, 0, 1].map fun a : ℤ => ([-1, 0, 1].map fun b : ℤ =>
      (if a = -1 then m else if a = 0 then z else m) * (if b = -1 then m else if b = 0 then z else m)).sum).sum
      = (m + z + m) ^ 2 := by
    simp
    ring
  rw [e, div?_of_ne (by positivity), hk, hk]

theorem kernel1d_three {w d : ℝ} (hw : 0 < w) (hd : 0 < d) :
    ∃ m z, kernel1d w d 1 = some m ∧ kernel1d w d (-1) = some m ∧ kernel1d w d 0 = some z
      ∧ 0 < m ∧ 0 < z := by
  obtain ⟨m, hm, hm0⟩ := C48_positive hw hd 1
  obtain ⟨z, hz, hz0⟩ := C48_positive hw hd 0
  have he := C48_even hw hd 1
  push_cast at he hm hz
  exact ⟨m, z, hm, he.trans hm, hz, hm0, hz0⟩

/-- **C48**: the kernel of three by three pixels is positive, ... -/
theorem C48_kernel_pos {w d : ℝ} (hw : 0 < w) (hd : 0 < d) (i j : ℤ) :
    ∃ k, kernelDiffusion w d i j = some k ∧ 0 < k := by
  obtain ⟨m, z, h1, h2, h0, hm, hz⟩ := kernel1d_three hw hd
  refine ⟨_, kernelDiffusion_eq h1 h2 h0 hm hz i j, ?_⟩
  have hl : ∀ l : ℤ, 0 < (if l = 0 then z else m) := fun l => by split_ifs <;> assumption
  have := hl i
  have := hl j
  positivity

/-- ... symmetric under exchange of the axes ... -/
theorem C48_kernel_comm {w d : ℝ} (hw : 0 < w) (hd : 0 < d) (i j : ℤ) :
    kernelDiffusion w d i j = kernelDiffusion w d j i := by
  obtain ⟨m, z, h1, h2, h0, hm, hz⟩ := kernel1d_three hw hd
  rw [kernelDiffusion_eq h1 h2 h0 hm hz, kernelDiffusion_eq h1 h2 h0 hm hz, mul_comm]

/-- ... and reflection, ... -/
theorem C48_kernel_even {w d : ℝ} (hw : 0 < w) (hd : 0 < d) (i j : ℤ) :
    kernelDiffusion w d (-i) j = kernelDiffusion w d i j := by
  obtain ⟨m, z, h1, h2, h0, hm, hz⟩ := kernel1d_three hw hd
  rw [kernelDiffusion_eq h1 h2 h0 hm hz, kernelDiffusion_eq h1 h2 h0 hm hz]
  simp only [neg_eq_zero]

/-- ... and sums to one. -/
theorem C48_kernel_sum {w d : ℝ} (hw : 0 < w) (hd : 0 < d) :
    ∑ i ∈ {-1, 0, 1}, ∑ j ∈ {-1, 0, 1}, (kernelDiffusion w d (i : ℤ) j).getD 0 = 1 := by
  obtain ⟨m, z, h1, h2, h0, hm, hz⟩ := kernel1d_three hw hd
  simp only [kernelDiffusion_eq h1 h2 h0 hm hz, Option.getD_some]
  have : (m + z + m) ≠ 0 := by positivity
  simp
  field_simp
  ring

/-- **C48**: each element is the product of the one-dimensional weights, relative to the sum of all
of them. -/
theorem C48_kernel_outer {w d : ℝ} (hw : 0 < w) (hd : 0 < d) {i j : ℤ}
    (hi : i ∈ ({-1, 0, 1} : Finset ℤ)) (hj : j ∈ ({-1, 0, 1} : Finset ℤ)) :
    kernelDiffusion w d i j = some ((kernel1d w d i).getD 0 * (kernel1d w d j).getD 0
      / (∑ k ∈ {-1, 0, 1}, (kernel1d w d (k : ℤ)).getD 0) ^ 2) := by
  obtain ⟨m, z, h1, h2, h0, hm, hz⟩ := kernel1d_three hw hd
  have hk : ∀ l ∈ ({-1, 0, 1} : Finset ℤ),
      (kernel1d w d (l : ℤ)).getD 0 = if l = 0 then z else m := by
    intro l hl
    simp only [Finset.mem_insert, Finset.mem_singleton] at hl
    rcases hl with rfl | rfl | rfl <;> simp [h0, h1, h2]
  rw [kernelDiffusion_eq h1 h2 h0 hm hz, hk i hi, hk j hj, Finset.sum_congr rfl hk]
  congr 2
  simp
  ring

/-- **C48** for diffusion of a tenth of a pixel. -/
example : ∃ k, kernelDiffusion 1 10 0 1 = some k ∧ 0 < k :=
  C48_kernel_pos one_pos (by norm_num) 0 1

end Optika
