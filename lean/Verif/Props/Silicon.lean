import Verif.Lemmas.Silicon
import Verif.Model.Electrons

/-!
# Charge collection and diffusion in silicon (C46, C47)
-/

namespace Optika
open MeasureTheory intervalIntegral

/-! ### C46: charge collection efficiency -/

/-- **C46**: the efficiency is the mean of the profile over the depth of absorption. -/
theorem C46_mean {a W : ℝ} (ha : 0 < a) (hW : 0 < W) (η₀ : ℝ) :
    chargeCollectionEfficiency a W η₀ = some (absorptionMean a (sternProfile η₀ W)) := by
  rw [sternProfile_mean ha hW]
  unfold chargeCollectionEfficiency
  simp only [div?_of_ne (mul_pos ha hW).ne', Option.bind_eq_bind, Option.bind_some, Option.pure_def]

theorem cce_eq {a W : ℝ} (ha : 0 < a) (hW : 0 < W) (η₀ : ℝ) :
    chargeCollectionEfficiency a W η₀
      = some (η₀ + (1 - η₀) * ((1 - Real.exp (-(a * W))) / (a * W))) := by
  rw [C46_mean ha hW, sternProfile_mean ha hW]
  congr 2
  ring

/-- **C46**: the absorption coefficient in this mean is that of the refracted wave: its flux at depth
`z` is smaller by `exp (-a z)`. -/
theorem C46_decay {w a : ℝ} {n c : ℂ} (h : absorptionEffective w n c = some a) (z : ℝ) :
    ‖Complex.exp (2 * Real.pi * Complex.I * (n * c) * z / w)‖ ^ 2 = Real.exp (-(a * z)) := by
  unfold absorptionEffective at h
  rw [div?_eq_some] at h
  obtain ⟨h0, rfl⟩ := h
  rw [Complex.norm_exp, ← Real.exp_nat_mul, Real.exp_eq_exp, Complex.div_ofReal_re]
  have e : (2 * (Real.pi : ℂ) * Complex.I * (n * c) * (z : ℂ)).re
      = -(2 * Real.pi * (n * c).im * z) := by
    generalize n * c = q
    simp [Complex.mul_re, Complex.mul_im]
  rw [e]
  push_cast
  ring

/-- Silicon with index `4 + i` at normal incidence. -/
example : absorptionEffective 1 (4 + Complex.I) 1 = some (4 * Real.pi) := by
  unfold absorptionEffective
  rw [div?_of_ne one_ne_zero]
  simp

/-- **C46**: it lies between that at the back surface and one. -/
theorem C46_range {a W η₀ c : ℝ} (ha : 0 < a) (hW : 0 < W) (h1 : η₀ ≤ 1)
    (hc : chargeCollectionEfficiency a W η₀ = some c) : η₀ ≤ c ∧ c ≤ 1 := by
  rw [cce_eq ha hW, Option.some.injEq] at hc
  have h2 := decay_ratio_pos (mul_pos ha hW)
  have h3 := decay_ratio_lt_one (mul_pos ha hW)
  subst hc
  constructor <;> nlinarith

/-- **C46**: it decreases with the absorption coefficient ... -/
theorem C46_absorption {a a' W η₀ c c' : ℝ} (ha : 0 < a) (hW : 0 < W) (h1 : η₀ < 1) (h : a < a')
    (hc : chargeCollectionEfficiency a W η₀ = some c)
    (hc' : chargeCollectionEfficiency a' W η₀ = some c') : c' < c := by
  rw [cce_eq ha hW, Option.some.injEq] at hc
  rw [cce_eq (ha.trans h) hW, Option.some.injEq] at hc'
  have := decay_ratio_anti (mul_pos ha hW) (mul_lt_mul_of_pos_right h hW)
  subst hc hc'
  nlinarith

/-- ... and with the thickness of the implant layer, ... -/
theorem C46_implant {a W W' η₀ c c' : ℝ} (ha : 0 < a) (hW : 0 < W) (h1 : η₀ < 1) (h : W < W')
    (hc : chargeCollectionEfficiency a W η₀ = some c)
    (hc' : chargeCollectionEfficiency a W' η₀ = some c') : c' < c := by
  rw [cce_eq ha hW, Option.some.injEq] at hc
  rw [cce_eq ha (hW.trans h), Option.some.injEq] at hc'
  have := decay_ratio_anti (mul_pos ha hW) (mul_lt_mul_of_pos_left h ha)
  subst hc hc'
  nlinarith

/-- ... and increases with the efficiency at the back surface. -/
theorem C46_backsurface {a W η₀ η₁ c c' : ℝ} (ha : 0 < a) (hW : 0 < W) (h : η₀ < η₁)
    (hc : chargeCollectionEfficiency a W η₀ = some c)
    (hc' : chargeCollectionEfficiency a W η₁ = some c') : c < c' := by
  rw [cce_eq ha hW, Option.some.injEq] at hc hc'
  have := decay_ratio_lt_one (mul_pos ha hW)
  subst hc hc'
  nlinarith

/-- The parameters of `_stern_1994.py`, with an absorption length of one micrometre. -/
example : ∃ c, chargeCollectionEfficiency 1 0.2317 0.21 = some c ∧ 0.21 ≤ c ∧ c ≤ 1 :=
  ⟨_, C46_mean (by norm_num) (by norm_num) _,
    C46_range (by norm_num) (by norm_num) (by norm_num) (C46_mean (by norm_num) (by norm_num) _)⟩

/-- **C46** fails for a transparent material, or without an implant layer: the result is `NaN`,
although every electron is collected in the limit. -/
theorem C46_zero_counterexample (a W η₀ : ℝ) (h : a = 0 ∨ W = 0) :
    chargeCollectionEfficiency a W η₀ = none := by
  unfold chargeCollectionEfficiency
  have : a * W = 0 := by rcases h with h | h <;> simp [h]
  simp [this]

/-! ### C47: width of charge diffusion -/

/-- The mean variance of the displacement, in closed form. -/
theorem diffusionVariance_mean {a s f : ℝ} (ha : 0 < a) (hf : 0 ≤ f) (hfs : f ≤ s) (hs : 0 < s) :
    layerMean a s (diffusionVariance f)
      = f * (a * f + Real.exp (-(a * f)) - 1) / (a * (1 - Real.exp (-(a * s)))) := by
  have hE : 0 < 1 - Real.exp (-(a * s)) := by
    have : Real.exp (-(a * s)) < 1 := by
      rw [Real.exp_lt_one_iff]; have := mul_pos ha hs; linarith
    linarith
  have e1 : Set.EqOn (fun z => diffusionVariance f z * Real.exp (-(a * z)))
      (fun z => (f ^ 2 + (-f) * z + 0 * z ^ 2) * Real.exp (-(a * z))) (Set.uIcc 0 f) := by
    intro z hz
    rw [Set.uIcc_of_le hf] at hz
    simp only [diffusionVariance]
    congr 1
    split_ifs with h
    · have : f ≠ 0 := by rintro rfl; linarith [hz.1]
      field_simp
      ring
    · have : z = f := le_antisymm hz.2 (not_lt.1 h)
      rw [this]; ring
  have e2 : Set.EqOn (fun z => diffusionVariance f z * Real.exp (-(a * z)))
      (fun _ => 0) (Set.uIcc f s) := by
    intro z hz
    rw [Set.uIcc_of_le hfs] at hz
    simp only [diffusionVariance, if_neg (not_lt.2 hz.1), zero_mul]
  unfold layerMean
  rw [← integral_add_adjacent_intervals (b := f)
    ((Continuous.intervalIntegrable (by fun_prop) _ _).congr
      (fun z hz => (e1 (Set.uIoc_subset_uIcc hz)).symm))
    ((Continuous.intervalIntegrable (by fun_prop) _ _).congr
      (fun z hz => (e2 (Set.uIoc_subset_uIcc hz)).symm)),
    integral_congr e1, integral_congr e2, integral_poly_exp ha.ne', integral_exp_decay ha.ne']
  have := ha.ne'
  have := hE.ne'
  simp
  field_simp
  ring

/-- What is below the square root. -/
theorem diffusion_bounds {a s f : ℝ} (ha : 0 < a) (hf : 0 ≤ f) (hfs : f ≤ s) (hs : 0 < s) :
    0 < a * (1 - Real.exp (-(a * s)))
      ∧ 0 ≤ f * (a * f + Real.exp (-(a * f)) - 1) / (a * (1 - Real.exp (-(a * s))))
      ∧ f * (a * f + Real.exp (-(a * f)) - 1) / (a * (1 - Real.exp (-(a * s)))) ≤ f ^ 2
      ∧ (0 < f → 0 < f * (a * f + Real.exp (-(a * f)) - 1) / (a * (1 - Real.exp (-(a * s))))) := by
  have hE : 0 < 1 - Real.exp (-(a * s)) := by
    have : Real.exp (-(a * s)) < 1 := by
      rw [Real.exp_lt_one_iff]; have := mul_pos ha hs; linarith
    linarith
  have hden := mul_pos ha hE
  have h1 := Real.add_one_le_exp (-(a * f))
  have h2 := Real.add_one_le_exp (a * f)
  have h3 : Real.exp (-(a * s)) ≤ Real.exp (-(a * f)) := by
    rw [Real.exp_le_exp]; have := mul_le_mul_of_nonneg_left hfs ha.le; linarith
  have h4 : Real.exp (-(a * f)) * (1 + a * f) ≤ 1 := by
    have := mul_le_mul_of_nonneg_left h2 (Real.exp_pos (-(a * f))).le
    rw [← Real.exp_add, neg_add_cancel, Real.exp_zero] at this
    linarith
  have haf : 0 ≤ a * f := by positivity
  refine ⟨hden, div_nonneg (mul_nonneg hf (by linarith)) hden.le, ?_, fun hf0 => ?_⟩
  · rw [div_le_iff₀ hden]
    have h5 : a * f + Real.exp (-(a * f)) - 1 ≤ a * f * (1 - Real.exp (-(a * s))) := by nlinarith
    calc f * (a * f + Real.exp (-(a * f)) - 1) ≤ f * (a * f * (1 - Real.exp (-(a * s)))) :=
          mul_le_mul_of_nonneg_left h5 hf
      _ = f ^ 2 * (a * (1 - Real.exp (-(a * s)))) := by ring
  · have := Real.add_one_lt_exp (x := -(a * f)) (by have := mul_pos ha hf0; linarith)
    exact div_pos (mul_pos hf0 (by linarith)) hden

theorem chargeDiffusion_eq {a s d : ℝ} (ha : 0 < a) (hs : 0 < s) (hd : 0 ≤ d) (hds : d ≤ s) :
    chargeDiffusion a s d = some (Real.sqrt (layerMean a s (diffusionVariance (s - d)))) := by
  obtain ⟨h1, h2, -⟩ := diffusion_bounds ha (sub_nonneg.2 hds) (by linarith : s - d ≤ s) hs
  rw [diffusionVariance_mean ha (sub_nonneg.2 hds) (by linarith) hs]
  unfold chargeDiffusion
  simp only [neg_mul, div?_of_ne h1.ne', sqrt?_of_nonneg h2, Option.bind_eq_bind, Option.bind_some]

/-- **C47**: the squared width is the mean of the variance of the displacement over the depth of
absorption; it is well defined for every depletion depth in the substrate. -/
theorem C47_mean {a s d : ℝ} (ha : 0 < a) (hs : 0 < s) (hd : 0 ≤ d) (hds : d ≤ s) :
    ∃ w, chargeDiffusion a s d = some w ∧ 0 ≤ w
      ∧ w ^ 2 = layerMean a s (diffusionVariance (s - d)) := by
  refine ⟨_, chargeDiffusion_eq ha hs hd hds, Real.sqrt_nonneg _, Real.sq_sqrt ?_⟩
  rw [diffusionVariance_mean ha (sub_nonneg.2 hds) (by linarith) hs]
  exact (diffusion_bounds ha (sub_nonneg.2 hds) (by linarith : s - d ≤ s) hs).2.1

/-- **C47**: it does not exceed the thickness of the field-free region. -/
theorem C47_range {a s d w : ℝ} (ha : 0 < a) (hs : 0 < s) (hd : 0 ≤ d) (hds : d ≤ s)
    (hw : chargeDiffusion a s d = some w) : w ≤ s - d := by
  rw [chargeDiffusion_eq ha hs hd hds, Option.some.injEq] at hw
  rw [← hw, diffusionVariance_mean ha (sub_nonneg.2 hds) (by linarith) hs]
  refine Real.sqrt_le_iff.2 ⟨sub_nonneg.2 hds, ?_⟩
  exact (diffusion_bounds ha (sub_nonneg.2 hds) (by linarith : s - d ≤ s) hs).2.2.1

/-- **C47**: it vanishes if and only if the sensor is fully depleted. -/
theorem C47_zero {a s d w : ℝ} (ha : 0 < a) (hs : 0 < s) (hd : 0 ≤ d) (hds : d ≤ s)
    (hw : chargeDiffusion a s d = some w) : w = 0 ↔ d = s := by
  rw [chargeDiffusion_eq ha hs hd hds, Option.some.injEq] at hw
  rw [← hw, diffusionVariance_mean ha (sub_nonneg.2 hds) (by linarith) hs]
  obtain ⟨-, h2, -, h4⟩ := diffusion_bounds ha (sub_nonneg.2 hds) (by linarith : s - d ≤ s) hs
  rw [Real.sqrt_eq_zero h2]
  constructor
  · intro h
    by_contra hne
    exact (h4 (sub_pos.2 (lt_of_le_of_ne hds hne))).ne' h
  · rintro rfl; simp

/-- A sensor of 14 micrometres depleted to 2.4 micrometres. -/
example : ∃ w, chargeDiffusion 1 14 2.4 = some w ∧ 0 ≤ w ∧ w ≤ 14 - 2.4 := by
  obtain ⟨w, h1, h2, -⟩ := C47_mean (a := 1) (s := 14) (d := 2.4) one_pos (by norm_num)
    (by norm_num) (by norm_num)
  exact ⟨w, h1, h2, C47_range one_pos (by norm_num) (by norm_num) (by norm_num) h1⟩

/-- **C47** fails for a transparent material: `NaN`. -/
theorem C47_zero_counterexample (s d : ℝ) : chargeDiffusion 0 s d = none := by
  simp [chargeDiffusion]

/-- **C47**: the simulation displaces the electrons by a normal random number times the square root
of this variance. -/
theorem C47_simulation (s : PixelParams) (r : PhotonDraw) (z : ℝ) (e : ℕ) (hz : 0 ≤ z)
    (hx : 0 < s.widthX) (hy : 0 < s.widthY)
    (h : z < s.thicknessSubstrate - s.thicknessDepletion) :
    displacement s r z e
      = (pyRound (r.u + Real.sqrt (diffusionVariance (s.thicknessSubstrate - s.thicknessDepletion) z)
            / s.widthX * r.gaussX e),
        pyRound (r.v + Real.sqrt (diffusionVariance (s.thicknessSubstrate - s.thicknessDepletion) z)
            / s.widthY * r.gaussY e)) := by
  unfold displacement diffusionVariance
  have hf : 0 ≤ s.thicknessSubstrate - s.thicknessDepletion := by linarith
  simp only [h, hx, hy, and_self, if_true]
  rw [Real.sqrt_mul (sq_nonneg _), Real.sqrt_sq hf]

end Optika
