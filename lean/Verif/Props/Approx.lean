import Verif.Model.Approx
import Verif.Props.Vmr
import Mathlib.Analysis.Convex.SpecificFunctions.Pow
import Mathlib.Analysis.MeanInequalities
import Mathlib.Analysis.SpecialFunctions.Gamma.Basic

/-!
# The probability of a measurement and the approximate simulation (C60, C61)
-/

namespace Optika
open MeasureTheory

/-! ### C60 -/

/-- One if anything was measured. -/
def detected (m : ℕ) : ℝ := if m = 0 then 0 else 1

theorem binomialMean_detected (n : ℕ) (p : ℝ) :
    binomialMean n p detected = 1 - (1 - p) ^ n := by
  have h := binomialMean_one n p
  unfold binomialMean at h ⊢
  rw [Finset.sum_range_succ'] at h ⊢
  simp only [detected] at h ⊢
  simp at h ⊢
  linarith

/-- A weighted mean of powers is at least the power of the mean. -/
theorem pow_mean_ge {N : ℕ} {p : ℕ → ℝ} (h0 : ∀ k, 0 ≤ p k) (h1 : pairMean N p (fun _ => 1) = 1)
    {y : ℝ} (hy : 0 ≤ y) (hq : 1 ≤ pairMean N p (fun k => k)) :
    y ^ pairMean N p (fun k => k) ≤ pairMean N p (fun k => y ^ k) := by
  rcases eq_or_lt_of_le hy with rfl | hy
  · rw [Real.zero_rpow (by linarith)]
    exact Finset.sum_nonneg fun k _ => mul_nonneg (h0 k) (by positivity)
  · have hc := convexOn_exp.map_sum_le (t := Finset.range (N + 1)) (w := p)
      (p := fun k : ℕ => Real.log y * k) (fun k _ => h0 k) (by simpa [pairMean] using h1)
      (fun _ _ => Set.mem_univ _)
    have e : ∀ k : ℕ, Real.exp (Real.log y * k) = y ^ k := by
      intro k
      rw [← Real.rpow_def_of_pos hy, Real.rpow_natCast]
    simp only [smul_eq_mul, e] at hc
    unfold pairMean
    rw [Real.rpow_def_of_pos hy, Finset.mul_sum]
    refine le_trans (le_of_eq ?_) hc
    congr 1
    exact Finset.sum_congr rfl fun k _ => by ring

/-- A power lies above its tangent. -/
theorem rpow_tangent {c y q : ℝ} (hc : 0 < c) (hy : 0 ≤ y) (hq : 1 ≤ q) :
    c ^ q + q * c ^ (q - 1) * (y - c) ≤ y ^ q := by
  have hs : -1 ≤ y / c - 1 := by have : 0 ≤ y / c := by positivity
                                 linarith
  have h := one_add_mul_self_le_rpow_one_add hs hq
  rw [show 1 + (y / c - 1) = y / c by ring, Real.div_rpow hy hc.le,
    le_div_iff₀ (Real.rpow_pos_of_pos hc q)] at h
  refine le_trans (le_of_eq ?_) h
  rw [Real.rpow_sub_one hc.ne']
  field_simp

theorem photonMean_detected {depth : (ℝ → ℝ) → ℝ} {η : ℝ → ℝ} {N : ℕ} {p : ℕ → ℝ}
    (h1 : pairMean N p (fun _ => 1) = 1) :
    photonMean depth η N p detected = depth fun z => 1 - pairMean N p fun n => (1 - η z) ^ n := by
  unfold photonMean
  congr 1
  funext z
  simp only [binomialMean_detected]
  refine Eq.trans ?_ (congrArg (· - pairMean N p fun n => (1 - η z) ^ n) h1)
  unfold pairMean
  simp only
  rw [← Finset.sum_sub_distrib]
  exact Finset.sum_congr rfl fun k _ => by ring

theorem detected_integrable {a W η₀ : ℝ} (ha : 0 < a) (hW : 0 < W) (N : ℕ) (p : ℕ → ℝ) :
    IntegrableOn (fun z => (1 - pairMean N p fun n => (1 - sternProfile η₀ W z) ^ n)
      * Real.exp (-(a * z))) (Set.Ioi 0) := by
  have hE : IntegrableOn (fun z => Real.exp (-(a * z))) (Set.Ioi 0) := by
    simpa using stern_integrable ha hW η₀ 0
  have e : (fun z => (1 - pairMean N p fun n => (1 - sternProfile η₀ W z) ^ n)
        * Real.exp (-(a * z)))
      = fun z => Real.exp (-(a * z)) - ∑ n ∈ Finset.range (N + 1),
        p n * ((1 - sternProfile η₀ W z) ^ n * Real.exp (-(a * z))) := by
    funext z
    unfold pairMean
    rw [sub_mul, Finset.sum_mul, one_mul]
    congr 1
    exact Finset.sum_congr rfl fun k _ => by ring
  rw [e]
  refine Integrable.sub hE (integrable_finset_sum _ fun n _ => Integrable.const_mul ?_ _)
  have e2 : (fun z => (1 - sternProfile η₀ W z) ^ n * Real.exp (-(a * z)))
      = fun z => ∑ j ∈ Finset.range (n + 1), ((-1) ^ j * (n.choose j : ℝ))
        * (sternProfile η₀ W z ^ j * Real.exp (-(a * z))) := by
    funext z
    rw [sub_eq_add_neg, add_comm, add_pow, Finset.sum_mul]
    refine Finset.sum_congr rfl fun j _ => ?_
    rw [neg_pow]
    ring
  rw [e2]
  exact integrable_finset_sum _ fun j _ => (stern_integrable ha hW η₀ j).const_mul _

/-- **C60**: `probability_measurement` is at least the probability that one absorbed photon is
measured, that is, that at least one of its electrons is collected. -/
theorem C60_upper {a W η₀ : ℝ} (ha : 0 < a) (hW : 0 < W) (h0 : 0 ≤ η₀) (h1 : η₀ ≤ 1) {N : ℕ}
    {p : ℕ → ℝ} (hp0 : ∀ k, 0 ≤ p k) (hp : pairMean N p (fun _ => 1) = 1)
    (hq : 1 ≤ pairMean N p (fun k => k)) :
    photonMean (absorptionMean a) (sternProfile η₀ W) N p detected
      ≤ probabilityMeasurement (pairMean N p fun k => k) (absorptionMean a (sternProfile η₀ W)) := by
  rw [photonMean_detected hp]
  unfold probabilityMeasurement
  set q := pairMean N p fun k => k with hqdef
  set m := absorptionMean a (sternProfile η₀ W) with hm
  have hpos : 0 < ∫ z in Set.Ioi (0 : ℝ), Real.exp (-(a * z)) := by
    rw [integral_exp_Ioi ha]
    have := Real.exp_pos (-(a * 0))
    positivity
  -- a linear bound of the integrand
  obtain ⟨A, B, hAB, hlin⟩ : ∃ A B : ℝ, A + B * m = 1 - (1 - m) ^ q
      ∧ ∀ z, 0 ≤ z → 1 - pairMean N p (fun n => (1 - sternProfile η₀ W z) ^ n)
        ≤ A + B * sternProfile η₀ W z + 0 * sternProfile η₀ W z ^ 2 := by
    have hm1 : m ≤ 1 := by
      have hQ := absorptionMean_quadratic ha hW η₀ 1 0 0
      have hone : absorptionMean a (fun _ => 1) = 1 := by simpa using hQ
      rw [hm, ← hone]
      unfold absorptionMean
      apply div_le_div_of_nonneg_right _ hpos.le
      apply MeasureTheory.setIntegral_mono_on
      · simpa using stern_integrable ha hW η₀ 1
      · simpa using stern_integrable ha hW η₀ 0
      · exact measurableSet_Ioi
      · intro z hz
        exact mul_le_mul_of_nonneg_right (stern_bound h0 h1 hW (le_of_lt hz)).2 (Real.exp_pos _).le
    rcases eq_or_lt_of_le hm1 with he | hlt
    · refine ⟨1, 0, ?_, fun z hz => ?_⟩
      · rw [he, sub_self, Real.zero_rpow (by linarith)]
        ring
      · have hb := stern_bound h0 h1 hW hz
        have : 0 ≤ pairMean N p (fun n => (1 - sternProfile η₀ W z) ^ n) :=
          Finset.sum_nonneg fun k _ => mul_nonneg (hp0 k) (pow_nonneg (by linarith) _)
        linarith
    · have hc : 0 < 1 - m := by linarith
      refine ⟨1 - (1 - m) ^ q - q * (1 - m) ^ (q - 1) * m, q * (1 - m) ^ (q - 1), by ring,
        fun z hz => ?_⟩
      have hb := stern_bound h0 h1 hW hz
      have t1 := pow_mean_ge hp0 hp (y := 1 - sternProfile η₀ W z) (by linarith) hq
      have t2 := rpow_tangent hc (y := 1 - sternProfile η₀ W z) (by linarith) hq
      linarith
  rw [← hAB]
  have hQ := absorptionMean_quadratic ha hW η₀ A B 0
  rw [show A + B * m = A + B * absorptionMean a (sternProfile η₀ W)
      + 0 * absorptionMean a (fun z => sternProfile η₀ W z ^ 2) by rw [← hm]; ring, ← hQ]
  unfold absorptionMean
  apply div_le_div_of_nonneg_right _ hpos.le
  apply MeasureTheory.setIntegral_mono_on (detected_integrable ha hW N p)
  · have e : (fun z => (A + B * sternProfile η₀ W z + 0 * sternProfile η₀ W z ^ 2)
          * Real.exp (-(a * z)))
        = fun z => A * (sternProfile η₀ W z ^ 0 * Real.exp (-(a * z)))
          + B * (sternProfile η₀ W z ^ 1 * Real.exp (-(a * z))) := by
      funext z
      ring
    rw [e]
    exact ((stern_integrable ha hW η₀ 0).const_mul A).add ((stern_integrable ha hW η₀ 1).const_mul B)
  · exact measurableSet_Ioi
  · intro z hz
    exact mul_le_mul_of_nonneg_right (hlin z (le_of_lt hz)) (Real.exp_pos _).le

/-- The distribution with exactly `n` pairs. -/
def exactly (n : ℕ) (k : ℕ) : ℝ := if k = n then 1 else 0

theorem pairMean_exactly {N n : ℕ} (h : n ≤ N) (f : ℕ → ℝ) : pairMean N (exactly n) f = f n := by
  unfold pairMean exactly
  simp [Nat.lt_succ_iff.2 h]

/-- **C60**: the two agree if each photon creates exactly one pair.  Missing: other numbers of pairs,
for which the claim fails (`C60_counterexample`). -/
theorem C60_single_partial (a W η₀ : ℝ) :
    photonMean (absorptionMean a) (sternProfile η₀ W) 1 (exactly 1) detected
      = probabilityMeasurement (pairMean 1 (exactly 1) fun k => k)
        (absorptionMean a (sternProfile η₀ W)) := by
  rw [photonMean_detected (pairMean_exactly le_rfl _)]
  simp only [pairMean_exactly le_rfl]
  unfold probabilityMeasurement
  simp

/-- **C60** fails for photons that create exactly two pairs: since both start at the same depth,
they are lost together more often than the formula has it. -/
theorem C60_counterexample {a W η₀ : ℝ} (ha : 0 < a) (hW : 0 < W) (h1 : η₀ < 1) :
    photonMean (absorptionMean a) (sternProfile η₀ W) 2 (exactly 2) detected
      < probabilityMeasurement (pairMean 2 (exactly 2) fun k => k)
        (absorptionMean a (sternProfile η₀ W)) := by
  rw [photonMean_detected (pairMean_exactly le_rfl _)]
  simp only [pairMean_exactly le_rfl]
  have hQ := absorptionMean_quadratic ha hW η₀ 0 2 (-1)
  have e : (fun z => 1 - (1 - sternProfile η₀ W z) ^ 2)
      = fun z => 0 + 2 * sternProfile η₀ W z + -1 * sternProfile η₀ W z ^ 2 := by
    funext z
    ring
  rw [e, hQ]
  unfold probabilityMeasurement
  have hv := efficiency_vmr (η₀ := η₀) ha hW
  have hz := mul_pos ha hW
  have h2 : a * W < Real.sinh (a * W) := Real.self_lt_sinh_iff.2 hz
  have h3 : 0 < 2 * Real.exp (-(a * W)) * ((η₀ - 1) / (a * W)) ^ 2 * (Real.sinh (a * W) - a * W) := by
    have : (η₀ - 1) / (a * W) ≠ 0 := div_ne_zero (by linarith) hz.ne'
    have := sub_pos.2 h2
    positivity
  rw [show ((2 : ℕ) : ℝ) = (2 : ℕ) from rfl, Real.rpow_natCast]
  linarith

/-- Photons of silicon with an implant of 0.23 µm that create two pairs. -/
example : photonMean (absorptionMean 1) (sternProfile 0.21 0.2317) 2 (exactly 2) detected
    < probabilityMeasurement 2 (absorptionMean 1 (sternProfile 0.21 0.2317)) := by
  have h := C60_counterexample (a := 1) (W := 0.2317) (η₀ := 0.21) one_pos (by norm_num) (by norm_num)
  rwa [pairMean_exactly le_rfl, Nat.cast_ofNat] at h

/-! ### C61 -/

/-- As `layerMean_stern`, for powers. -/
theorem layerMean_stern_pow {a W D : ℝ} (ha : 0 < a) (hW : 0 < W) (hD : W ≤ D) (η₀ : ℝ) (j : ℕ) :
    layerMean a D (fun z => sternProfile η₀ W z ^ j) * (1 - Real.exp (-(a * D)))
      = absorptionMean a (fun z => sternProfile η₀ W z ^ j) - Real.exp (-(a * D)) := by
  have hD0 : 0 < D := lt_of_lt_of_le hW hD
  unfold layerMean absorptionMean
  have hs := stern_integrable ha hW η₀ j
  have he := (stern_integrable ha hW η₀ 0)
  simp only [pow_zero, one_mul] at he
  have sub : Set.Ioi D ⊆ Set.Ioi (0 : ℝ) := fun x hx => lt_trans hD0 hx
  have s1 := intervalIntegral.integral_Ioi_sub_Ioi' hs (hs.mono_set sub)
  have s2 := intervalIntegral.integral_Ioi_sub_Ioi' he (he.mono_set sub)
  have t1 : ∫ z in Set.Ioi D, sternProfile η₀ W z ^ j * Real.exp (-(a * z))
      = ∫ z in Set.Ioi D, Real.exp (-(a * z)) := by
    apply MeasureTheory.setIntegral_congr_fun measurableSet_Ioi
    intro z hz
    have : ¬ z < W := not_lt.2 (le_trans hD (le_of_lt hz))
    simp only [sternProfile, if_neg this, one_pow, one_mul]
  rw [t1] at s1
  rw [← s1, ← s2, integral_exp_Ioi ha, integral_exp_Ioi ha]
  have hlt : Real.exp (-(a * D)) < 1 := by rw [Real.exp_lt_one_iff]; nlinarith
  have h1 : (1 : ℝ) - Real.exp (-(a * D)) ≠ 0 := by linarith
  rw [mul_zero, neg_zero, Real.exp_zero]
  generalize Real.exp (-(a * D)) = E at *
  have := ha.ne'
  field_simp

theorem exp_integral {a : ℝ} (ha : a ≠ 0) (D : ℝ) :
    ∫ z in (0 : ℝ)..D, Real.exp (-(a * z)) = (1 - Real.exp (-(a * D))) / a := by
  have hd : ∀ z ∈ Set.uIcc 0 D,
      HasDerivAt (fun z => -(Real.exp (-(a * z))) / a) (Real.exp (-(a * z))) z := by
    intro z _
    have h1 : HasDerivAt (fun z => -(a * z)) (-(a * 1)) z := ((hasDerivAt_id z).const_mul a).fun_neg
    exact ((h1.exp.fun_neg).div_const a).congr_deriv (by field_simp)
  rw [intervalIntegral.integral_eq_sub_of_hasDerivAt hd
    (Continuous.intervalIntegrable (by fun_prop) _ _)]
  simp
  ring

/-- **C61**: the photons are divided by the depth at which they are absorbed: `fraction_partial` is
the probability of the implant. -/
theorem C61_fraction {a W D : ℝ} (ha : 0 < a) (hW : 0 < W) (hD : W ≤ D) :
    fractionPartial a W D = some (layerMean a D fun z => if z < W then 1 else 0) := by
  have hD0 : 0 < D := lt_of_lt_of_le hW hD
  have hlt : Real.exp (-(a * D)) < 1 := by rw [Real.exp_lt_one_iff]; nlinarith
  have h1 : (1 : ℝ) - Real.exp (-(a * D)) ≠ 0 := by linarith
  unfold fractionPartial
  rw [div?_of_ne h1]
  unfold layerMean
  have hint : ∫ z in (0 : ℝ)..D, (if z < W then (1 : ℝ) else 0) * Real.exp (-(a * z))
      = ∫ z in (0 : ℝ)..W, Real.exp (-(a * z)) := by
    rw [intervalIntegral.integral_of_le hD0.le, intervalIntegral.integral_of_le hW.le,
      MeasureTheory.integral_Ioc_eq_integral_Ioo (y := W)]
    have hsub : Set.Ioo 0 W ⊆ Set.Ioc 0 D := fun z hz => ⟨hz.1, hz.2.le.trans hD⟩
    have hI := MeasureTheory.setIntegral_indicator (μ := volume) (s := Set.Ioc 0 D)
      (f := fun z => Real.exp (-(a * z))) (measurableSet_Ioo (a := (0 : ℝ)) (b := W))
    rw [Set.inter_eq_self_of_subset_right hsub] at hI
    rw [← hI]
    apply MeasureTheory.setIntegral_congr_fun measurableSet_Ioc
    intro z hz
    by_cases h : z < W
    · simp [h, hz.1]
    · simp [h]
  rw [hint, exp_integral ha.ne', exp_integral ha.ne']
  congr 1
  have := ha.ne'
  field_simp

/-- The conditional mean and variance of the collection efficiency in the implant. -/
theorem implant_moments {a W : ℝ} (ha : 0 < a) (hW : 0 < W) (n0 : ℝ) :
    n0 + (1 - n0) / (a * W) + (1 - n0) / (1 - Real.exp (a * W))
        = layerMean a W (sternProfile n0 W)
      ∧ (n0 - 1) ^ 2 * (4 / (a * W) ^ 2 - 1 / Real.sinh (a * W / 2) ^ 2) / 4
        = layerMean a W (fun z => sternProfile n0 W z ^ 2) - layerMean a W (sternProfile n0 W) ^ 2 := by
  have hz := mul_pos ha hW
  have l1 := layerMean_stern ha hW le_rfl n0
  have l2 := layerMean_stern_pow ha hW le_rfl n0 2
  rw [sternProfile_mean ha hW] at l1
  rw [sternProfile_sq_mean ha hW] at l2
  have hE1 : 1 < Real.exp (a * W) := Real.one_lt_exp_iff.2 hz
  have hs : Real.sinh (a * W / 2) ^ 2 = (Real.exp (a * W) - 1) ^ 2 / (4 * Real.exp (a * W)) := by
    rw [Real.sinh_eq, Real.exp_neg]
    have e : Real.exp (a * W) = Real.exp (a * W / 2) ^ 2 := by rw [← Real.exp_nat_mul]; ring_nf
    rw [e]
    have := (Real.exp_pos (a * W / 2)).ne'
    field_simp
    ring
  rw [hs]
  rw [Real.exp_neg] at l1 l2
  generalize layerMean a W (sternProfile n0 W) = L1 at *
  generalize layerMean a W (fun z => sternProfile n0 W z ^ 2) = L2 at *
  generalize Real.exp (a * W) = E at *
  generalize a * W = x at *
  have hE0 : E ≠ 0 := by linarith
  have hE : E - 1 ≠ 0 := by linarith
  have hE' : 1 - E ≠ 0 := by linarith
  have hx := hz.ne'
  have hi : (1 : ℝ) - E⁻¹ ≠ 0 := by
    intro h
    have : E⁻¹ = 1 := by linarith
    rw [inv_eq_one] at this
    exact hE (by linarith)
  have e1 := eq_div_of_mul_eq hi l1
  have e2 := eq_div_of_mul_eq hi l2
  have hi' : (1 : ℝ) - E⁻¹ = (E - 1) / E := by field_simp
  rw [hi'] at e1 e2
  constructor
  · rw [e1, show 1 - E = -(E - 1) by ring]
    field_simp
    ring
  · rw [e1, e2]
    field_simp
    ring

/-- **C61**: `mean_i` and `var_i` are the mean and the variance of the number of electrons that are
measured of one photon absorbed in the implant. -/
theorem C61_moments {a W : ℝ} (ha : 0 < a) (hW : 0 < W) (n0 : ℝ) {N : ℕ} {p : ℕ → ℝ}
    (hp : pairMean N p (fun _ => 1) = 1) {fano : ℝ}
    (hfano : pairMean N p (fun k => (k : ℝ) ^ 2) - pairMean N p (fun k => k) ^ 2
      = fano * pairMean N p (fun k => k)) :
    ∃ mean var, approxMoments (pairMean N p fun k => k) fano a W n0 = some (mean, var)
      ∧ mean = photonMean (layerMean a W) (sternProfile n0 W) N p (fun m => m)
      ∧ var = photonMean (layerMean a W) (sternProfile n0 W) N p (fun m => (m : ℝ) ^ 2)
        - photonMean (layerMean a W) (sternProfile n0 W) N p (fun m => m) ^ 2 := by
  have hz := mul_pos ha hW
  have hE : (1 : ℝ) - Real.exp (a * W) ≠ 0 := by
    have : 1 < Real.exp (a * W) := Real.one_lt_exp_iff.2 hz
    linarith
  have hs : Real.sinh (a * W / 2) ^ 2 ≠ 0 := by
    have : 0 < Real.sinh (a * W / 2) := Real.sinh_pos_iff.2 (by linarith)
    positivity
  obtain ⟨i1, i2⟩ := implant_moments ha hW n0
  have hQ := layerMean_quadratic ha.ne' hW hW n0
  have em := photonMean_quadratic hQ hp 0 1 0
  have es := photonMean_quadratic hQ hp 0 0 1
  simp only [zero_add, one_mul, zero_mul, add_zero] at em es
  refine ⟨_, _, by
    unfold approxMoments
    simp only [div?_of_ne hz.ne', div?_of_ne hE, div?_of_ne (pow_ne_zero 2 hz.ne'), div?_of_ne hs,
      Option.bind_eq_bind, Option.bind_some, Option.pure_def, i1, i2]
    rfl, ?_, ?_⟩
  · rw [em]
    rfl
  · rw [em, es]
    unfold firstMoment secondMoment
    have h2 : pairMean N p (fun k => (k : ℝ) ^ 2)
        = fano * pairMean N p (fun k => k) + pairMean N p (fun k => k) ^ 2 := by linarith
    rw [h2]
    ring

/-- **C61**: the mean of the approximate number of electrons is that of the exact simulation, for
every number of photons. -/
theorem C61_mean {a W D : ℝ} (ha : 0 < a) (hW : 0 < W) (hD : W ≤ D) {n0 : ℝ} (h0 : 0 ≤ n0)
    (h1 : n0 ≤ 1) {N : ℕ} {p : ℕ → ℝ} (hp : pairMean N p (fun _ => 1) = 1) {fano : ℝ}
    (hfano : pairMean N p (fun k => (k : ℝ) ^ 2) - pairMean N p (fun k => k) ^ 2
      = fano * pairMean N p (fun k => k)) (hq : 0 < pairMean N p (fun k => k)) (photons : ℕ) :
    ∃ (fraction : ℝ) (gammas : ℕ → (ℝ × ℝ) × (ℝ × ℝ)), fractionPartial a W D = some fraction
      ∧ (∀ k ≤ photons, approxGammas (pairMean N p fun k => k) fano a W n0 k ((photons : ℝ) - k)
          = some (gammas k))
      ∧ binomialMean photons fraction (fun k => (gammas k).1.1 + (gammas k).2.1)
        = photonsMean (layerMean a D) (sternProfile n0 W) N p photons (fun m => m) := by
  obtain ⟨mean, var, hm, e1, e2⟩ := C61_moments ha hW n0 hp hfano
  have hD0 : 0 < D := lt_of_lt_of_le hW hD
  have hE : (1 : ℝ) - Real.exp (-(a * D)) ≠ 0 := by
    have : Real.exp (-(a * D)) < 1 := by rw [Real.exp_lt_one_iff]; nlinarith
    linarith
  have hQ := layerMean_quadratic ha.ne' hW hW n0
  have em := photonMean_quadratic hQ hp 0 1 0
  simp only [zero_add, one_mul, zero_mul, add_zero] at em
  have hL : 0 < layerMean a W (sternProfile n0 W) := by
    have l1 := layerMean_stern ha hW le_rfl n0
    rw [sternProfile_mean ha hW] at l1
    have hz := mul_pos ha hW
    have hlt : Real.exp (-(a * W)) < 1 := by rw [Real.exp_lt_one_iff]; linarith
    have hpos : 0 < 1 - Real.exp (-(a * W)) := by linarith
    unfold layerMean
    apply div_pos
    · apply intervalIntegral.intervalIntegral_pos_of_pos_on
      · have e : ∀ z, sternProfile n0 W z = n0 + (1 - n0) * (min z W / W) := by
          intro z
          unfold sternProfile
          split_ifs with h
          · rw [min_eq_left h.le]
          · rw [min_eq_right (not_lt.1 h), div_self hW.ne']; ring
        simp only [e]
        exact Continuous.intervalIntegrable (by fun_prop) _ _
      · intro z hz
        have := Real.exp_pos (-(a * z))
        have : 0 < sternProfile n0 W z := by
          unfold sternProfile
          rw [if_pos hz.2]
          have h3 : 0 < z / W := div_pos hz.1 hW
          have h4 : z / W < 1 := by rw [div_lt_one hW]; exact hz.2
          nlinarith
        positivity
      · exact hW
    · exact intervalIntegral.intervalIntegral_pos_of_pos
        (Continuous.intervalIntegrable (by fun_prop) _ _) (fun z => Real.exp_pos _) hW
  have hmean : mean ≠ 0 := by
    rw [e1, em]
    unfold firstMoment
    positivity
  refine ⟨_, fun k => ((k * mean,
    (div? 1 (6 * (k * mean))).elim fano fun q => max (var / mean - q) fano), (((photons : ℝ) - k) * (pairMean N p fun k => k), fano)),
    div?_of_ne hE, ?_, ?_⟩
  · intro k _
    unfold approxGammas
    simp only [hm, Option.bind_eq_bind, Option.bind_some, div?_of_ne hmean, Option.pure_def]
  · simp only
    have hb := binomialMean_quadratic photons ((1 - Real.exp (-(a * W))) / (1 - Real.exp (-(a * D))))
      (photons * pairMean N p fun k => k) (mean - pairMean N p fun k => k) 0
    have hx := photonsMean_quadratic (layerMean_quadratic ha.ne' hD0 hW n0) hp photons 0 1 0
    simp only [zero_add, one_mul, zero_mul, add_zero] at hb hx
    rw [hx]
    refine Eq.trans (congrArg _ (funext fun k => ?_)) (hb.trans ?_)
    · ring
    · rw [e1, em]
      unfold firstMoment
      have l1 := layerMean_stern ha hW le_rfl n0
      have l2 := layerMean_stern ha hW hD n0
      rw [← sub_eq_zero]
      field_simp
      linear_combination (photons * pairMean N p fun k => k) * (l1 - l2)

/-! ### Rounding -/

theorem uniform_ite {t : ℝ} (h0 : 0 ≤ t) (h1 : t ≤ 1) (A B : ℝ) :
    ∫ u in (0 : ℝ)..1, (if u < t then A else B) = t * A + (1 - t) * B := by
  have hm : Measurable fun u : ℝ => if u < t then A else B :=
    Measurable.ite measurableSet_Iio measurable_const measurable_const
  have hi : ∀ x y : ℝ, IntervalIntegrable (fun u : ℝ => if u < t then A else B) volume x y := by
    intro x y
    rw [intervalIntegrable_iff]
    refine Measure.integrableOn_of_bounded (M := max |A| |B|) (by simp) hm.aestronglyMeasurable ?_
    refine Filter.Eventually.of_forall fun u => ?_
    split_ifs
    · exact le_max_left _ _
    · exact le_max_right _ _
  rw [← intervalIntegral.integral_add_adjacent_intervals (hi 0 t) (hi t 1)]
  have e1 : ∫ u in (0 : ℝ)..t, (if u < t then A else B) = ∫ _ in (0 : ℝ)..t, A := by
    rw [intervalIntegral.integral_of_le h0, intervalIntegral.integral_of_le h0,
      MeasureTheory.integral_Ioc_eq_integral_Ioo, MeasureTheory.integral_Ioc_eq_integral_Ioo]
    apply MeasureTheory.setIntegral_congr_fun measurableSet_Ioo
    intro u hu
    simp [hu.2]
  have e2 : ∫ u in t..(1 : ℝ), (if u < t then A else B) = ∫ _ in t..(1 : ℝ), B := by
    apply intervalIntegral.integral_congr
    intro u hu
    rw [Set.uIcc_of_le h1] at hu
    simp [not_lt.2 hu.1]
  rw [e1, e2]
  simp

/-- **C61**: the number of electrons is a whole number, within one of the sample of the gamma
distribution; its mean over the random number of the rounding is the sample, and the rounding adds
the variance `f (1 - f)` for the fractional part `f`, on the average 1/6. -/
theorem C61_rounding {mean vmr x : ℝ} (hv : vmr ≠ 0) :
    (∀ u, ∃ n : ℤ, discreteGamma mean vmr x u = n ∧ |(n : ℝ) - x| ≤ 1)
      ∧ ∫ u in (0 : ℝ)..1, discreteGamma mean vmr x u = x
      ∧ ∫ u in (0 : ℝ)..1, (discreteGamma mean vmr x u - x) ^ 2
        = Int.fract x * (1 - Int.fract x) := by
  have h0 := Int.fract_nonneg x
  have h1 := Int.fract_lt_one x
  have hx := Int.floor_add_fract x
  have e : ∀ u, discreteGamma mean vmr x u
      = if u < Int.fract x then (⌊x⌋ : ℝ) + 1 else ⌊x⌋ := by
    intro u
    unfold discreteGamma
    simp only [ne_eq, hv, not_false_eq_true, if_true]
    split_ifs <;> simp
  refine ⟨fun u => ?_, ?_, ?_⟩
  · rw [e]
    split_ifs
    · refine ⟨⌊x⌋ + 1, by push_cast; ring, ?_⟩
      push_cast
      rw [abs_le]
      constructor <;> linarith
    · refine ⟨⌊x⌋, rfl, ?_⟩
      rw [abs_le]
      constructor <;> linarith
  · simp only [e]
    rw [uniform_ite h0 h1.le]
    linarith
  · have e2 : ∀ u, (discreteGamma mean vmr x u - x) ^ 2
        = if u < Int.fract x then (1 - Int.fract x) ^ 2 else Int.fract x ^ 2 := by
      intro u
      rw [e]
      split_ifs
      · congr 1; linarith
      · rw [← neg_sq]; congr 1; linarith
    simp only [e2]
    rw [uniform_ite h0 h1.le]
    ring

/-- **C61**: without Fano noise nothing is random about the sample: the number is the mean, rounded. -/
theorem C61_no_fano (mean x u : ℝ) : discreteGamma mean 0 x u
    = ⌊mean⌋ + if u < Int.fract mean then 1 else 0 := by
  simp [discreteGamma]

/-- **C61**: the variance of the gamma distribution of the photons absorbed in the implant and the
average variance of the rounding, 1/6, add up to the variance of the exact simulation.  Missing:
this takes the fractional part of the sample to be uniform, and small numbers of electrons, for
which the variance is limited from below. -/
theorem C61_variance_partial {a W : ℝ} (ha : 0 < a) (hW : 0 < W) {n0 : ℝ}
    {N : ℕ} {p : ℕ → ℝ} (hp : pairMean N p (fun _ => 1) = 1) {fano : ℝ}
    (hfano : pairMean N p (fun k => (k : ℝ) ^ 2) - pairMean N p (fun k => k) ^ 2
      = fano * pairMean N p (fun k => k)) {k : ℕ} {complete : ℝ} {g : (ℝ × ℝ) × (ℝ × ℝ)}
    (hg : approxGammas (pairMean N p fun k => k) fano a W n0 k complete = some g)
    (hk : 0 < g.1.1) (hlarge : fano < g.1.2) :
    g.1.1 * g.1.2 + 1 / 6
      = photonsMean (layerMean a W) (sternProfile n0 W) N p k (fun m => (m : ℝ) ^ 2)
        - photonsMean (layerMean a W) (sternProfile n0 W) N p k (fun m => m) ^ 2 := by
  obtain ⟨mean, var, hm, e1, e2⟩ := C61_moments ha hW n0 hp hfano
  unfold approxGammas at hg
  simp only [hm, Option.bind_eq_bind, Option.bind_some, Option.bind_eq_some_iff, Option.pure_def,
    Option.some.injEq] at hg
  obtain ⟨v, hv, rfl⟩ := hg
  simp only at hk hlarge ⊢
  have hmean : mean ≠ 0 := by rintro rfl; simp at hk
  have h6 : 6 * ((k : ℝ) * mean) ≠ 0 := by
    have := hk.ne'
    positivity
  rw [div?_of_ne hmean, Option.some.injEq] at hv
  simp only [div?_of_ne h6, Option.elim_some] at hlarge ⊢
  have hmax : max (v - 1 / (6 * ((k : ℝ) * mean))) fano = v - 1 / (6 * ((k : ℝ) * mean)) := by
    apply max_eq_left
    by_contra hcon
    push Not at hcon
    rw [max_eq_right hcon.le] at hlarge
    exact lt_irrefl _ hlarge
  rw [hmax]
  have hQ := layerMean_quadratic ha.ne' hW hW n0
  have em := photonsMean_quadratic hQ hp k 0 1 0
  have es := photonsMean_quadratic hQ hp k 0 0 1
  have fm := photonMean_quadratic hQ hp 0 1 0
  have fs := photonMean_quadratic hQ hp 0 0 1
  simp only [zero_add, one_mul, zero_mul, add_zero] at em es fm fs
  rw [em, es, ← fm, ← fs]
  rw [← e1] at e2 ⊢
  have e3 : photonMean (layerMean a W) (sternProfile n0 W) N p (fun m => (m : ℝ) ^ 2)
      = var + mean ^ 2 := by linarith
  rw [e3, ← hv]
  have : (k : ℝ) ≠ 0 := by rintro h; rw [h] at hk; simp at hk
  field_simp
  ring

/-- One or two pairs with equal probability in silicon of 7 µm. -/
example : ∃ (fraction : ℝ) (gammas : ℕ → (ℝ × ℝ) × (ℝ × ℝ)),
    fractionPartial 1 0.2317 7 = some fraction
    ∧ (∀ k : ℕ, k ≤ 100 → approxGammas (3 / 2) (1 / 6) 1 0.2317 0.21 k ((100 : ℕ) - k) = some (gammas k))
    ∧ binomialMean 100 fraction (fun k => (gammas k).1.1 + (gammas k).2.1)
      = photonsMean (layerMean 1 7) (sternProfile 0.21 0.2317) 2
        (fun k => if k = 0 then 0 else 1 / 2) 100 (fun m => m) := by
  have hq : pairMean 2 (fun k => if k = 0 then 0 else 1 / 2) (fun k => k) = 3 / 2 := by
    norm_num [pairMean, Finset.sum_range_succ]
  have h := C61_mean (a := 1) (W := 0.2317) (D := 7) (n0 := 0.21) (fano := 1 / 6) one_pos
    (by norm_num) (by norm_num) (by norm_num) (by norm_num) (N := 2)
    (p := fun k => if k = 0 then 0 else 1 / 2) (by norm_num [pairMean, Finset.sum_range_succ])
    (by norm_num [pairMean, Finset.sum_range_succ]) (by rw [hq]; norm_num) 100
  rwa [hq] at h

/-- The density of the gamma distribution with a shape and a scale. -/
noncomputable def gammaDensity (shape scale x : ℝ) : ℝ :=
  x ^ (shape - 1) * Real.exp (-(x / scale)) / (scale ^ shape * Real.Gamma shape)

theorem gamma_moment {k θ : ℝ} (hk : 0 < k) (hθ : 0 < θ) (n : ℕ) :
    ∫ x in Set.Ioi 0, x ^ n * gammaDensity k θ x
      = θ ^ n * (Real.Gamma (k + n) / Real.Gamma k) := by
  have e : ∀ x ∈ Set.Ioi (0 : ℝ), x ^ n * gammaDensity k θ x
      = (x ^ ((k + n) - 1) * Real.exp (-(θ⁻¹ * x))) * (θ ^ k * Real.Gamma k)⁻¹ := by
    intro x hx
    have hx : 0 < x := hx
    unfold gammaDensity
    rw [show k + n - 1 = (k - 1) + n by ring, Real.rpow_add hx, Real.rpow_natCast,
      show θ⁻¹ * x = x / θ by ring]
    ring
  rw [setIntegral_congr_fun measurableSet_Ioi e, integral_mul_const,
    Real.integral_rpow_mul_exp_neg_mul_Ioi (by positivity) (inv_pos.2 hθ), one_div, inv_inv,
    Real.rpow_add hθ, Real.rpow_natCast]
  have h1 : θ ^ k ≠ 0 := (Real.rpow_pos_of_pos hθ k).ne'
  have h2 : Real.Gamma k ≠ 0 := (Real.Gamma_pos_of_pos hk).ne'
  field_simp

/-- **C61**: the samples are drawn from a gamma distribution with the mean and the ratio of variance
to mean that are asked for. -/
theorem C61_gamma {mean vmr : ℝ} (hm : 0 < mean) (hv : 0 < vmr) {shape scale : ℝ}
    (h : gammaParameters mean vmr = some (shape, scale)) :
    ∫ x in Set.Ioi 0, gammaDensity shape scale x = 1
      ∧ ∫ x in Set.Ioi 0, x * gammaDensity shape scale x = mean
      ∧ (∫ x in Set.Ioi 0, x ^ 2 * gammaDensity shape scale x) - mean ^ 2 = vmr * mean := by
  unfold gammaParameters at h
  simp only [div?_of_ne hv.ne', Option.bind_eq_bind, Option.bind_some, Option.pure_def,
    Option.some.injEq, Prod.mk.injEq] at h
  obtain ⟨rfl, rfl⟩ := h
  have hk : 0 < mean / vmr := by positivity
  have hG : Real.Gamma (mean / vmr) ≠ 0 := (Real.Gamma_pos_of_pos hk).ne'
  refine ⟨?_, ?_, ?_⟩
  · have := gamma_moment hk hv 0
    simpa [hG] using this
  · have := gamma_moment hk hv 1
    simp only [pow_one, Nat.cast_one, Real.Gamma_add_one hk.ne'] at this
    rw [this]
    field_simp
  · have := gamma_moment hk hv 2
    have e : mean / vmr + ((2 : ℕ) : ℝ) = (mean / vmr + 1) + 1 := by push_cast; ring
    rw [e, Real.Gamma_add_one (by positivity), Real.Gamma_add_one hk.ne'] at this
    rw [this]
    field_simp
    ring

/-- Ten electrons with a Fano factor of 0.1. -/
example : gammaParameters 10 (1 / 10) = some (100, 1 / 10) := by
  norm_num [gammaParameters, div?_of_ne]

end Optika
