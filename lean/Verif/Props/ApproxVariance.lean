import Verif.Props.Approx
import Mathlib.MeasureTheory.Function.Floor

/-!
# C61: the variance of the approximate number of electrons
-/

namespace Optika
open MeasureTheory

/-- The variance of the number of electrons that the approximate simulation draws: over the sample of the gamma distribution
and over the random number of the rounding. -/
noncomputable def drawnVariance (mean vmr shape scale : ℝ) : ℝ :=
  ∫ x in Set.Ioi 0, (∫ u in (0 : ℝ)..1, (discreteGamma mean vmr x u - mean) ^ 2) * gammaDensity shape scale x

theorem rounded_variance {mean vmr : ℝ} (hv : vmr ≠ 0) (x : ℝ) :
    ∫ u in (0 : ℝ)..1, (discreteGamma mean vmr x u - mean) ^ 2
      = (x - mean) ^ 2 + Int.fract x * (1 - Int.fract x) := by
  have h0 := Int.fract_nonneg x
  have h1 := Int.fract_lt_one x
  have hx := Int.floor_add_fract x
  have e : ∀ u, (discreteGamma mean vmr x u - mean) ^ 2
      = if u < Int.fract x then ((⌊x⌋ : ℝ) + 1 - mean) ^ 2 else ((⌊x⌋ : ℝ) - mean) ^ 2 := by
    intro u
    unfold discreteGamma
    simp only [ne_eq, hv, not_false_eq_true, if_true]
    split_ifs <;> ring
  simp only [e]
  rw [uniform_ite h0 h1.le]
  have : (⌊x⌋ : ℝ) = x - Int.fract x := by linarith
  rw [this]
  ring

theorem density_pos {shape scale x : ℝ} (hk : 0 < shape) (hs : 0 < scale) (hx : 0 < x) :
    0 < gammaDensity shape scale x := by
  unfold gammaDensity
  have := Real.Gamma_pos_of_pos hk
  positivity

/-- **C61**: the number of electrons drawn with a mean and a ratio of variance to mean has a larger variance than asked for, by
the mean of `f (1 - f)` over the fractional parts `f` of the samples, which is positive and at most a quarter. -/
theorem C61_excess {mean vmr : ℝ} (hm : 0 < mean) (hv : 0 < vmr) {shape scale : ℝ}
    (h : gammaParameters mean vmr = some (shape, scale)) :
    drawnVariance mean vmr shape scale = vmr * mean
        + ∫ x in Set.Ioi 0, (Int.fract x * (1 - Int.fract x)) * gammaDensity shape scale x
      ∧ vmr * mean < drawnVariance mean vmr shape scale ∧ drawnVariance mean vmr shape scale ≤ vmr * mean + 1 / 4 := by
  obtain ⟨m0, m1, m2⟩ := C61_gamma hm hv h
  have hpar := h
  unfold gammaParameters at hpar
  simp only [div?_of_ne hv.ne', Option.bind_eq_bind, Option.bind_some, Option.pure_def,
    Option.some.injEq, Prod.mk.injEq] at hpar
  have hk : 0 < shape := by rw [← hpar.1]; positivity
  have hs : 0 < scale := by rw [← hpar.2]; exact hv
  have i0 : IntegrableOn (fun x => gammaDensity shape scale x) (Set.Ioi 0) := by
    by_contra hc; rw [integral_undef hc] at m0; norm_num at m0
  have i1 : IntegrableOn (fun x => x * gammaDensity shape scale x) (Set.Ioi 0) := by
    by_contra hc; rw [integral_undef hc] at m1; linarith
  have i2 : IntegrableOn (fun x => x ^ 2 * gammaDensity shape scale x) (Set.Ioi 0) := by
    by_contra hc; rw [integral_undef hc] at m2; nlinarith [mul_pos hv hm, mul_pos hm hm]
  have hb : ∀ x : ℝ, 0 ≤ Int.fract x * (1 - Int.fract x) ∧ Int.fract x * (1 - Int.fract x) ≤ 1 / 4 := by
    intro x
    have h0 := Int.fract_nonneg x
    have h1 := Int.fract_lt_one x
    exact ⟨mul_nonneg h0 (by linarith), by nlinarith [sq_nonneg (Int.fract x - 1 / 2)]⟩
  have hmeas : Measurable fun x : ℝ => Int.fract x * (1 - Int.fract x) :=
    measurable_fract.mul (measurable_const.sub measurable_fract)
  have ir : IntegrableOn (fun x => (Int.fract x * (1 - Int.fract x)) * gammaDensity shape scale x) (Set.Ioi 0) := by
    refine i0.bdd_mul (c := 1 / 4) hmeas.aestronglyMeasurable (.of_forall fun x => ?_)
    rw [Real.norm_eq_abs, abs_of_nonneg (hb x).1]
    exact (hb x).2
  have e : drawnVariance mean vmr shape scale = vmr * mean
      + ∫ x in Set.Ioi 0, (Int.fract x * (1 - Int.fract x)) * gammaDensity shape scale x := by
    unfold drawnVariance
    have : ∀ x, (∫ u in (0 : ℝ)..1, (discreteGamma mean vmr x u - mean) ^ 2) * gammaDensity shape scale x
        = (x ^ 2 * gammaDensity shape scale x - (2 * mean) * (x * gammaDensity shape scale x)
          + mean ^ 2 * gammaDensity shape scale x) + (Int.fract x * (1 - Int.fract x)) * gammaDensity shape scale x := by
      intro x
      rw [rounded_variance hv.ne']
      ring
    simp only [this]
    have j1 : IntegrableOn (fun x => x ^ 2 * gammaDensity shape scale x - (2 * mean) * (x * gammaDensity shape scale x))
        (Set.Ioi 0) := i2.sub (i1.const_mul _)
    have j2 : IntegrableOn (fun x => x ^ 2 * gammaDensity shape scale x - (2 * mean) * (x * gammaDensity shape scale x)
        + mean ^ 2 * gammaDensity shape scale x) (Set.Ioi 0) := j1.add (i0.const_mul _)
    rw [integral_add j2 ir, integral_add j1 (i0.const_mul _), integral_sub i2 (i1.const_mul _), integral_const_mul,
      integral_const_mul, m0, m1]
    linarith
  have hpos : 0 < ∫ x in Set.Ioi 0, (Int.fract x * (1 - Int.fract x)) * gammaDensity shape scale x := by
    rw [setIntegral_pos_iff_support_of_nonneg_ae ?_ ir]
    · have hsub : Set.Ioo (0 : ℝ) 1 ⊆ (Function.support fun x : ℝ =>
          (Int.fract x * (1 - Int.fract x)) * gammaDensity shape scale x) ∩ Set.Ioi 0 := by
        intro x hx
        refine ⟨?_, hx.1⟩
        have hf : Int.fract x = x := Int.fract_eq_self.2 ⟨hx.1.le, hx.2⟩
        rw [Function.mem_support, hf]
        have := density_pos hk hs hx.1
        have h1 : 0 < 1 - x := by linarith [hx.2]
        have := hx.1
        positivity
      refine lt_of_lt_of_le ?_ (measure_mono hsub)
      simp
    · refine (ae_restrict_iff' measurableSet_Ioi).2 (.of_forall fun x hx => ?_)
      exact mul_nonneg (hb x).1 (density_pos hk hs hx).le
  have hle : ∫ x in Set.Ioi 0, (Int.fract x * (1 - Int.fract x)) * gammaDensity shape scale x ≤ 1 / 4 := by
    calc _ ≤ ∫ x in Set.Ioi 0, 1 / 4 * gammaDensity shape scale x := by
          refine setIntegral_mono_on ir (i0.const_mul _) measurableSet_Ioi fun x hx => ?_
          exact mul_le_mul_of_nonneg_right (hb x).2 (density_pos hk hs hx).le
      _ = 1 / 4 := by rw [integral_const_mul, m0, mul_one]
  exact ⟨e, by rw [e]; linarith, by rw [e]; linarith⟩

/-- **C61** fails: where all charges are collected, the variance of the approximate number of electrons is larger than that of
the exact simulation for every number of photons and every distribution of pairs with Fano noise, since the variance of the
rounding comes on top. -/
theorem C61_variance_counterexample {a W : ℝ} (ha : 0 < a) (hW : 0 < W) {N : ℕ} {p : ℕ → ℝ}
    (hp : pairMean N p (fun _ => 1) = 1) {fano : ℝ} (hf : 0 < fano)
    (hfano : pairMean N p (fun k => (k : ℝ) ^ 2) - pairMean N p (fun k => k) ^ 2
      = fano * pairMean N p (fun k => k)) (hq : 0 < pairMean N p (fun k => k)) {k : ℕ} (hk : 0 < k) :
    ∃ g shape scale, approxGammas (pairMean N p fun k => k) fano a W 1 k 0 = some g
      ∧ gammaParameters g.1.1 g.1.2 = some (shape, scale)
      ∧ photonsMean (layerMean a W) (sternProfile 1 W) N p k (fun m => (m : ℝ) ^ 2)
        - photonsMean (layerMean a W) (sternProfile 1 W) N p k (fun m => m) ^ 2
        < drawnVariance g.1.1 g.1.2 shape scale := by
  obtain ⟨mean, var, hm, e1, e2⟩ := C61_moments ha hW 1 hp hfano
  have hz := mul_pos ha hW
  have hE : (1 : ℝ) - Real.exp (a * W) ≠ 0 := by
    have : 1 < Real.exp (a * W) := Real.one_lt_exp_iff.2 hz
    linarith
  have hs : Real.sinh (a * W / 2) ^ 2 ≠ 0 := by
    have : 0 < Real.sinh (a * W / 2) := Real.sinh_pos_iff.2 (by linarith)
    positivity
  have hm' := hm
  unfold approxMoments at hm'
  simp only [div?_of_ne hz.ne', div?_of_ne hE, div?_of_ne (pow_ne_zero 2 hz.ne'), div?_of_ne hs, Option.bind_eq_bind,
    Option.bind_some, Option.pure_def, Option.some.injEq, Prod.mk.injEq] at hm'
  have hmean : mean = pairMean N p fun k => k := by rw [← hm'.1]; simp
  have hvar : var = fano * pairMean N p fun k => k := by rw [← hm'.2]; simp
  have hk' : (0 : ℝ) < k := by exact_mod_cast hk
  have hpos : 0 < (k : ℝ) * mean := by rw [hmean]; positivity
  have hg : approxGammas (pairMean N p fun k => k) fano a W 1 k 0 = some (((k : ℝ) * mean, fano), (0, fano)) := by
    unfold approxGammas
    simp only [hm, Option.bind_eq_bind, Option.bind_some, Option.pure_def, zero_mul]
    rw [div?_of_ne (by rw [hmean]; exact hq.ne'), div?_of_ne (by positivity)]
    simp only [Option.bind_some, Option.elim_some]
    have hv : var / mean = fano := by rw [hvar, hmean]; field_simp
    rw [hv, max_eq_right (by
      have : 0 < 1 / (6 * ((k : ℝ) * mean)) := by positivity
      linarith)]
  refine ⟨_, _, _, hg, by simp only [gammaParameters, div?_of_ne hf.ne']; rfl, ?_⟩
  have hex := (C61_excess hpos hf (shape := (k : ℝ) * mean / fano) (scale := fano)
    (by simp only [gammaParameters, div?_of_ne hf.ne']; rfl)).2.1
  refine lt_of_eq_of_lt ?_ hex
  have hQ := layerMean_quadratic ha.ne' hW hW 1
  have em := photonsMean_quadratic hQ hp k 0 1 0
  have es := photonsMean_quadratic hQ hp k 0 0 1
  have fm := photonMean_quadratic hQ hp 0 1 0
  have fs := photonMean_quadratic hQ hp 0 0 1
  simp only [zero_add, one_mul, zero_mul, add_zero] at em es fm fs
  rw [em, es, ← fm, ← fs]
  rw [← e1] at e2 ⊢
  have e3 : photonMean (layerMean a W) (sternProfile 1 W) N p (fun m => (m : ℝ) ^ 2)
      = var + mean ^ 2 := by linarith
  rw [e3, hvar, hmean]
  ring

/-- One or two pairs with equal probability. -/
example : ∃ g shape scale, approxGammas (3 / 2) (1 / 6) 1 0.2317 1 10 0 = some g
    ∧ gammaParameters g.1.1 g.1.2 = some (shape, scale)
    ∧ photonsMean (layerMean 1 0.2317) (sternProfile 1 0.2317) 2 (fun k => if k = 0 then 0 else 1 / 2) 10
        (fun m => (m : ℝ) ^ 2)
      - photonsMean (layerMean 1 0.2317) (sternProfile 1 0.2317) 2 (fun k => if k = 0 then 0 else 1 / 2) 10 (fun m => m) ^ 2
      < drawnVariance g.1.1 g.1.2 shape scale := by
  have hq : pairMean 2 (fun k => if k = 0 then 0 else 1 / 2) (fun k => k) = 3 / 2 := by
    norm_num [pairMean, Finset.sum_range_succ]
  have h := C61_variance_counterexample (a := 1) (W := 0.2317) (fano := 1 / 6) one_pos (by norm_num) (N := 2)
    (p := fun k => if k = 0 then 0 else 1 / 2) (by norm_num [pairMean, Finset.sum_range_succ]) (by norm_num)
    (by norm_num [pairMean, Finset.sum_range_succ]) (by rw [hq]; norm_num) (k := 10) (by norm_num)
  rw [hq] at h
  exact_mod_cast h

end Optika
