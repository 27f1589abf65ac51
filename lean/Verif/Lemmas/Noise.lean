import Verif.Spec.Noise
import Verif.Lemmas.Silicon
import Mathlib.RingTheory.Polynomial.Bernstein
import Mathlib.Analysis.SpecialFunctions.Exponential
import Mathlib.Tactic.LinearCombination

/-!
# Moments of the number of measured electrons
-/

namespace Optika
open MeasureTheory intervalIntegral

/-! ### Binomial moments -/

theorem bernstein_eval (n k : ℕ) (p : ℝ) :
    (bernsteinPolynomial ℝ n k).eval p = n.choose k * p ^ k * (1 - p) ^ (n - k) := by
  simp [bernsteinPolynomial]

theorem binomialMean_one (n : ℕ) (p : ℝ) : binomialMean n p (fun _ => 1) = 1 := by
  have h := congrArg (Polynomial.eval p) (bernsteinPolynomial.sum ℝ n)
  simp only [Polynomial.eval_finsetSum, bernstein_eval, Polynomial.eval_one] at h
  simpa [binomialMean] using h

theorem binomialMean_id (n : ℕ) (p : ℝ) : binomialMean n p (fun k => k) = n * p := by
  have h := congrArg (Polynomial.eval p) (bernsteinPolynomial.sum_smul ℝ n)
  simp only [Polynomial.eval_finsetSum, bernstein_eval, Polynomial.eval_smul, nsmul_eq_mul,
    Polynomial.eval_mul, Polynomial.eval_natCast, Polynomial.eval_X] at h
  rw [← h]
  unfold binomialMean
  exact Finset.sum_congr rfl fun k _ => by ring

theorem binomialMean_fact (n : ℕ) (p : ℝ) :
    binomialMean n p (fun k => (k : ℝ) * ((k : ℝ) - 1)) = n * ((n : ℝ) - 1) * p ^ 2 := by
  have h := congrArg (Polynomial.eval p) (bernsteinPolynomial.sum_mul_smul ℝ n)
  simp only [Polynomial.eval_finsetSum, bernstein_eval, Polynomial.eval_smul, nsmul_eq_mul,
    Polynomial.eval_mul, Polynomial.eval_natCast, Polynomial.eval_X, Polynomial.eval_pow] at h
  have hc : ∀ m : ℕ, ((m * (m - 1) : ℕ) : ℝ) = (m : ℝ) * ((m : ℝ) - 1) := by
    intro m
    cases m with
    | zero => simp
    | succ m => push_cast; simp
  rw [hc] at h
  rw [← h]
  unfold binomialMean
  refine Finset.sum_congr rfl fun k _ => ?_
  rw [hc]
  ring

theorem binomialMean_quadratic (n : ℕ) (p c0 c1 c2 : ℝ) :
    binomialMean n p (fun k => c0 + c1 * k + c2 * (k : ℝ) ^ 2)
      = c0 + c1 * (n * p) + c2 * (n * p + n * ((n : ℝ) - 1) * p ^ 2) := by
  have e : binomialMean n p (fun k => c0 + c1 * k + c2 * (k : ℝ) ^ 2)
      = c0 * binomialMean n p (fun _ => 1) + (c1 + c2) * binomialMean n p (fun k => k)
        + c2 * binomialMean n p (fun k => (k : ℝ) * ((k : ℝ) - 1)) := by
    unfold binomialMean
    simp only [Finset.mul_sum, ← Finset.sum_add_distrib]
    exact Finset.sum_congr rfl fun k _ => by ring
  rw [e, binomialMean_one, binomialMean_id, binomialMean_fact]
  ring

/-! ### One photon -/

theorem pairMean_binomial {N : ℕ} {p : ℕ → ℝ} (h1 : pairMean N p (fun _ => 1) = 1)
    (x c0 c1 c2 : ℝ) :
    pairMean N p (fun n => binomialMean n x fun k => c0 + c1 * k + c2 * (k : ℝ) ^ 2)
      = c0 + (c1 + c2) * pairMean N p (fun n => n) * x
        + c2 * (pairMean N p (fun n => (n : ℝ) ^ 2) - pairMean N p (fun n => n)) * x ^ 2 := by
  simp only [binomialMean_quadratic]
  have e : pairMean N p (fun n => c0 + c1 * (n * x) + c2 * (n * x + n * ((n : ℝ) - 1) * x ^ 2))
      = c0 * pairMean N p (fun _ => 1) + (c1 + c2) * pairMean N p (fun n => n) * x
        + c2 * (pairMean N p (fun n => (n : ℝ) ^ 2) - pairMean N p (fun n => n)) * x ^ 2 := by
    unfold pairMean
    simp only [Finset.mul_sum, Finset.sum_mul, ← Finset.sum_sub_distrib, ← Finset.sum_add_distrib]
    exact Finset.sum_congr rfl fun k _ => by ring
  rw [e, h1]
  ring

/-- A mean that is linear on quadratic functions of `η`. -/
def QuadraticMean (depth : (ℝ → ℝ) → ℝ) (η : ℝ → ℝ) : Prop :=
  ∀ c0 c1 c2 : ℝ, depth (fun z => c0 + c1 * η z + c2 * η z ^ 2)
    = c0 + c1 * depth η + c2 * depth fun z => η z ^ 2

/-- The mean number of electrons of one photon. -/
noncomputable def firstMoment (depth : (ℝ → ℝ) → ℝ) (η : ℝ → ℝ) (N : ℕ) (p : ℕ → ℝ) : ℝ :=
  pairMean N p (fun n => n) * depth η

/-- The mean square of the number of electrons of one photon. -/
noncomputable def secondMoment (depth : (ℝ → ℝ) → ℝ) (η : ℝ → ℝ) (N : ℕ) (p : ℕ → ℝ) : ℝ :=
  pairMean N p (fun n => n) * depth η
    + (pairMean N p (fun n => (n : ℝ) ^ 2) - pairMean N p (fun n => n)) * depth fun z => η z ^ 2

theorem photonMean_quadratic {depth : (ℝ → ℝ) → ℝ} {η : ℝ → ℝ} (hq : QuadraticMean depth η) {N : ℕ}
    {p : ℕ → ℝ} (h1 : pairMean N p (fun _ => 1) = 1) (c0 c1 c2 : ℝ) :
    photonMean depth η N p (fun m => c0 + c1 * m + c2 * (m : ℝ) ^ 2)
      = c0 + c1 * firstMoment depth η N p + c2 * secondMoment depth η N p := by
  unfold photonMean firstMoment secondMoment
  simp only [pairMean_binomial h1]
  rw [hq]
  ring

/-! ### Several photons -/

theorem photonsMean_quadratic {depth : (ℝ → ℝ) → ℝ} {η : ℝ → ℝ} (hq : QuadraticMean depth η) {N : ℕ}
    {p : ℕ → ℝ} (h1 : pairMean N p (fun _ => 1) = 1) (k : ℕ) (c0 c1 c2 : ℝ) :
    photonsMean depth η N p k (fun m => c0 + c1 * m + c2 * (m : ℝ) ^ 2)
      = c0 + c1 * (k * firstMoment depth η N p)
        + c2 * (k * secondMoment depth η N p
          + k * ((k : ℝ) - 1) * firstMoment depth η N p ^ 2) := by
  induction k generalizing c0 c1 c2 with
  | zero => simp [photonsMean]
  | succ k ih =>
    unfold photonsMean
    have e : ∀ m : ℕ, photonsMean depth η N p k
        (fun s => c0 + c1 * ((m + s : ℕ) : ℝ) + c2 * ((m + s : ℕ) : ℝ) ^ 2)
        = (c0 + c1 * (k * firstMoment depth η N p)
            + c2 * (k * secondMoment depth η N p
              + k * ((k : ℝ) - 1) * firstMoment depth η N p ^ 2))
          + (c1 + 2 * c2 * (k * firstMoment depth η N p)) * m + c2 * (m : ℝ) ^ 2 := by
      intro m
      have e1 : (fun s : ℕ => c0 + c1 * ((m + s : ℕ) : ℝ) + c2 * ((m + s : ℕ) : ℝ) ^ 2)
          = fun s : ℕ => (c0 + c1 * m + c2 * (m : ℝ) ^ 2) + (c1 + 2 * c2 * m) * s
            + c2 * (s : ℝ) ^ 2 := by
        funext s
        push_cast
        ring
      rw [e1, ih]
      ring
    simp only [e]
    rw [photonMean_quadratic hq h1]
    push_cast
    ring

/-! ### Poisson moments -/

theorem poisson_one (x : ℝ) : HasSum (fun k : ℕ => Real.exp (-x) * x ^ k / k.factorial) 1 := by
  have h := (NormedSpace.expSeries_div_hasSum_exp x).mul_left (Real.exp (-x))
  rw [← Real.exp_eq_exp_ℝ, ← Real.exp_add, neg_add_cancel, Real.exp_zero] at h
  simpa [mul_div_assoc] using h

theorem poisson_id (x : ℝ) :
    HasSum (fun k : ℕ => Real.exp (-x) * x ^ k / k.factorial * k) x := by
  rw [← hasSum_nat_add_iff' 1]
  simp only [Finset.sum_range_one, CharP.cast_eq_zero, mul_zero, sub_zero]
  have h := (poisson_one x).mul_left x
  rw [mul_one] at h
  have e : (fun k : ℕ => Real.exp (-x) * x ^ (k + 1) / (k + 1).factorial * ((k + 1 : ℕ) : ℝ))
      = fun k : ℕ => x * (Real.exp (-x) * x ^ k / k.factorial) := by
    funext k
    rw [Nat.factorial_succ]
    have : ((k : ℝ) + 1) ≠ 0 := by positivity
    have : (k.factorial : ℝ) ≠ 0 := by positivity
    push_cast
    field_simp
    ring
  rw [e]
  exact h

theorem poisson_fact (x : ℝ) :
    HasSum (fun k : ℕ => Real.exp (-x) * x ^ k / k.factorial * (k * ((k : ℝ) - 1))) (x ^ 2) := by
  rw [← hasSum_nat_add_iff' 1]
  simp only [Finset.sum_range_one, CharP.cast_eq_zero, mul_zero, zero_mul, sub_zero]
  have h := (poisson_id x).mul_left x
  rw [← sq] at h
  have e : (fun k : ℕ => Real.exp (-x) * x ^ (k + 1) / (k + 1).factorial
        * (((k + 1 : ℕ) : ℝ) * (((k + 1 : ℕ) : ℝ) - 1)))
      = fun k : ℕ => x * (Real.exp (-x) * x ^ k / k.factorial * k) := by
    funext k
    rw [Nat.factorial_succ]
    have : ((k : ℝ) + 1) ≠ 0 := by positivity
    have : (k.factorial : ℝ) ≠ 0 := by positivity
    push_cast
    field_simp
    ring
  rw [e]
  exact h

theorem exposureMean_quadratic {depth : (ℝ → ℝ) → ℝ} {η : ℝ → ℝ} (hq : QuadraticMean depth η)
    {N : ℕ} {p : ℕ → ℝ} (h1 : pairMean N p (fun _ => 1) = 1) (x c0 c1 c2 : ℝ) :
    exposureMean depth η N p x (fun m => c0 + c1 * m + c2 * (m : ℝ) ^ 2)
      = c0 + c1 * (x * firstMoment depth η N p)
        + c2 * (x * secondMoment depth η N p + x ^ 2 * firstMoment depth η N p ^ 2) := by
  unfold exposureMean
  simp only [photonsMean_quadratic hq h1]
  have h := (((poisson_one x).mul_left c0).add
    ((poisson_id x).mul_left (c1 * firstMoment depth η N p + c2 * secondMoment depth η N p))).add
    ((poisson_fact x).mul_left (c2 * firstMoment depth η N p ^ 2))
  rw [show c0 + c1 * (x * firstMoment depth η N p)
        + c2 * (x * secondMoment depth η N p + x ^ 2 * firstMoment depth η N p ^ 2)
      = c0 * 1 + (c1 * firstMoment depth η N p + c2 * secondMoment depth η N p) * x
        + c2 * firstMoment depth η N p ^ 2 * x ^ 2 by ring]
  rw [← h.tsum_eq]
  congr 1
  funext k
  ring

/-! ### The mean over the depth is linear -/

theorem stern_measurable (η₀ W : ℝ) : Measurable (sternProfile η₀ W) := by
  unfold sternProfile
  exact Measurable.ite measurableSet_Iio (by fun_prop) measurable_const

theorem stern_bound {η₀ W z : ℝ} (h0 : 0 ≤ η₀) (h1 : η₀ ≤ 1) (hW : 0 < W) (hz : 0 ≤ z) :
    0 ≤ sternProfile η₀ W z ∧ sternProfile η₀ W z ≤ 1 := by
  unfold sternProfile
  split_ifs with h
  · have h2 : 0 ≤ z / W := by positivity
    have h3 : z / W ≤ 1 := by rw [div_le_one hW]; exact h.le
    constructor <;> nlinarith
  · norm_num

theorem stern_integrable {a W : ℝ} (ha : 0 < a) (hW : 0 < W) (η₀ : ℝ) (j : ℕ) :
    IntegrableOn (fun z => sternProfile η₀ W z ^ j * Real.exp (-(a * z))) (Set.Ioi 0) := by
  rw [← Set.Ioc_union_Ioi_eq_Ioi hW.le]
  refine IntegrableOn.union ?_ ?_
  · have e : Set.EqOn (fun z => (η₀ + (1 - η₀) / W * z + 0 * z ^ 2) ^ j * Real.exp (-(a * z)))
        (fun z => sternProfile η₀ W z ^ j * Real.exp (-(a * z))) (Set.Ioc 0 W) := by
      intro z hz
      simp only [sternProfile_poly hW hz.2]
    refine IntegrableOn.congr_fun ?_ e measurableSet_Ioc
    exact (Continuous.integrableOn_Icc (by fun_prop)).mono_set Set.Ioc_subset_Icc_self
  · refine (integrableOn_exp_Ioi ha W).congr_fun (fun z hz => ?_) measurableSet_Ioi
    simp only [sternProfile_deep (le_of_lt hz), one_pow, one_mul]

theorem absorptionMean_quadratic {a W : ℝ} (ha : 0 < a) (hW : 0 < W) (η₀ : ℝ) :
    QuadraticMean (absorptionMean a) (sternProfile η₀ W) := by
  intro c0 c1 c2
  unfold absorptionMean
  have e : ∀ z, (c0 + c1 * sternProfile η₀ W z + c2 * sternProfile η₀ W z ^ 2) * Real.exp (-(a * z))
      = c0 * (sternProfile η₀ W z ^ 0 * Real.exp (-(a * z)))
        + c1 * (sternProfile η₀ W z ^ 1 * Real.exp (-(a * z)))
        + c2 * (sternProfile η₀ W z ^ 2 * Real.exp (-(a * z))) := by
    intro z
    ring
  simp only [e]
  have i0 := (stern_integrable ha hW η₀ 0).const_mul c0
  have i1 := (stern_integrable ha hW η₀ 1).const_mul c1
  have i2 := (stern_integrable ha hW η₀ 2).const_mul c2
  have i01 : Integrable (fun z => c0 * (sternProfile η₀ W z ^ 0 * Real.exp (-(a * z)))
      + c1 * (sternProfile η₀ W z ^ 1 * Real.exp (-(a * z)))) (volume.restrict (Set.Ioi 0)) :=
    i0.add i1
  rw [MeasureTheory.integral_add i01 i2, MeasureTheory.integral_add i0 i1,
    MeasureTheory.integral_const_mul, MeasureTheory.integral_const_mul,
    MeasureTheory.integral_const_mul]
  have hpos : ∫ z in Set.Ioi (0 : ℝ), Real.exp (-(a * z)) ≠ 0 := by
    rw [integral_exp_Ioi ha]
    have := Real.exp_pos (-(a * 0))
    positivity
  simp only [pow_zero, one_mul, pow_one]
  field_simp

theorem layerMean_quadratic {a D W : ℝ} (ha : a ≠ 0) (hD : 0 < D) (hW : 0 < W) (η₀ : ℝ) :
    QuadraticMean (layerMean a D) (sternProfile η₀ W) := by
  intro c0 c1 c2
  unfold layerMean
  have e : ∀ z, (c0 + c1 * sternProfile η₀ W z + c2 * sternProfile η₀ W z ^ 2) * Real.exp (-(a * z))
      = c0 * (sternProfile η₀ W z ^ 0 * Real.exp (-(a * z)))
        + c1 * (sternProfile η₀ W z ^ 1 * Real.exp (-(a * z)))
        + c2 * (sternProfile η₀ W z ^ 2 * Real.exp (-(a * z))) := by
    intro z
    ring
  simp only [e]
  have hi : ∀ j : ℕ, IntervalIntegrable
      (fun z => sternProfile η₀ W z ^ j * Real.exp (-(a * z))) volume 0 D := by
    intro j
    have hc : Continuous (fun z => min (η₀ + (1 - η₀) * (z / W)) 1) := by fun_prop
    have hs : ∀ z, sternProfile η₀ W z = η₀ + (1 - η₀) * (min z W / W) := by
      intro z
      unfold sternProfile
      split_ifs with h
      · rw [min_eq_left h.le]
      · rw [min_eq_right (not_lt.1 h), div_self hW.ne']; ring
    simp only [hs]
    exact Continuous.intervalIntegrable (by fun_prop) _ _
  have i0 := (hi 0).const_mul c0
  have i1 := (hi 1).const_mul c1
  have i2 := (hi 2).const_mul c2
  rw [intervalIntegral.integral_add (i0.add i1) i2, intervalIntegral.integral_add i0 i1,
    intervalIntegral.integral_const_mul, intervalIntegral.integral_const_mul,
    intervalIntegral.integral_const_mul]
  have hpos : ∫ z in (0 : ℝ)..D, Real.exp (-(a * z)) ≠ 0 := by
    apply ne_of_gt
    exact intervalIntegral_pos_of_pos (Continuous.intervalIntegrable (by fun_prop) _ _)
      (fun z => Real.exp_pos _) hD
  simp only [pow_zero, one_mul, pow_one]
  field_simp

end Optika
