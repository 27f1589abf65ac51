import Verif.Props.Electrons
import Verif.Props.Kernel
import Verif.Spec.Silicon
import Mathlib.Probability.Distributions.Gaussian.Real
import Mathlib.Probability.Independence.Integration
import Mathlib.Probability.Independence.InfinitePi
import Mathlib.MeasureTheory.Function.JacobianOneDim
import Mathlib.MeasureTheory.Integral.IntervalIntegral.FundThmCalculus

/-!
# C45: laws of the random numbers of pairs and electrons
-/

namespace Optika
open MeasureTheory ProbabilityTheory

/-- **C45**: below 50 eV the number of pairs is entry `k` of the table with the tabulated
probability. -/
theorem C45_low_energy {s : PixelParams} (hE : s.energy ≤ 50) (hp : ∀ q ∈ s.pn, 0 ≤ q)
    (hs : s.pn.sum = 1) (hlen : s.n.length = s.pn.length) (hn : s.n.Nodup) (r : PhotonDraw) {k : ℕ}
    (hk : k < s.pn.length) :
    volume {x : ℝ | x ∈ Set.Ico 0 1 ∧ pairNumber s { r with pair := x } = some s.n[k]}
      = ENNReal.ofReal s.pn[k] := by
  rw [← C45_pairs_probability hp hs hk]
  congr 1
  ext x
  simp only [Set.mem_setOf_eq, and_congr_right_iff]
  intro _
  unfold pairNumber
  simp only [if_pos hE]
  constructor
  · intro h
    rw [List.getElem?_eq_some_iff] at h
    obtain ⟨h1, h2⟩ := h
    exact (List.Nodup.getElem_inj_iff hn).1 h2
  · rintro rfl
    exact List.getElem?_eq_getElem _

/-- **C45**: above 50 eV the number of pairs is the integer nearest to a normally distributed number
whose mean is the energy of the photon over that of a pair, and whose variance is the Fano factor times
this mean. -/
theorem C45_high_energy {s : PixelParams} (hE : 50 < s.energy) (hF : 0 ≤ s.fanoInf)
    (hw : 0 < s.energyPairInf) :
    ∃ x : ℝ → ℝ, (gaussianReal 0 1).map x = gaussianReal (s.energy / s.energyPairInf)
        (Real.toNNReal (s.fanoInf * (s.energy / s.energyPairInf))) ∧
      ∀ r : PhotonDraw, ∃ k : ℤ, pairNumber s r = some k ∧ |(k : ℝ) - x r.normal| ≤ 1 / 2 := by
  have hm : 0 ≤ s.fanoInf * (s.energy / s.energyPairInf) :=
    mul_nonneg hF (div_nonneg (by linarith) hw.le)
  refine ⟨fun g => s.energy / s.energyPairInf
    + Real.sqrt (s.fanoInf * (s.energy / s.energyPairInf)) * g, ?_, ?_⟩
  · have e : (fun g => s.energy / s.energyPairInf
        + Real.sqrt (s.fanoInf * (s.energy / s.energyPairInf)) * g)
        = (fun y => s.energy / s.energyPairInf + y) ∘
          (fun g => Real.sqrt (s.fanoInf * (s.energy / s.energyPairInf)) * g) := rfl
    rw [e, ← Measure.map_map (by fun_prop) (by fun_prop), gaussianReal_map_const_mul,
      gaussianReal_map_const_add]
    congr 1
    · ring
    · rw [mul_one]
      apply NNReal.eq
      rw [Real.coe_toNNReal _ hm]
      exact Real.sq_sqrt hm
  · intro r
    refine ⟨_, by unfold pairNumber; rw [if_neg (by linarith)], ?_⟩
    have := pyRound_bounds (s.energy / s.energyPairInf
      + Real.sqrt (s.fanoInf * (s.energy / s.energyPairInf)) * r.normal)
    rw [abs_le]
    constructor <;> linarith

variable {Ω : Type} [MeasurableSpace Ω] {μ : Measure Ω} [IsProbabilityMeasure μ]

/-- Independent uniform random numbers. -/
structure Uniform (μ : Measure Ω) (T : ℕ → Ω → ℝ) : Prop where
  meas : ∀ k, Measurable (T k)
  indep : iIndepFun T μ
  law : ∀ k (p : ℝ), 0 ≤ p → p ≤ 1 → μ.real {ω | T k ω < p} = p

/-- The number of successful trials. -/
noncomputable def successes (T : ℕ → Ω → ℝ) (p : ℝ) (n : ℕ) (ω : Ω) : ℕ :=
  (List.range n).countP fun k => decide (T k ω < p)

theorem successes_zero (T : ℕ → Ω → ℝ) (p : ℝ) (ω : Ω) : successes T p 0 ω = 0 := rfl

theorem successes_succ (T : ℕ → Ω → ℝ) (p : ℝ) (n : ℕ) (ω : Ω) :
    successes T p (n + 1) ω = successes T p n ω + if T n ω < p then 1 else 0 := by
  unfold successes
  rw [List.range_succ, List.countP_append]
  simp [List.countP_cons]

theorem successes_sum (T : ℕ → Ω → ℝ) (p : ℝ) (n : ℕ) (ω : Ω) :
    successes T p n ω = ∑ k : Finset.range n, if T k ω < p then 1 else 0 := by
  rw [Finset.sum_coe_sort (Finset.range n) fun k => if T k ω < p then 1 else 0]
  induction n with
  | zero => simp [successes_zero]
  | succ n ih => rw [successes_succ, Finset.sum_range_succ, ih]

theorem successes_measurable {T : ℕ → Ω → ℝ} (hT : ∀ k, Measurable (T k)) (p : ℝ) (n : ℕ) :
    Measurable (successes T p n) := by
  induction n with
  | zero => exact measurable_const
  | succ n ih =>
    have : successes T p (n + 1) = fun ω => successes T p n ω + if T n ω < p then 1 else 0 :=
      funext fun ω => successes_succ T p n ω
    rw [this]
    exact ih.add (Measurable.ite (measurableSet_lt (hT n) measurable_const) measurable_const
      measurable_const)

theorem successes_indep {T : ℕ → Ω → ℝ} (hT : Uniform μ T) (p : ℝ) (n : ℕ) :
    IndepFun (successes T p n) (T n) μ := by
  have h := hT.indep.indepFun_finset (Finset.range n) {n} (by simp) hT.meas
  have hf : Measurable fun v : Finset.range n → ℝ => ∑ k, if v k < p then (1 : ℕ) else 0 :=
    Finset.measurable_sum _ fun k _ => Measurable.ite
      (measurableSet_lt (measurable_pi_apply k) measurable_const) measurable_const measurable_const
  have hg : Measurable fun v : ({n} : Finset ℕ) → ℝ => v ⟨n, by simp⟩ := measurable_pi_apply _
  have := h.comp hf hg
  have e : successes T p n = (fun v : Finset.range n → ℝ => ∑ k, if v k < p then (1 : ℕ) else 0) ∘
      fun a i => T i a := by
    funext ω
    rw [successes_sum]
    rfl
  rw [e]
  exact this

theorem successes_law {T : ℕ → Ω → ℝ} (hT : Uniform μ T) {p : ℝ} (h0 : 0 ≤ p) (h1 : p ≤ 1)
    (n m : ℕ) :
    μ.real {ω | successes T p n ω = m} = n.choose m * p ^ m * (1 - p) ^ (n - m) := by
  induction n generalizing m with
  | zero =>
    cases m with
    | zero => simp [successes_zero]
    | succ m => simp [successes_zero]
  | succ n ih =>
    have hms := successes_measurable hT.meas p n
    have hlt : MeasurableSet {ω | T n ω < p} := measurableSet_lt (hT.meas n) measurable_const
    have hq : μ.real {ω | ¬ T n ω < p} = 1 - p := by
      have := probReal_compl_eq_one_sub (μ := μ) hlt
      rw [hT.law n p h0 h1] at this
      exact this
    have hprod : ∀ j, μ.real ({ω | successes T p n ω = j} ∩ {ω | T n ω < p})
        = μ.real {ω | successes T p n ω = j} * p := by
      intro j
      have := (successes_indep hT p n).measure_inter_preimage_eq_mul
        {j} (Set.Iio p) (by measurability) measurableSet_Iio
      have h2 : μ.real {ω | successes T p n ω = j} * p
          = μ.real {ω | successes T p n ω = j} * μ.real {ω | T n ω < p} := by
        rw [hT.law n p h0 h1]
      rw [h2]
      simp only [Measure.real]
      rw [← ENNReal.toReal_mul]
      exact congrArg ENNReal.toReal this
    have hprod' : ∀ j, μ.real ({ω | successes T p n ω = j} ∩ {ω | ¬ T n ω < p})
        = μ.real {ω | successes T p n ω = j} * (1 - p) := by
      intro j
      have := (successes_indep hT p n).measure_inter_preimage_eq_mul
        {j} (Set.Iio p)ᶜ (by measurability) measurableSet_Iio.compl
      rw [← hq]
      simp only [Measure.real]
      rw [← ENNReal.toReal_mul]
      exact congrArg ENNReal.toReal this
    have hset : ∀ j, MeasurableSet {ω | successes T p n ω = j} := fun j =>
      hms (measurableSet_singleton j)
    cases m with
    | zero =>
      have e : {ω | successes T p (n + 1) ω = 0}
          = {ω | successes T p n ω = 0} ∩ {ω | ¬ T n ω < p} := by
        ext ω
        simp only [Set.mem_setOf_eq, Set.mem_inter_iff, successes_succ]
        by_cases h : T n ω < p
        · simp [h]
        · simp only [h, if_false, add_zero, not_false_eq_true, and_true]
      rw [e, hprod', ih]
      simp [pow_succ]
    | succ m =>
      have e : {ω | successes T p (n + 1) ω = m + 1}
          = ({ω | successes T p n ω = m} ∩ {ω | T n ω < p}) ∪
            ({ω | successes T p n ω = m + 1} ∩ {ω | ¬ T n ω < p}) := by
        ext ω
        simp only [Set.mem_setOf_eq, Set.mem_inter_iff, Set.mem_union, successes_succ]
        split_ifs with h <;> simp [h]
      have hd : Disjoint ({ω | successes T p n ω = m} ∩ {ω | T n ω < p})
          ({ω | successes T p n ω = m + 1} ∩ {ω | ¬ T n ω < p}) := by
        rw [Set.disjoint_left]
        rintro ω ⟨_, h2⟩ ⟨_, h3⟩
        exact h3 h2
      have hmeas : MeasurableSet ({ω | successes T p n ω = m + 1} ∩ {ω | ¬ T n ω < p}) :=
        (hset _).inter hlt.compl
      rw [e, measureReal_union hd hmeas, hprod, hprod', ih, ih]
      rcases lt_trichotomy n m with h | h | h
      · rw [Nat.choose_eq_zero_of_lt h, Nat.choose_eq_zero_of_lt (show n < m + 1 by omega),
          Nat.choose_eq_zero_of_lt (show n + 1 < m + 1 by omega)]
        simp
      · subst h
        simp [pow_succ]
      · rw [Nat.choose_succ_succ]
        have e1 : n + 1 - (m + 1) = n - (m + 1) + 1 := by omega
        have e2 : n - m = n - (m + 1) + 1 := by omega
        rw [e1, e2]
        push_cast
        ring

theorem successes_mean {T : ℕ → Ω → ℝ} (hT : Uniform μ T) {p : ℝ} (h0 : 0 ≤ p) (h1 : p ≤ 1)
    (n : ℕ) : ∫ ω, (successes T p n ω : ℝ) ∂μ = n * p := by
  have hlt : ∀ k, MeasurableSet {ω | T k ω < p} := fun k =>
    measurableSet_lt (hT.meas k) measurable_const
  have hi : ∀ k, Integrable (fun ω => if T k ω < p then (1 : ℝ) else 0) μ := by
    intro k
    have : (fun ω => if T k ω < p then (1 : ℝ) else 0) = Set.indicator {ω | T k ω < p} 1 := by
      ext ω; simp [Set.indicator]
    rw [this]
    exact (integrable_const (1 : ℝ)).indicator (hlt k)
  have hI : ∀ k, ∫ ω, (if T k ω < p then (1 : ℝ) else 0) ∂μ = p := by
    intro k
    have : (fun ω => if T k ω < p then (1 : ℝ) else 0) = Set.indicator {ω | T k ω < p} 1 := by
      ext ω; simp [Set.indicator]
    rw [this, integral_indicator_one (hlt k), hT.law k p h0 h1]
  have e : ∀ ω, (successes T p n ω : ℝ)
      = ∑ k ∈ Finset.range n, if T k ω < p then (1 : ℝ) else 0 := by
    intro ω
    induction n with
    | zero => simp [successes_zero]
    | succ n ih => rw [successes_succ, Finset.sum_range_succ, ← ih]; push_cast; rfl
  simp_rw [e]
  rw [integral_finset_sum _ fun k _ => hi k]
  simp [hI]

/-- The random numbers of a photon, of which those for the number of pairs and the displacement are
fixed: `y` is that for the depth, `ω` determines those for the trials. -/
def withTrials (r : PhotonDraw) (T : ℕ → Ω → ℝ) (y : ℝ) (ω : Ω) : PhotonDraw :=
  { r with depth := y, trial := fun k => T k ω }

theorem pairNumber_withTrials (s : PixelParams) (r : PhotonDraw) (T : ℕ → Ω → ℝ) (y : ℝ) (ω : Ω) :
    pairNumber s (withTrials r T y ω) = pairNumber s r := rfl

theorem sternEfficiency_profile (h0 W z : ℝ) : sternEfficiency h0 W z = sternProfile h0 W z := by
  unfold sternEfficiency sternProfile
  split_ifs
  · rw [mul_div_assoc]
  · rfl

theorem photonOutcome_eq {s : PixelParams} {r : PhotonDraw} {n : ℕ}
    (hn : pairNumber s r = some (n : ℤ)) (h0 : 0 ≤ s.cceBacksurface) (h1 : s.cceBacksurface ≤ 1)
    (hD : 0 < s.thicknessSubstrate) (T : ℕ → Ω → ℝ) {y : ℝ} (hy0 : 0 ≤ y) (hy1 : y < 1) (ω : Ω) :
    photonOutcome s (withTrials r T y ω) =
      some (absorptionDepth s.absorption s.thicknessSubstrate y,
        successes T (sternProfile s.cceBacksurface s.thicknessImplant
          (absorptionDepth s.absorption s.thicknessSubstrate y)) n ω) ∧
    0 ≤ sternProfile s.cceBacksurface s.thicknessImplant
      (absorptionDepth s.absorption s.thicknessSubstrate y) ∧
    sternProfile s.cceBacksurface s.thicknessImplant
      (absorptionDepth s.absorption s.thicknessSubstrate y) ≤ 1 := by
  have hz := (C45_depth_range (a := s.absorption) hD hy0 hy1).1
  have hr := C45_efficiency_range (W := s.thicknessImplant) h0 h1 hz
  rw [sternEfficiency_profile] at hr
  refine ⟨?_, by linarith [hr.1], hr.2⟩
  unfold photonOutcome
  rw [pairNumber_withTrials, hn]
  simp only [Option.bind_eq_bind, Option.bind_some, Option.pure_def, withTrials, binomial?,
    sternEfficiency_profile]
  rw [if_neg (by push Not; exact ⟨by positivity, by linarith [hr.1], hr.2⟩)]
  simp [successes]

/-- **C45**: of `n` electrons that are released at one depth, the number that is collected has the
binomial distribution, with the probability that belongs to this depth. -/
theorem C45_collected_probability {s : PixelParams} {r : PhotonDraw} {n : ℕ}
    (hn : pairNumber s r = some (n : ℤ)) (h0 : 0 ≤ s.cceBacksurface) (h1 : s.cceBacksurface ≤ 1)
    (hD : 0 < s.thicknessSubstrate) {T : ℕ → Ω → ℝ} (hT : Uniform μ T) {y : ℝ} (hy0 : 0 ≤ y)
    (hy1 : y < 1) (m : ℕ) :
    ∃ z η, z = absorptionDepth s.absorption s.thicknessSubstrate y ∧
      η = sternProfile s.cceBacksurface s.thicknessImplant z ∧
      μ.real {ω | photonOutcome s (withTrials r T y ω) = some (z, m)}
        = n.choose m * η ^ m * (1 - η) ^ (n - m) := by
  refine ⟨_, _, rfl, rfl, ?_⟩
  have key := fun ω => photonOutcome_eq hn h0 h1 hD T hy0 hy1 ω
  have hp : Nonempty Ω := by
    by_contra h
    rw [not_nonempty_iff] at h
    have := measure_univ (μ := μ)
    rw [Set.univ_eq_empty_iff.2 h, measure_empty] at this
    exact zero_ne_one this
  obtain ⟨ω₀⟩ := hp
  rw [← successes_law hT (key ω₀).2.1 (key ω₀).2.2]
  congr 1
  ext ω
  simp only [Set.mem_setOf_eq]
  rw [(key ω).1]
  simp

/-- The mean over the depth at which a photon is absorbed. -/
theorem depth_mean {a D : ℝ} (hD : 0 < D) (ha : 0 ≤ a) (q : ℝ → ℝ) :
    ∫ y in Set.Ico (0 : ℝ) 1, q (absorptionDepth a D y) = layerMean a D q := by
  -- the derivative of the cumulative distribution
  obtain ⟨c, hc, hder⟩ : ∃ c : ℝ, 0 < c ∧
      ∀ t, HasDerivAt (depthCdf a D) (c * Real.exp (-(a * t))) t := by
    rcases ha.lt_or_eq with ha | rfl
    · have hF := one_sub_exp_neg_pos (mul_pos ha hD)
      refine ⟨a / (1 - Real.exp (-(a * D))), div_pos ha hF, fun t => ?_⟩
      have e : depthCdf a D = fun t => (1 - Real.exp (-(a * t))) / (1 - Real.exp (-(a * D))) := by
        funext t; unfold depthCdf; rw [if_pos ha]
      rw [e]
      have h1 : HasDerivAt (fun t : ℝ => -(a * t)) (-(a * 1)) t := ((hasDerivAt_id t).const_mul a).neg
      have h2 := ((h1.exp).const_sub 1).div_const (1 - Real.exp (-(a * D)))
      refine h2.congr_deriv ?_
      ring
    · refine ⟨1 / D, by positivity, fun t => ?_⟩
      have e : depthCdf 0 D = fun t => t / D := by
        funext t; unfold depthCdf; rw [if_neg (lt_irrefl 0)]
      rw [e]
      have h2 := (hasDerivAt_id t).div_const D
      refine h2.congr_deriv ?_
      simp
  have hinv : ∀ t, 0 ≤ t → absorptionDepth a D (depthCdf a D t) = t := by
    intro t _
    rcases ha.lt_or_eq with ha | rfl
    · have hF := one_sub_exp_neg_pos (mul_pos ha hD)
      unfold absorptionDepth depthCdf
      simp only [if_pos ha]
      rw [neg_mul a D, div_mul_cancel₀ _ hF.ne', sub_sub_cancel, Real.log_exp]
      field_simp
    · unfold absorptionDepth depthCdf
      simp only [if_neg (lt_irrefl (0 : ℝ))]
      field_simp
  have hend : depthCdf a D D = 1 := by
    unfold depthCdf
    split_ifs with h
    · exact div_self (one_sub_exp_neg_pos (mul_pos h hD)).ne'
    · exact div_self hD.ne'
  have hstart : depthCdf a D 0 = 0 := by
    unfold depthCdf
    split_ifs <;> simp
  have hmono : StrictMono (depthCdf a D) := by
    apply strictMono_of_deriv_pos
    intro t
    rw [(hder t).deriv]
    exact mul_pos hc (Real.exp_pos _)
  have himg : depthCdf a D '' Set.Ico 0 D = Set.Ico 0 1 := by
    ext y
    constructor
    · rintro ⟨t, ⟨h1, h2⟩, rfl⟩
      rw [← hstart, ← hend]
      exact ⟨hmono.monotone h1, hmono h2⟩
    · rintro ⟨h1, h2⟩
      have hcont : ContinuousOn (depthCdf a D) (Set.Icc 0 D) := fun t _ =>
        (hder t).continuousAt.continuousWithinAt
      have := intermediate_value_Ico hD.le hcont
      rw [hstart, hend] at this
      exact this ⟨h1, h2⟩
  rw [← himg, integral_image_eq_integral_abs_deriv_smul measurableSet_Ico
    (fun t _ => (hder t).hasDerivWithinAt) hmono.injective.injOn]
  have hone : c * ∫ z in (0 : ℝ)..D, Real.exp (-(a * z)) = 1 := by
    rw [← intervalIntegral.integral_const_mul,
      intervalIntegral.integral_eq_sub_of_hasDerivAt (f := depthCdf a D) (fun t _ => hder t)
        (by apply Continuous.intervalIntegrable; fun_prop), hend, hstart, sub_zero]
  have hne : (∫ z in (0 : ℝ)..D, Real.exp (-(a * z))) ≠ 0 := fun h => by
    rw [h, mul_zero] at hone; exact zero_ne_one hone
  unfold layerMean
  rw [eq_div_iff hne, mul_comm, intervalIntegral.integral_of_le hD.le (f := fun z => q z * _),
    integral_Ioc_eq_integral_Ioo, ← integral_Ico_eq_integral_Ioo]
  have e : ∫ t in Set.Ico 0 D, |c * Real.exp (-(a * t))| • q (absorptionDepth a D (depthCdf a D t))
      = c * ∫ t in Set.Ico 0 D, q t * Real.exp (-(a * t)) := by
    rw [← integral_const_mul]
    apply setIntegral_congr_fun measurableSet_Ico
    rintro t ⟨h1, _⟩
    simp only
    rw [hinv t h1, abs_of_pos (mul_pos hc (Real.exp_pos _)), smul_eq_mul]
    ring
  rw [e, ← mul_assoc, mul_comm _ c, hone, one_mul]

/-- **C45**: the mean number of electrons that are collected of the `n` that a photon releases, over
all depths and trials, is `n` times the mean of the probability of collection, weighted with the light
that is absorbed at each depth. -/
theorem C45_collected_mean {s : PixelParams} {r : PhotonDraw} {n : ℕ}
    (hn : pairNumber s r = some (n : ℤ)) (h0 : 0 ≤ s.cceBacksurface) (h1 : s.cceBacksurface ≤ 1)
    (ha : 0 ≤ s.absorption) (hD : 0 < s.thicknessSubstrate) {T : ℕ → Ω → ℝ} (hT : Uniform μ T) :
    ∫ y in Set.Ico (0 : ℝ) 1, ∫ ω,
        (((photonOutcome s (withTrials r T y ω)).map fun x => (x.2 : ℝ)).getD 0) ∂μ
      = n * layerMean s.absorption s.thicknessSubstrate
        (sternProfile s.cceBacksurface s.thicknessImplant) := by
  rw [← depth_mean hD ha, ← integral_const_mul]
  apply setIntegral_congr_fun measurableSet_Ico
  rintro y ⟨hy0, hy1⟩
  have key := fun ω => photonOutcome_eq hn h0 h1 hD T hy0 hy1 ω
  have hp : Nonempty Ω := by
    by_contra h
    rw [not_nonempty_iff] at h
    have := measure_univ (μ := μ)
    rw [Set.univ_eq_empty_iff.2 h, measure_empty] at this
    exact zero_ne_one this
  obtain ⟨ω₀⟩ := hp
  simp only [(key _).1, Option.map_some, Option.getD_some]
  exact successes_mean hT (key ω₀).2.1 (key ω₀).2.2 n

/-- The uniform distribution on the unit interval. -/
noncomputable def unitMeasure : Measure ℝ := volume.restrict (Set.Ico 0 1)

instance : IsProbabilityMeasure unitMeasure := ⟨by simp [unitMeasure]⟩

/-- There are independent uniform random numbers. -/
example : Uniform (Measure.infinitePi fun _ : ℕ => unitMeasure) fun k (ω : ℕ → ℝ) => ω k := by
  refine ⟨fun k => measurable_pi_apply k,
    iIndepFun_infinitePi (X := fun _ x => x) fun _ => measurable_id, fun k p h0 h1 => ?_⟩
  have h := measurePreserving_eval_infinitePi (fun _ : ℕ => unitMeasure) k
  have e := h.measure_preimage (s := Set.Iio p) measurableSet_Iio.nullMeasurableSet
  have : {ω : ℕ → ℝ | ω k < p} = Function.eval k ⁻¹' Set.Iio p := rfl
  rw [this, Measure.real, e, unitMeasure, Measure.restrict_apply measurableSet_Iio]
  have hi : Set.Iio p ∩ Set.Ico 0 1 = Set.Ico 0 p := by
    ext x
    simp only [Set.mem_inter_iff, Set.mem_Iio, Set.mem_Ico]
    constructor
    · rintro ⟨a, b, _⟩; exact ⟨b, a⟩
    · rintro ⟨a, b⟩; exact ⟨b, a, by linarith⟩
  rw [hi, Real.volume_Ico, sub_zero, ENNReal.toReal_ofReal h0]

end Optika
