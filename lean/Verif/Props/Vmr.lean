import Verif.Lemmas.Noise
import Verif.Props.SensorMaterial

/-!
# The noise model of silicon sensors (C49)
-/

namespace Optika
open Complex

/-- The variance of the collection efficiency divided by its mean, as the code computes it. -/
theorem efficiency_vmr {a W η₀ : ℝ} (ha : 0 < a) (hW : 0 < W) :
    2 * Real.exp (-(a * W)) * ((η₀ - 1) / (a * W)) ^ 2 * (Real.sinh (a * W) - a * W)
      = absorptionMean a (fun z => sternProfile η₀ W z ^ 2)
        - absorptionMean a (sternProfile η₀ W) ^ 2 := by
  rw [sternProfile_sq_mean ha hW, sternProfile_mean ha hW, Real.sinh_eq, Real.exp_neg]
  have h1 := (Real.exp_pos (a * W)).ne'
  have h2 := ha.ne'
  have h3 := hW.ne'
  generalize Real.exp (a * W) = E at *
  field_simp
  ring

/-- What `vmr_signal` computes, in terms of the collection efficiency. -/
theorem vmr_eq {iqy fano : ℝ → ℝ → ℝ} {w : ℝ} {d n ns : ℂ} {W η₀ temperature a : ℝ}
    (h : absorptionEffective w ns (snellsLawScalar d n ns) = some a) (ha : 0 < a) (hW : 0 < W)
    (h0 : 0 ≤ η₀) (h1 : η₀ ≤ 1) (shot fanoNoise pcc : Bool) :
    vmrSignal iqy fano w d n ns W η₀ temperature shot fanoNoise pcc = some (
      let e1 := absorptionMean a (sternProfile η₀ W)
      let e2 := absorptionMean a (fun z => sternProfile η₀ W z ^ 2)
      (if shot then iqy w temperature * e1 else 0) + (if fanoNoise then e1 * fano w 300 else 0)
        + (if pcc then 1 - e2 / e1 + (iqy w temperature + fano w 300) * ((e2 - e1 ^ 2) / e1)
          else 0)) := by
  have hm := C46_mean ha hW η₀
  have hpos := cce_pos ha hW h0 h1 hm
  have hz := (mul_pos ha hW).ne'
  have hv := efficiency_vmr (η₀ := η₀) ha hW
  unfold vmrSignal
  simp only [h, hm, Option.bind_eq_bind, Option.bind_some, div?_of_ne hz, div?_of_ne hpos.ne',
    Option.map_some, Option.pure_def, hv, zero_add]
  cases pcc
  · simp
  · simp only [if_true, Option.bind_some, Option.some.injEq, add_right_inj]
    have := hpos.ne'
    field_simp
    ring

/-- The mean square of a probability is at most its mean. -/
theorem stern_sq_le {a W η₀ : ℝ} (ha : 0 < a) (hW : 0 < W) (h0 : 0 ≤ η₀) (h1 : η₀ ≤ 1) :
    absorptionMean a (fun z => sternProfile η₀ W z ^ 2) ≤ absorptionMean a (sternProfile η₀ W) := by
  unfold absorptionMean
  have hp : 0 < ∫ z in Set.Ioi (0 : ℝ), Real.exp (-(a * z)) := by
    rw [integral_exp_Ioi ha]
    have := Real.exp_pos (-(a * 0))
    positivity
  apply div_le_div_of_nonneg_right _ hp.le
  apply MeasureTheory.setIntegral_mono_on (stern_integrable ha hW η₀ 2)
  · simpa using stern_integrable ha hW η₀ 1
  · exact measurableSet_Ioi
  · intro z hz
    have hb := stern_bound h0 h1 hW (le_of_lt hz)
    have := Real.exp_pos (-(a * z))
    have h2 : sternProfile η₀ W z ^ 2 ≤ sternProfile η₀ W z := by nlinarith
    exact mul_le_mul_of_nonneg_right h2 this.le

/-- The variance of a random variable is not negative. -/
theorem stern_variance_nonneg {a W η₀ : ℝ} (ha : 0 < a) (hW : 0 < W) :
    0 ≤ absorptionMean a (fun z => sternProfile η₀ W z ^ 2)
        - absorptionMean a (sternProfile η₀ W) ^ 2 := by
  rw [← efficiency_vmr ha hW]
  have h1 := Real.exp_pos (-(a * W))
  have h2 : a * W ≤ Real.sinh (a * W) := Real.self_le_sinh_iff.2 (mul_pos ha hW).le
  have h3 : 0 ≤ Real.sinh (a * W) - a * W := by linarith
  positivity

/-- **C49**: `vmr_signal` is the variance of the number of measured electrons divided by its mean:
the number of absorbed photons has the Poisson distribution with mean `photons`, each is absorbed
at a random depth, creates `k` pairs with probability `p k`, and each electron is collected with
the probability of its depth.  `iqy` is the mean number of pairs, and `fano` at 300 K their Fano
factor.  Missing: other temperatures, for which the claim fails
(`C49_temperature_counterexample`), and the finite thickness of the substrate
(`C57_bias_counterexample`). -/
theorem C49_vmr_partial {iqy fano : ℝ → ℝ → ℝ} {w : ℝ} {d n ns : ℂ} {W η₀ temperature a : ℝ}
    (h : absorptionEffective w ns (snellsLawScalar d n ns) = some a) (ha : 0 < a) (hW : 0 < W)
    (h0 : 0 ≤ η₀) (h1 : η₀ ≤ 1) {N : ℕ} {p : ℕ → ℝ} (hp : pairMean N p (fun _ => 1) = 1)
    (hmean : pairMean N p (fun k => k) = iqy w temperature)
    (hfano : pairMean N p (fun k => (k : ℝ) ^ 2) - pairMean N p (fun k => k) ^ 2
      = fano w 300 * pairMean N p (fun k => k))
    (hq : 0 < iqy w temperature) {photons : ℝ} (hx : 0 < photons) :
    ∃ v mean, vmrSignal iqy fano w d n ns W η₀ temperature true true true = some v
      ∧ mean = exposureMean (absorptionMean a) (sternProfile η₀ W) N p photons (fun m => m)
      ∧ 0 < mean
      ∧ v = (exposureMean (absorptionMean a) (sternProfile η₀ W) N p photons (fun m => (m : ℝ) ^ 2)
        - mean ^ 2) / mean := by
  have hQ := absorptionMean_quadratic ha hW η₀
  have hpos := cce_pos ha hW h0 h1 (C46_mean ha hW η₀)
  have em := exposureMean_quadratic hQ hp photons 0 1 0
  have es := exposureMean_quadratic hQ hp photons 0 0 1
  simp only [zero_add, one_mul, zero_mul, add_zero] at em es
  refine ⟨_, _, vmr_eq h ha hW h0 h1 true true true, rfl, ?_, ?_⟩
  · rw [em]
    unfold firstMoment
    rw [hmean]
    positivity
  · rw [em, es]
    unfold firstMoment secondMoment
    rw [hmean] at hfano ⊢
    have hs : pairMean N p (fun k => (k : ℝ) ^ 2)
        = fano w 300 * iqy w temperature + iqy w temperature ^ 2 := by linarith
    rw [hs]
    simp only [if_true]
    have := hpos.ne'
    have := hx.ne'
    have := hq.ne'
    field_simp
    ring

/-- **C49**: the parts add up. -/
theorem C49_parts {iqy fano : ℝ → ℝ → ℝ} {w : ℝ} {d n ns : ℂ} {W η₀ temperature a : ℝ}
    (h : absorptionEffective w ns (snellsLawScalar d n ns) = some a) (ha : 0 < a) (hW : 0 < W)
    (h0 : 0 ≤ η₀) (h1 : η₀ ≤ 1) : ∃ s f p : ℝ,
      vmrSignal iqy fano w d n ns W η₀ temperature true false false = some s
      ∧ vmrSignal iqy fano w d n ns W η₀ temperature false true false = some f
      ∧ vmrSignal iqy fano w d n ns W η₀ temperature false false true = some p
      ∧ ∀ bs bf bp : Bool, vmrSignal iqy fano w d n ns W η₀ temperature bs bf bp
          = some ((if bs then s else 0) + (if bf then f else 0) + (if bp then p else 0)) := by
  refine ⟨_, _, _, vmr_eq h ha hW h0 h1 _ _ _, vmr_eq h ha hW h0 h1 _ _ _,
    vmr_eq h ha hW h0 h1 _ _ _, fun bs bf bp => ?_⟩
  rw [vmr_eq h ha hW h0 h1]
  cases bs <;> cases bf <;> cases bp <;> simp

/-- **C49**: no part is negative. -/
theorem C49_nonneg {iqy fano : ℝ → ℝ → ℝ} {w : ℝ} {d n ns : ℂ} {W η₀ temperature a : ℝ}
    (h : absorptionEffective w ns (snellsLawScalar d n ns) = some a) (ha : 0 < a) (hW : 0 < W)
    (h0 : 0 ≤ η₀) (h1 : η₀ ≤ 1) (hq : 0 ≤ iqy w temperature) (hF : 0 ≤ fano w 300)
    {bs bf bp : Bool} {v : ℝ} (hv : vmrSignal iqy fano w d n ns W η₀ temperature bs bf bp = some v) :
    0 ≤ v := by
  rw [vmr_eq h ha hW h0 h1, Option.some.injEq] at hv
  have hpos := cce_pos ha hW h0 h1 (C46_mean ha hW η₀)
  have h2 := stern_sq_le ha hW h0 h1
  have h3 := stern_variance_nonneg (η₀ := η₀) ha hW
  rw [← hv]
  simp only
  refine add_nonneg (add_nonneg ?_ ?_) ?_
  · split_ifs
    · positivity
    · exact le_rfl
  · split_ifs
    · positivity
    · exact le_rfl
  · split_ifs
    · have : absorptionMean a (fun z => sternProfile η₀ W z ^ 2)
          / absorptionMean a (sternProfile η₀ W) ≤ 1 := by rwa [div_le_one hpos]
      have : 0 ≤ (iqy w temperature + fano w 300)
          * ((absorptionMean a (fun z => sternProfile η₀ W z ^ 2)
            - absorptionMean a (sternProfile η₀ W) ^ 2) / absorptionMean a (sternProfile η₀ W)) := by
        positivity
      linarith
    · exact le_rfl

/-- One or two pairs with equal probability, in silicon with the index `4 + i` at normal
incidence. -/
example : ∃ v mean, vmrSignal (fun _ _ => 3 / 2) (fun _ _ => 1 / 6) 1 1 1 (4 + I) 1 (1 / 5) 300
      true true true = some v
    ∧ mean = exposureMean (absorptionMean (4 * Real.pi)) (sternProfile (1 / 5) 1) 2
      (fun k => if k = 0 then 0 else 1 / 2) 10 (fun m => m)
    ∧ 0 < mean
    ∧ v = (exposureMean (absorptionMean (4 * Real.pi)) (sternProfile (1 / 5) 1) 2
      (fun k => if k = 0 then 0 else 1 / 2) 10 (fun m => (m : ℝ) ^ 2) - mean ^ 2) / mean := by
  have hd : snellsLawScalar 1 1 (4 + I) = 1 := snell_normal
  apply C49_vmr_partial (by rw [hd]; unfold absorptionEffective; rw [div?_of_ne one_ne_zero]; simp)
    (by have := Real.pi_pos; positivity) one_pos (by norm_num) (by norm_num)
  · norm_num [pairMean, Finset.sum_range_succ]
  · norm_num [pairMean, Finset.sum_range_succ]
  · norm_num [pairMean, Finset.sum_range_succ]
  · norm_num
  · norm_num

/-- **C49**: the Fano factor is that of 300 K at every temperature.  Here each photon creates one
pair at 100 K, so that with full collection only the Poisson noise of the photons is left and the
ratio is one; the code returns the ratio for the Fano factor of 300 K. -/
theorem C49_temperature_counterexample : ∃ (iqy fano : ℝ → ℝ → ℝ) (p : ℕ → ℝ) (v mean : ℝ),
    pairMean 1 p (fun _ => 1) = 1 ∧ pairMean 1 p (fun k => k) = iqy 1 100
    ∧ pairMean 1 p (fun k => (k : ℝ) ^ 2) - pairMean 1 p (fun k => k) ^ 2
      = fano 1 100 * pairMean 1 p (fun k => k)
    ∧ vmrSignal iqy fano 1 1 1 (4 + I) 1 1 100 true true true = some v
    ∧ mean = exposureMean (absorptionMean (4 * Real.pi)) (sternProfile 1 1) 1 p 10 (fun m => m)
    ∧ 0 < mean
    ∧ v ≠ (exposureMean (absorptionMean (4 * Real.pi)) (sternProfile 1 1) 1 p 10
      (fun m => (m : ℝ) ^ 2) - mean ^ 2) / mean := by
  have hd : snellsLawScalar 1 1 (4 + I) = 1 := snell_normal
  have ha : 0 < 4 * Real.pi := by have := Real.pi_pos; positivity
  have h : absorptionEffective 1 (4 + I) (snellsLawScalar 1 1 (4 + I)) = some (4 * Real.pi) := by
    rw [hd]
    unfold absorptionEffective
    rw [div?_of_ne one_ne_zero]
    simp
  have hQ := absorptionMean_quadratic ha one_pos 1
  have hp : pairMean 1 (fun k => if k = 1 then 1 else 0) (fun _ => 1) = 1 := by
    norm_num [pairMean, Finset.sum_range_succ]
  have hm1 : absorptionMean (4 * Real.pi) (sternProfile 1 1) = 1 := by
    have := hQ 1 0 0
    simp only [zero_mul, add_zero] at this
    refine Eq.trans (congrArg _ (funext fun z => ?_)) this
    simp [sternProfile]
  have hm2 : absorptionMean (4 * Real.pi) (fun z => sternProfile 1 1 z ^ 2) = 1 := by
    refine Eq.trans (congrArg _ (funext fun z => ?_)) hm1
    simp [sternProfile]
  have em := exposureMean_quadratic hQ hp 10 0 1 0
  have es := exposureMean_quadratic hQ hp 10 0 0 1
  simp only [zero_add, one_mul, zero_mul, add_zero] at em es
  refine ⟨fun _ _ => 1, fun _ T => if T = 300 then 1 / 10 else 0, fun k => if k = 1 then 1 else 0,
    _, _, hp, ?_, ?_, vmr_eq h ha one_pos zero_le_one le_rfl true true true, rfl, ?_, ?_⟩
  · norm_num [pairMean, Finset.sum_range_succ]
  · norm_num [pairMean, Finset.sum_range_succ]
  · rw [em]
    unfold firstMoment
    rw [hm1]
    norm_num [pairMean, Finset.sum_range_succ]
  · rw [em, es]
    unfold firstMoment secondMoment
    simp only [hm1, hm2]
    norm_num [pairMean, Finset.sum_range_succ]

/-! ### The expected signal -/

/-- **C57**: the signal without noise is the mean of the signal with noise, if every absorbed photon
counts, however deep it is absorbed.  Missing: the simulation only allows depths within the
substrate, see `C57_bias`. -/
theorem C57_mean_partial {m : SiliconMaterial} {w : ℝ} {d : ℂ} (h : m.Works w d)
    (hd : ProperCosine d) {N : ℕ} {p : ℕ → ℝ} (hp : pairMean N p (fun _ => 1) = 1)
    (hmean : pairMean N p (fun k => k) = m.iqy w m.temperature) (hc photons : ℝ) :
    ∃ a s, absorptionEffective w (m.nSilicon w) d = some a ∧ m.signal hc true photons w d = some s
      ∧ s = exposureMean (absorptionMean a) (sternProfile m.cceBacksurface m.thicknessImplant) N p
        photons (fun k => k) := by
  obtain ⟨a, cce, ha, ha0, hcce, -⟩ := gain_exists h
  refine ⟨a, _, ha, signal_eq h hd ha hcce hc photons, ?_⟩
  have em := exposureMean_quadratic (absorptionMean_quadratic ha0 h.implant m.cceBacksurface) hp
    photons 0 1 0
  simp only [zero_add, one_mul, zero_mul, add_zero] at em
  rw [em]
  rw [C46_mean ha0 h.implant, Option.some.injEq] at hcce
  unfold firstMoment
  rw [hmean, hcce]
  ring

/-- The mean over a layer that contains the implant, from the mean over all depths. -/
theorem layerMean_stern {a W D : ℝ} (ha : 0 < a) (hW : 0 < W) (hD : W ≤ D) (η₀ : ℝ) :
    layerMean a D (sternProfile η₀ W) * (1 - Real.exp (-(a * D)))
      = absorptionMean a (sternProfile η₀ W) - Real.exp (-(a * D)) := by
  have hD0 : 0 < D := lt_of_lt_of_le hW hD
  unfold layerMean absorptionMean
  have hs := stern_integrable ha hW η₀ 1
  simp only [pow_one] at hs
  have he := (stern_integrable ha hW η₀ 0)
  simp only [pow_zero, one_mul] at he
  have sub : Set.Ioi D ⊆ Set.Ioi (0 : ℝ) := fun x hx => lt_trans hD0 hx
  have s1 := intervalIntegral.integral_Ioi_sub_Ioi' hs (hs.mono_set sub)
  have s2 := intervalIntegral.integral_Ioi_sub_Ioi' he (he.mono_set sub)
  have t1 : ∫ z in Set.Ioi D, sternProfile η₀ W z * Real.exp (-(a * z))
      = ∫ z in Set.Ioi D, Real.exp (-(a * z)) := by
    apply MeasureTheory.setIntegral_congr_fun measurableSet_Ioi
    intro z hz
    have : ¬ z < W := not_lt.2 (le_trans hD (le_of_lt hz))
    simp only [sternProfile, if_neg this, one_mul]
  rw [t1] at s1
  rw [← s1, ← s2, integral_exp_Ioi ha, integral_exp_Ioi ha]
  have hlt : Real.exp (-(a * D)) < 1 := by rw [Real.exp_lt_one_iff]; nlinarith
  have h1 : (1 : ℝ) - Real.exp (-(a * D)) ≠ 0 := by linarith
  rw [mul_zero, neg_zero, Real.exp_zero]
  generalize Real.exp (-(a * D)) = E at *
  have := ha.ne'
  field_simp

/-- **C57**: the mean of the signal with noise, in which photons are absorbed at a random depth
within the substrate, falls short of the signal without noise. -/
theorem C57_bias {m : SiliconMaterial} {w : ℝ} {d : ℂ} (h : m.Works w d)
    (hd : ProperCosine d) (hD : m.thicknessImplant ≤ m.thicknessSubstrate) {N : ℕ} {p : ℕ → ℝ}
    (hp : pairMean N p (fun _ => 1) = 1)
    (hmean : pairMean N p (fun k => k) = m.iqy w m.temperature) (hc photons : ℝ) :
    ∃ a s, absorptionEffective w (m.nSilicon w) d = some a ∧ 0 < a
      ∧ m.signal hc true photons w d = some s
      ∧ exposureMean (layerMean a m.thicknessSubstrate)
          (sternProfile m.cceBacksurface m.thicknessImplant) N p photons (fun k => k)
        = s - (photons * m.iqy w m.temperature - s) * Real.exp (-(a * m.thicknessSubstrate))
            / (1 - Real.exp (-(a * m.thicknessSubstrate))) := by
  obtain ⟨a, cce, ha, ha0, hcce, -⟩ := gain_exists h
  refine ⟨a, _, ha, ha0, signal_eq h hd ha hcce hc photons, ?_⟩
  have hD0 : 0 < m.thicknessSubstrate := lt_of_lt_of_le h.implant hD
  have em := exposureMean_quadratic (layerMean_quadratic ha0.ne' hD0 h.implant m.cceBacksurface) hp
    photons 0 1 0
  simp only [zero_add, one_mul, zero_mul, add_zero] at em
  rw [em]
  rw [C46_mean ha0 h.implant, Option.some.injEq] at hcce
  have hl := layerMean_stern ha0 h.implant hD m.cceBacksurface
  have hlt : Real.exp (-(a * m.thicknessSubstrate)) < 1 := by rw [Real.exp_lt_one_iff]; nlinarith
  have h1 : (1 : ℝ) - Real.exp (-(a * m.thicknessSubstrate)) ≠ 0 := by linarith
  unfold firstMoment
  rw [hmean, eq_sub_iff_add_eq, ← hcce]
  rw [← hcce]  at *
  rw [← sub_eq_zero]
  field_simp
  linear_combination (photons * m.iqy w m.temperature) * hl

/-- **C57**: so the two never agree if some electrons are lost at the back surface. -/
theorem C57_bias_counterexample {m : SiliconMaterial} {w : ℝ} {d : ℂ} (h : m.Works w d)
    (hd : ProperCosine d) (hD : m.thicknessImplant ≤ m.thicknessSubstrate)
    (hη : m.cceBacksurface < 1) {N : ℕ} {p : ℕ → ℝ} (hp : pairMean N p (fun _ => 1) = 1)
    (hmean : pairMean N p (fun k => k) = m.iqy w m.temperature) (hc : ℝ) {photons : ℝ}
    (hx : 0 < photons) :
    ∃ a s, absorptionEffective w (m.nSilicon w) d = some a
      ∧ m.signal hc true photons w d = some s
      ∧ exposureMean (layerMean a m.thicknessSubstrate)
          (sternProfile m.cceBacksurface m.thicknessImplant) N p photons (fun k => k) < s := by
  obtain ⟨a, s, ha, ha0, hs, hb⟩ := C57_bias h hd hD hp hmean hc photons
  refine ⟨a, s, ha, hs, ?_⟩
  obtain ⟨a', cce, ha', -, hcce, -⟩ := gain_exists h
  obtain rfl : a' = a := by rw [ha'] at ha; exact Option.some.inj ha
  rw [signal_eq h hd ha hcce hc photons, Option.some.injEq] at hs
  have hc1 : cce < 1 := by
    have h1 := C46_backsurface ha0 h.implant hη hcce (cce_eq ha0 h.implant 1)
    linarith
  rw [hb]
  have hE := Real.exp_pos (-(a' * m.thicknessSubstrate))
  have hlt : Real.exp (-(a' * m.thicknessSubstrate)) < 1 := by
    rw [Real.exp_lt_one_iff]
    have := mul_pos ha0 (lt_of_lt_of_le h.implant hD)
    linarith
  have hq := h.yield
  have h3 : 0 < photons * m.iqy w m.temperature - s := by
    rw [← hs]
    have : 0 < photons * m.iqy w m.temperature * (1 - cce) := by
      have : 0 < 1 - cce := by linarith
      positivity
    linarith
  have h4 : 0 < 1 - Real.exp (-(a' * m.thicknessSubstrate)) := by linarith
  have : 0 < (photons * m.iqy w m.temperature - s) * Real.exp (-(a' * m.thicknessSubstrate))
      / (1 - Real.exp (-(a' * m.thicknessSubstrate))) := by positivity
  linarith

/-- Silicon of 7 µm with an implant of 0.23 µm, one pair for each photon. -/
example : ∃ a s, absorptionEffective (1 / 2) (4 + I / 10) 1 = some a
    ∧ (⟨fun _ => 4 + I / 10, fun _ => 3 / 2, fun _ _ => 1, fun _ _ => 0, 0.005, 0.2317, 7, 0, 0,
      0.21, 300⟩ : SiliconMaterial).signal 1 true 10 (1 / 2) 1 = some s
    ∧ exposureMean (layerMean a 7) (sternProfile 0.21 0.2317) 1 (fun k => if k = 1 then 1 else 0) 10
      (fun k => k) < s := by
  apply C57_bias_counterexample (m := ⟨fun _ => 4 + I / 10, fun _ => 3 / 2, fun _ _ => 1,
    fun _ _ => 0, 0.005, 0.2317, 7, 0, 0, 0.21, 300⟩) (w := 1 / 2) (d := 1)
    ⟨by norm_num, fun h => by simpa using congrArg im h, by simp, by norm_num, by norm_num,
      by norm_num, by norm_num⟩ (Or.inl (by simp)) (by norm_num) (by norm_num)
  · norm_num [pairMean, Finset.sum_range_succ]
  · norm_num [pairMean, Finset.sum_range_succ]
  · norm_num

/-! ### Uncertainties -/

theorem uncertainty_eq {m : SiliconMaterial} {w : ℝ} {d : ℂ} (h : m.Works w d)
    (hd : ProperCosine d) (hF : 0 ≤ m.fano w 300) {electrons : ℝ} (he : 0 ≤ electrons) :
    ∃ v, vmrSignal m.iqy m.fano w d (m.nSilicon w) (m.nSilicon w) m.thicknessImplant
        m.cceBacksurface m.temperature true true true = some v ∧ 0 ≤ v
      ∧ m.uncertainty electrons w d = some (Real.sqrt (v * electrons)) := by
  obtain ⟨a, cce, ha, ha0, hcce, -⟩ := gain_exists h
  have ha' : absorptionEffective w (m.nSilicon w)
      (snellsLawScalar d (m.nSilicon w) (m.nSilicon w)) = some a := by
    rw [snell_same hd h.index, ha]
  have hv := vmr_eq (iqy := m.iqy) (fano := m.fano) (temperature := m.temperature) ha' ha0 h.implant
    h.cce_nonneg h.cce_le_one true true true
  have h0 := C49_nonneg ha' ha0 h.implant h.cce_nonneg h.cce_le_one h.yield.le hF hv
  refine ⟨_, hv, h0, ?_⟩
  unfold SiliconMaterial.uncertainty
  simp only [hv, Option.bind_eq_bind, Option.bind_some]
  exact sqrt?_of_nonneg (mul_nonneg h0 he)

/-- **C50**: the uncertainty of a sensor is that of its material and its read noise, added in
quadrature. -/
theorem C50_uncertainty_partial {m : SiliconMaterial} {edges : ℝ × ℝ} {d : ℂ}
    (h : m.Works ((edges.1 + edges.2) / 2) d) (hd : ProperCosine d)
    (hF : 0 ≤ m.fano ((edges.1 + edges.2) / 2) 300) (readNoise : ℝ) {electrons : ℝ}
    (he : 0 ≤ electrons) :
    ∃ σ u, m.uncertainty electrons ((edges.1 + edges.2) / 2) d = some σ
      ∧ sensorUncertainty m readNoise electrons edges d = some u
      ∧ 0 ≤ u ∧ u ^ 2 = σ ^ 2 + readNoise ^ 2 := by
  obtain ⟨v, -, -, hu⟩ := uncertainty_eq h hd hF he
  refine ⟨_, _, hu, ?_, Real.sqrt_nonneg _, Real.sq_sqrt (by positivity)⟩
  unfold sensorUncertainty cellCenter
  simp only [hu, Option.bind_eq_bind, Option.bind_some]
  exact sqrt?_of_nonneg (by positivity)

/-- **C50**: for the signal without noise the uncertainty of the material is the standard deviation
of the number of electrons, with the same restrictions as `C49_vmr_partial`. -/
theorem C50_uncertainty_variance {m : SiliconMaterial} {w : ℝ} {d : ℂ} (h : m.Works w d)
    (hd : ProperCosine d) (hF : 0 ≤ m.fano w 300) {N : ℕ} {p : ℕ → ℝ}
    (hp : pairMean N p (fun _ => 1) = 1)
    (hmean : pairMean N p (fun k => k) = m.iqy w m.temperature)
    (hfano : pairMean N p (fun k => (k : ℝ) ^ 2) - pairMean N p (fun k => k) ^ 2
      = m.fano w 300 * pairMean N p (fun k => k)) (hc : ℝ) {photons : ℝ} (hx : 0 < photons) :
    ∃ a s σ, absorptionEffective w (m.nSilicon w) d = some a
      ∧ m.signal hc true photons w d = some s ∧ m.uncertainty s w d = some σ
      ∧ σ ^ 2 = exposureMean (absorptionMean a)
          (sternProfile m.cceBacksurface m.thicknessImplant) N p photons (fun k => (k : ℝ) ^ 2)
        - exposureMean (absorptionMean a)
          (sternProfile m.cceBacksurface m.thicknessImplant) N p photons (fun k => k) ^ 2 := by
  obtain ⟨a, s, ha, hs, hse⟩ := C57_mean_partial h hd hp hmean hc photons
  obtain ⟨a', cce, ha', ha0, hcce, -⟩ := gain_exists h
  obtain rfl : a' = a := by rw [ha'] at ha; exact Option.some.inj ha
  have hsn : absorptionEffective w (m.nSilicon w)
      (snellsLawScalar d (m.nSilicon w) (m.nSilicon w)) = some a' := by
    rw [snell_same hd h.index, ha]
  obtain ⟨v, mean, hv, hm, hm0, hvm⟩ := C49_vmr_partial (iqy := m.iqy) (fano := m.fano) hsn ha0
    h.implant h.cce_nonneg h.cce_le_one hp hmean hfano h.yield hx
  have hms : s = mean := hse.trans hm.symm
  obtain ⟨v', hv', h0, hu⟩ := uncertainty_eq h hd hF (electrons := s) (by rw [hms]; exact hm0.le)
  obtain rfl : v' = v := by rw [hv'] at hv; exact Option.some.inj hv
  refine ⟨a', s, _, ha, hs, hu, ?_⟩
  rw [Real.sq_sqrt (mul_nonneg h0 (by rw [hms]; exact hm0.le)), ← hm, hms, hvm,
    div_mul_cancel₀ _ hm0.ne']

/-- **C50**: a pixel in which read noise gives a negative number of electrons has no uncertainty,
not even that of the read noise. -/
theorem C50_uncertainty_counterexample {m : SiliconMaterial} {edges : ℝ × ℝ} {d : ℂ}
    (h : m.Works ((edges.1 + edges.2) / 2) d) (hd : ProperCosine d)
    (hF : 0 ≤ m.fano ((edges.1 + edges.2) / 2) 300) (readNoise : ℝ) {electrons : ℝ}
    (he : electrons < 0) : sensorUncertainty m readNoise electrons edges d = none := by
  obtain ⟨a, cce, ha, ha0, hcce, hcpos⟩ := gain_exists h
  have ha' : absorptionEffective ((edges.1 + edges.2) / 2) (m.nSilicon ((edges.1 + edges.2) / 2))
      (snellsLawScalar d (m.nSilicon ((edges.1 + edges.2) / 2))
        (m.nSilicon ((edges.1 + edges.2) / 2))) = some a := by
    rw [snell_same hd h.index, ha]
  have hv := vmr_eq (iqy := m.iqy) (fano := m.fano) (temperature := m.temperature) ha' ha0 h.implant
    h.cce_nonneg h.cce_le_one true true true
  obtain ⟨v, hve⟩ : ∃ v, vmrSignal m.iqy m.fano ((edges.1 + edges.2) / 2) d
      (m.nSilicon ((edges.1 + edges.2) / 2)) (m.nSilicon ((edges.1 + edges.2) / 2))
      m.thicknessImplant m.cceBacksurface m.temperature true true true = some v := ⟨_, hv⟩
  rw [hve, Option.some.injEq] at hv
  have hpos : 0 < v := by
    rw [hv]
    simp only [if_true]
    rw [C46_mean ha0 h.implant, Option.some.injEq] at hcce
    have h1 : 0 < absorptionMean a (sternProfile m.cceBacksurface m.thicknessImplant) := by
      rw [hcce]; exact hcpos
    have h2 := stern_sq_le ha0 h.implant h.cce_nonneg h.cce_le_one
    have h3 := stern_variance_nonneg (η₀ := m.cceBacksurface) ha0 h.implant
    have h4 := h.yield
    have h5 : absorptionMean a (fun z => sternProfile m.cceBacksurface m.thicknessImplant z ^ 2)
          / absorptionMean a (sternProfile m.cceBacksurface m.thicknessImplant) ≤ 1 := by
      rwa [div_le_one h1]
    have h6 := mul_pos h4 h1
    have h7 := mul_nonneg h1.le hF
    have h8 := mul_nonneg (add_nonneg h4.le hF) (div_nonneg h3 h1.le)
    linarith
  unfold sensorUncertainty cellCenter SiliconMaterial.uncertainty
  simp only [hve, Option.bind_eq_bind, Option.bind_some]
  unfold sqrt?
  rw [if_pos (mul_neg_of_pos_of_neg hpos he)]
  rfl

/-- **C50**: the same for the ideal sensor. -/
theorem C50_ideal_uncertainty (readNoise : ℝ) (electrons : ℝ) :
    idealSensorUncertainty readNoise electrons
      = if 0 ≤ electrons then some (Real.sqrt (electrons + readNoise ^ 2)) else none := by
  unfold idealSensorUncertainty idealUncertainty
  split_ifs with h
  · simp only [sqrt?_of_nonneg h, Option.bind_eq_bind, Option.bind_some, Real.sq_sqrt h]
    exact sqrt?_of_nonneg (by positivity)
  · unfold sqrt?
    rw [if_pos (not_le.1 h)]
    rfl

end Optika
