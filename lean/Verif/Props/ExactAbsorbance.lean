import Verif.Props.SensorMaterial

/-!
# C51: the two methods for the absorbance of a sensor
-/

namespace Optika
open Complex

theorem exact_smooth (w : ℝ) (pol : Bool) (c n : ℂ) (nO nS : ℝ → ℂ) (dO D : ℝ) :
    sensorAbsorbanceExact w pol c n nO nS dO D 0 0
      = (layerAbsorbance 1 w pol c n (.sequence [.layer ⟨nO, dO, none⟩, .layer ⟨nS, D, none⟩]) none).map (·.re) := by
  unfold sensorAbsorbanceExact layerAbsorbance
  congr 1
  have e1 : ∀ m acc, transferAll w pol [.layer (roughLayer nO dO 0), .layer (roughLayer nS D 0)] m acc
      = transferAll w pol [.layer ⟨nO, dO, none⟩, .layer ⟨nS, D, none⟩] m acc := by
    intro m acc
    simp only [transferAll, Stack.transfer, transfer_smooth]
  have e2 : ∀ m acc, transferAll w pol [.layer (roughLayer nO dO 0)] m acc
      = transferAll w pol [.layer ⟨nO, dO, none⟩] m acc := by
    intro m acc
    simp only [transferAll, Stack.transfer, transfer_smooth]
  have hc : multilayerCoefficients w pol c n
      (.sequence [.layer (roughLayer nO dO 0), .layer (roughLayer nS D 0)]) none
      = multilayerCoefficients w pol c n (.sequence [.layer ⟨nO, dO, none⟩, .layer ⟨nS, D, none⟩]) none := by
    unfold multilayerCoefficients multilayerTransfer
    simp only [Stack.transfer, e1]
    rfl
  have s1 : ∀ a b : Stack, pySlice [a, b] 1 = [a] := fun a b => by simp [pySlice]
  have s2 : ∀ a b : Stack, pySlice [a, b] (1 + 1) = [a, b] := fun a b => by simp [pySlice]
  have s3 : ∀ a b : Stack, pyGet? [a, b] 1 = some b := fun a b => by simp [pyGet?]
  simp only [Stack.layerSequence, s1, s2, s3, hc,
    Stack.transfer, e1, e2, Option.bind_eq_bind, Option.bind_some]
  simp only [Stack.index?, Stack.interface?, roughLayer, Option.bind_some, refraction_smooth]

/-- **C51**: for a sensor with smooth surfaces whose oxide is transparent enough and whose silicon attenuates the
amplitude by ten orders of magnitude or more, the exact absorbance is the transmittance into the silicon, and the
method of Beer and Lambert differs from it by less than one part in 10²⁰. -/
theorem C51_exact {w n c : ℝ} (hw : 0 < w) (hn : 0 < n) (hc : 0 < c) (hc1 : c ≤ 1)
    (pol : Bool) {nO nS : ℝ → ℂ} (hO : PassiveIndex (nO w)) (hS : PassiveIndex (nS w)) {dO D : ℝ}
    (hdO : 0 ≤ dO) (hD : 0 ≤ D) (h1 : snellsLawScalar c n (nO w) ≠ 0) (h2 : snellsLawScalar c n (nS w) ≠ 0)
    (thin : Real.exp (2 * Real.pi * dO / w * (nO w * snellsLawScalar c n (nO w)).im) < 10 ^ 10)
    (thick : 10 ^ 10 ≤ Real.exp (2 * Real.pi * D / w * (nS w * snellsLawScalar c n (nS w)).im)) :
    ∃ T, sensorTransmittance w pol c n nO nS dO D 0 0 = some T
      ∧ sensorAbsorbanceExact w pol c n nO nS dO D 0 0 = some T
      ∧ ∃ A, sensorAbsorbance w pol c n nO nS dO D 0 0 = some A ∧ 0 ≤ T - A ∧ T - A ≤ T / 10 ^ 20 := by
  set O : Layer := ⟨nO, dO, none⟩ with hOd
  set S : Layer := ⟨nS, D, none⟩ with hSd
  have pO : O.Passive w := passive_layer hO hdO
  have pS : S.Passive w := passive_layer hS hD
  have pS0 : (substrateLayer (some S)).Passive w := passive_layer hS le_rfl
  have pV : (substrateLayer none).Passive w := ⟨by simp [substrateLayer], by simp [substrateLayer],
    by simp [substrateLayer], by simp [substrateLayer], rfl⟩
  have cO : O.Clear w c n := thin
  have cS : ¬ S.Clear w c n := not_lt.2 thick
  obtain ⟨A, hA⟩ := C51_defined hw hn hc hc1 pol hO hS hdO h1 h2 (D := D)
  obtain ⟨T, hT, hAT, hA0, hA1⟩ := C51_absorbance hw hn hc hc1 pol hS hD hA
  refine ⟨T, hT, ?_, A, hA, by linarith, ?_⟩
  · -- the coefficients of both stacks
    set σ := n ^ 2 * (1 - c ^ 2) with hσdef
    have hσ : 0 ≤ σ := mul_nonneg (sq_nonneg n) (by nlinarith)
    have g : Good σ (n : ℂ) (c : ℂ) := good_ambient hn hc.le
    obtain ⟨q, hq, hqv⟩ := momentum_ambient (n := n) (c := c) pol hn
    have hqpos : 0 < q := by
      rw [hqv]; cases pol <;> simp <;> positivity
    have hT' := hT
    unfold sensorTransmittance at hT'
    rw [efficiency_smooth] at hT'
    obtain ⟨⟨R, T'⟩, hRT, rfl⟩ := Option.map_eq_some_iff.1 hT'
    obtain ⟨r, t, hrt, h0, hR, hTT⟩ := efficiency_split hRT
    have hrt2 : ∃ t', multilayerCoefficients w pol c n (.sequence [.layer O, .layer S]) none = some (r, t') := by
      have hO1 : (O.transfer w pol ⟨n, c, true⟩).1.valid = true := by
        have := prefix_valid (w := w) (c := (c : ℂ)) (n := (n : ℂ)) (good_ambient hn hc.le) pol [O]
          (by simpa using pO.ne) (by simpa using cO)
        simpa [transferAll, Stack.transfer] using this
      have hdir : (O.transfer w pol ⟨n, c, true⟩).1.direction = snellsLawScalar c n (nO w) := rfl
      have hnO : (O.transfer w pol ⟨n, c, true⟩).1.n = nO w := rfl
      have hS2 : snellsLawScalar (snellsLawScalar c n (nO w)) (nO w) (nS w) = snellsLawScalar c n (nS w) := by
        have g := good_next (w := w) (m := ⟨n, c, true⟩) hσ (good_ambient hn hc.le) pO
        have := snell_of_good g (nS w)
        rw [show (O.next w ⟨n, c, true⟩).direction = snellsLawScalar c n (nO w) from rfl,
          show (O.next w ⟨n, c, true⟩).n = nO w from rfl] at this
        rw [this, snell_of_good (good_ambient hn hc.le)]
      have hval : ∀ m : Medium, m = (O.transfer w pol ⟨n, c, true⟩).1 →
          (S.transfer w pol m).1.valid = false ∧
          (S.transfer w pol m).2 = ((substrateLayer (some S)).transfer w pol m).2 := by
        intro m hm
        have hmn : m.n = nO w := by rw [hm]; exact hnO
        have hmd : m.direction = snellsLawScalar c n (nO w) := by rw [hm]; exact hdir
        have hmv : m.valid = true := by rw [hm]; exact hO1
        have hnv : ¬ ‖propagation w (snellsLawScalar c n (nS w)) D (nS w) 0 0‖ < 10 ^ 10 := by
          rw [norm_propagation]; exact not_lt.2 thick
        have hp0 : propagation w (snellsLawScalar c n (nS w)) 0 (nS w) = 1 := by
          unfold propagation
          simp [Matrix.one_fin_two]
        constructor
        · simp only [Layer.transfer, hmn, hmd, hmv, hSd, hS2, Bool.true_and]
          exact decide_eq_false hnv
        · have hs : substrateLayer (some S) = ⟨nS, 0, none⟩ := rfl
          rw [hs]
          simp only [Layer.transfer, hmn, hmd, hmv, hSd, hS2, Bool.true_and, if_true, hp0, hnv, decide_false,
            mul_one, Option.map_id']
          simp
      unfold multilayerCoefficients multilayerTransfer at hrt ⊢
      simp only [Stack.transfer, transferAll, mul?_one_left] at hrt ⊢
      obtain ⟨v1, v2⟩ := hval _ rfl
      have hvac : ((substrateLayer none).transfer w pol (S.transfer w pol (O.transfer w pol ⟨n, c, true⟩).1).1).2
          = some 1 := by
        simp only [Layer.transfer] at v1 ⊢
        simp only [v1, Bool.false_and]
        simp
      rw [hvac, mul?_one_right, v2]
      obtain ⟨k, hk, hk'⟩ := Option.bind_eq_some_iff.1 hrt
      rw [hk, Option.bind_some]
      split_ifs at hk' with hz
      all_goals simp only [Option.some.injEq, Prod.mk.injEq] at hk'
      all_goals rw [if_neg hz]; exact ⟨_, by rw [hk'.1]⟩
    obtain ⟨t', hrt'⟩ := hrt2
    obtain ⟨B, hB, hsum⟩ := C33_sum_is_one_partial hw hn hc hc1 pol [O] (.sequence [.layer O])
      (by simp [Stack.Counted, CountedAll]) rfl (some S) (by simpa using pO) pS0 (by simpa using h1)
      (by simpa using cO) hRT
    have hl' : ∀ l ∈ [O], l.Passive w ∧ csqrt (1 - σ / (l.n w) ^ 2) ≠ 0 := by
      intro l h
      rw [List.mem_singleton] at h
      subst h
      exact ⟨pO, by rw [← snell_of_good g]; exact h1⟩
    have hl2 : ∀ l ∈ [O, S], l.Passive w ∧ csqrt (1 - σ / (l.n w) ^ 2) ≠ 0 := by
      intro l h
      rw [List.mem_cons, List.mem_singleton] at h
      rcases h with rfl | rfl
      · exact ⟨pO, by rw [← snell_of_good g]; exact h1⟩
      · exact ⟨pS, by rw [← snell_of_good g]; exact h2⟩
    have e0 := (layerAbsorbance_eq hσ hw hn hc g pol [O] (.sequence [.layer O]) rfl (some S) hl' (i := 0)
      (by simp) (by simpa using cO) hrt hq hqpos).1
    have e1 := layerAbsorbance_opaque hσ hc g pol [O, S] (.sequence [.layer O, .layer S]) rfl none hl2 (i := 1)
      (by simp) (by simpa using cO) (by simpa using cS) hrt' hq hqpos
    have f0 := prefixFlux_zero (w := w) (n := n) (c := c) pol [O] r hq
    have hB0 := (hB 0 (by simp)).1
    rw [e0, Option.some.injEq] at hB0
    have hB0 : (prefixFlux w pol c n [O] r 0 - prefixFlux w pol c n [O] r 1) / q = B 0 := by exact_mod_cast hB0
    rw [exact_smooth]
    have e1' : layerAbsorbance 1 w pol c n (.sequence [.layer O, .layer S]) none
        = some ((prefixFlux w pol c n [O, S] r 1 / q : ℝ) : ℂ) := by exact_mod_cast e1
    rw [e1', Option.map_some, Complex.ofReal_re, Option.some.injEq]
    have hp : prefixFlux w pol c n [O, S] r 1 = prefixFlux w pol c n [O] r 1 := rfl
    simp only [List.length_singleton, Finset.sum_range_one] at hsum
    rw [hp]
    rw [f0] at hB0
    rw [← hB0, hR] at hsum
    field_simp at hsum ⊢
    linarith
  · have hf : ‖exp (2 * Real.pi * I * nS w * snellsLawScalar c n (nS w) * D / w)‖ ^ 2 ≤ 1 / 10 ^ 20 := by
      rw [norm_exp]
      have e : (2 * Real.pi * I * nS w * snellsLawScalar c n (nS w) * D / w : ℂ)
          = ((2 * Real.pi * D / w : ℝ) : ℂ) * (I * (nS w * snellsLawScalar c n (nS w))) := by
        push_cast; ring
      rw [e, re_ofReal_mul, I_mul_re, mul_neg, Real.exp_neg, inv_pow]
      rw [inv_eq_one_div]
      apply one_div_le_one_div_of_le (by positivity)
      calc (10 : ℝ) ^ 20 = (10 ^ 10) ^ 2 := by norm_num
        _ ≤ _ := pow_le_pow_left₀ (by positivity) thick 2
    have hT0 : 0 ≤ T := by linarith
    rw [hAT]
    have := mul_le_mul_of_nonneg_left hf hT0
    linarith

/-- **C51**: for thinner silicon the exact absorbance is what reflection, the oxide and the light behind the
sensor leave over. -/
theorem C51_exact_energy {w n c : ℝ} (hw : 0 < w) (hn : 0 < n) (hc : 0 < c) (hc1 : c ≤ 1)
    (pol : Bool) {nO nS : ℝ → ℂ} (hO : PassiveIndex (nO w)) (hS : PassiveIndex (nS w)) {dO D : ℝ}
    (hdO : 0 ≤ dO) (hD : 0 ≤ D) (h1 : snellsLawScalar c n (nO w) ≠ 0) (h2 : snellsLawScalar c n (nS w) ≠ 0)
    (thinO : Real.exp (2 * Real.pi * dO / w * (nO w * snellsLawScalar c n (nO w)).im) < 10 ^ 10)
    (thinS : Real.exp (2 * Real.pi * D / w * (nS w * snellsLawScalar c n (nS w)).im) < 10 ^ 10)
    {R T : ℝ} (h : multilayerEfficiency w pol c n (.sequence [.layer ⟨nO, dO, none⟩, .layer ⟨nS, D, none⟩]) none
      = some (R, T)) :
    ∃ A B, sensorAbsorbanceExact w pol c n nO nS dO D 0 0 = some A
      ∧ layerAbsorbance 0 w pol c n (.sequence [.layer ⟨nO, dO, none⟩, .layer ⟨nS, D, none⟩]) none
        = some ((B : ℝ) : ℂ) ∧ 0 ≤ A ∧ 0 ≤ B ∧ R + B + A + T = 1 := by
  obtain ⟨A, hA, hsum⟩ := C33_sum_is_one_partial hw hn hc hc1 pol [⟨nO, dO, none⟩, ⟨nS, D, none⟩]
    (.sequence [.layer ⟨nO, dO, none⟩, .layer ⟨nS, D, none⟩]) (by simp [Stack.Counted, CountedAll]) rfl none
    (by
      intro l hl
      simp only [List.mem_cons, List.not_mem_nil, or_false] at hl
      rcases hl with rfl | rfl
      · exact passive_layer hO hdO
      · exact passive_layer hS hD)
    ⟨by simp [substrateLayer], by simp [substrateLayer], by simp [substrateLayer], by simp [substrateLayer], rfl⟩
    (by
      intro l hl
      simp only [List.mem_cons, List.not_mem_nil, or_false] at hl
      rcases hl with rfl | rfl
      · exact h1
      · exact h2)
    (by
      intro l hl
      simp only [List.mem_cons, List.not_mem_nil, or_false] at hl
      rcases hl with rfl | rfl
      · exact thinO
      · exact thinS) h
  obtain ⟨a0, p0⟩ := hA 0 (by simp)
  obtain ⟨a1, p1⟩ := hA 1 (by simp)
  refine ⟨A 1, A 0, ?_, by exact_mod_cast a0, p1, p0, ?_⟩
  · rw [exact_smooth]
    have e1 : layerAbsorbance 1 w pol c n (.sequence [.layer ⟨nO, dO, none⟩, .layer ⟨nS, D, none⟩]) none
        = some ((A 1 : ℝ) : ℂ) := by exact_mod_cast a1
    rw [e1, Option.map_some, Complex.ofReal_re]
  · simp only [List.length_cons, List.length_nil, Finset.sum_range_succ, Finset.sum_range_zero] at hsum
    linarith

/-- Ten wavelengths of a strongly absorbing substrate under a quarter of a wavelength of oxide, hit along the
normal. -/
example : ∃ T, sensorTransmittance 1 true (1 : ℝ) (1 : ℝ) (fun _ => 3 / 2) (fun _ => 1 + I) (1 / 4) 10 0 0 = some T
    ∧ sensorAbsorbanceExact 1 true (1 : ℝ) (1 : ℝ) (fun _ => 3 / 2) (fun _ => 1 + I) (1 / 4) 10 0 0 = some T := by
  have hs : ∀ m : ℂ, snellsLawScalar ((1 : ℝ) : ℂ) ((1 : ℝ) : ℂ) m = 1 := fun m => by
    simp [snell_normal]
  obtain ⟨T, h1, h2, -⟩ := C51_exact (w := 1) (n := 1) (c := 1) one_pos one_pos one_pos le_rfl true
    (nO := fun _ => 3 / 2) (nS := fun _ => 1 + I) (dO := 1 / 4) (D := 10)
    ⟨by norm_num, by norm_num, by norm_num⟩ ⟨one_add_I_ne, by simp, by simp⟩ (by norm_num) (by norm_num)
    (by rw [hs]; norm_num) (by rw [hs]; norm_num) (by rw [hs]; norm_num)
    (by
      rw [hs]
      simp only [mul_one, Complex.add_im, Complex.one_im, Complex.I_im, zero_add, div_one]
      have h3 := Real.pi_gt_three
      calc (10 : ℝ) ^ 10 ≤ (2 : ℝ) ^ 60 := by norm_num
        _ ≤ (Real.exp 1) ^ 60 := pow_le_pow_left₀ (by norm_num) (by
            have := Real.add_one_le_exp 1; linarith) 60
        _ = Real.exp 60 := by rw [← Real.exp_nat_mul]; norm_num
        _ ≤ _ := Real.exp_le_exp.2 (by linarith))
  exact ⟨T, h1, h2⟩

end Optika
