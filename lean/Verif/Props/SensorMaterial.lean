import Verif.Props.Multilayer
import Verif.Props.Silicon
import Verif.Props.Sensor
import Verif.Model.SensorMaterial
import Mathlib.Analysis.SpecialFunctions.Pow.Real

/-!
# Materials of imaging sensors (C50, C51)
-/

namespace Optika
open Complex

/-! ### Smooth interfaces -/

theorem profile_smooth (w : ℝ) (d n : ℂ) : profileReflectivity (erfFourier 0) w d n = some 1 := by
  simp [profileReflectivity, erfFourier]

theorem refraction_smooth (w : ℝ) (d d' : ℂ) (pol : Bool) (n n' : ℂ) :
    refraction w d d' pol n n' (some (profileReflectivity (erfFourier 0)))
      = refraction w d d' pol n n' none := by
  unfold refraction
  simp only [profile_smooth, Option.elim_some, Option.map_some, mul_one, Option.elim_none]

theorem transfer_smooth (w : ℝ) (pol : Bool) (n : ℝ → ℂ) (t : ℝ) (m : Medium) :
    (roughLayer n t 0).transfer w pol m = (⟨n, t, none⟩ : Layer).transfer w pol m := by
  unfold Layer.transfer roughLayer
  simp only [refraction_smooth]

theorem efficiency_smooth (w : ℝ) (pol : Bool) (c n : ℂ) (nO nS : ℝ → ℂ) (dO D : ℝ) :
    multilayerEfficiency w pol c n (.sequence [.layer (roughLayer nO dO 0)])
        (some (roughLayer nS D 0))
      = multilayerEfficiency w pol c n (.sequence [.layer ⟨nO, dO, none⟩])
        (some ⟨nS, D, none⟩) := by
  have h : (roughLayer nS 0 0).transfer w pol
      = (⟨nS, 0, none⟩ : Layer).transfer w pol := funext (transfer_smooth w pol nS 0)
  unfold multilayerEfficiency multilayerCoefficients multilayerTransfer
  simp only [substrateLayer, Option.elim_some, Stack.transfer, transferAll, transfer_smooth]
  have e : ({ roughLayer nS D 0 with thickness := 0 } : Layer) = roughLayer nS 0 0 := rfl
  rw [e]
  simp only [h]
  rfl

/-! ### C51 -/

/-- The refractive index of a material that does not amplify light. -/
structure PassiveIndex (n : ℂ) : Prop where
  ne : n ≠ 0
  re : 0 ≤ n.re
  im : 0 ≤ n.im

theorem passive_layer {w : ℝ} {n : ℝ → ℂ} (h : PassiveIndex (n w)) {t : ℝ} (ht : 0 ≤ t) :
    (⟨n, t, none⟩ : Layer).Passive w := ⟨h.ne, h.re, h.im, ht, rfl⟩

/-- The imaginary part of the component of the wave vector that is perpendicular to the
substrate. -/
theorem substrate_im {n c : ℝ} (hn : 0 < n) (hc : 0 < c) (hc1 : c ≤ 1) {ns : ℂ}
    (hs : PassiveIndex ns) : 0 ≤ (ns * snellsLawScalar c n ns).im := by
  have hσ : 0 ≤ n ^ 2 * (1 - c ^ 2) := mul_nonneg (sq_nonneg n) (by nlinarith)
  exact (good_snell hσ (good_ambient hn hc.le).inv hs.ne hs.re hs.im).wim

/-- **C51**: the absorption coefficient is the rate at which the energy of the refracted wave
decays with depth: the wave `exp (2πi n cos θ z / λ)` loses its energy as `exp (-a z)`. -/
theorem C51_decay {w : ℝ} {ns d : ℂ} {a : ℝ} (h : absorptionEffective w ns d = some a) (z : ℝ) :
    ‖exp (2 * Real.pi * I * ns * d * z / w)‖ ^ 2 = Real.exp (-(a * z)) := by
  unfold absorptionEffective at h
  rw [div?_eq_some] at h
  obtain ⟨h0, rfl⟩ := h
  rw [norm_exp, ← Real.exp_nat_mul]
  congr 1
  have e : (2 * Real.pi * I * ns * d * z / w : ℂ) = ((2 * Real.pi * z / w : ℝ) : ℂ) * (I * (ns * d)) := by
    push_cast
    ring
  rw [e, re_ofReal_mul, I_mul_re]
  push_cast
  ring

theorem transmittance_nonneg {w n c : ℝ} (hn : 0 < n) (hc : 0 < c) (hc1 : c ≤ 1)
    (pol : Bool) {nO nS : ℝ → ℂ} (hS : PassiveIndex (nS w)) {dO D rO rS : ℝ} {T : ℝ}
    (h : sensorTransmittance w pol c n nO nS dO D rO rS = some T) : 0 ≤ T := by
  unfold sensorTransmittance at h
  obtain ⟨⟨R, T'⟩, hRT, rfl⟩ := Option.map_eq_some_iff.1 h
  obtain ⟨r, t, -, -, -, h3⟩ := efficiency_split hRT
  have hσ : 0 ≤ n ^ 2 * (1 - c ^ 2) := mul_nonneg (sq_nonneg n) (by nlinarith)
  have g := good_snell hσ (good_ambient hn hc.le).inv hS.ne hS.re hS.im
  obtain ⟨q, hq, hqv⟩ := momentum_ambient (n := n) (c := c) pol hn
  have hqpos : 0 < q := by
    rw [hqv]; cases pol <;> simp <;> positivity
  simp only
  rw [h3, hq, div_ofReal_re']
  exact mul_nonneg (sq_nonneg _) (div_nonneg (momentum_re_nonneg g pol) hqpos.le)

theorem absorption_nonneg {w n c : ℝ} (hw : 0 < w) (hn : 0 < n) (hc : 0 < c) (hc1 : c ≤ 1) {ns : ℂ}
    (hs : PassiveIndex ns) {a : ℝ}
    (ha : absorptionEffective w ns (snellsLawScalar c n ns) = some a) : 0 ≤ a := by
  have h0 := substrate_im hn hc hc1 hs
  unfold absorptionEffective at ha
  rw [div?_eq_some] at ha
  obtain ⟨-, rfl⟩ := ha
  have := Real.pi_pos
  positivity

/-- **C51**: the absorbance is what the transmitted wave loses in the substrate; it lies between
zero and the transmittance.  Light of vacuum wavelength `w` comes from a transparent medium of
index `n` at an angle of cosine `c`, through an oxide of any kind, thickness and roughness. -/
theorem C51_absorbance {w n c : ℝ} (hw : 0 < w) (hn : 0 < n) (hc : 0 < c) (hc1 : c ≤ 1)
    (pol : Bool) {nO nS : ℝ → ℂ} (hS : PassiveIndex (nS w)) {dO D rO rS : ℝ} (hD : 0 ≤ D) {A : ℝ}
    (h : sensorAbsorbance w pol c n nO nS dO D rO rS = some A) :
    ∃ T, sensorTransmittance w pol c n nO nS dO D rO rS = some T
      ∧ A = T * (1 - ‖exp (2 * Real.pi * I * nS w * snellsLawScalar c n (nS w) * D / w)‖ ^ 2)
      ∧ 0 ≤ A ∧ A ≤ T := by
  unfold sensorAbsorbance at h
  simp only [Option.bind_eq_bind, Option.bind_eq_some_iff, Option.pure_def, Option.some.injEq] at h
  obtain ⟨T, hT, a, ha, rfl⟩ := h
  have hT0 := transmittance_nonneg hn hc hc1 pol hS hT
  have ha0 := absorption_nonneg hw hn hc hc1 hS ha
  have he : Real.exp (-a * D) ≤ 1 := by
    rw [Real.exp_le_one_iff]
    nlinarith
  have he0 := Real.exp_pos (-a * D)
  refine ⟨T, hT, ?_, ?_, ?_⟩
  · rw [C51_decay ha]
    ring_nf
  · nlinarith
  · nlinarith

/-- **C51**: with smooth surfaces and passive materials the transmittance is at most one, and so is
the absorbance.  (With rough surfaces it is not: `C32_rough_counterexample`.) -/
theorem C51_smooth {w n c : ℝ} (hw : 0 < w) (hn : 0 < n) (hc : 0 < c) (hc1 : c ≤ 1)
    (pol : Bool) {nO nS : ℝ → ℂ} (hO : PassiveIndex (nO w)) (hS : PassiveIndex (nS w)) {dO D : ℝ}
    (hdO : 0 ≤ dO) {T : ℝ} (h : sensorTransmittance w pol c n nO nS dO D 0 0 = some T) :
    T ≤ 1 := by
  unfold sensorTransmittance at h
  rw [efficiency_smooth] at h
  obtain ⟨⟨R, T'⟩, hRT, rfl⟩ := Option.map_eq_some_iff.1 h
  obtain ⟨h1, h2, h3⟩ := C32_energy_partial hw hn hc hc1 pol _ _ (by simp [Stack.Counted, CountedAll])
    (by
      intro l hl
      simp only [Stack.flat, flatAll, List.append_nil, List.mem_singleton] at hl
      subst hl
      exact passive_layer hO hdO)
    (by
      simp only [substrateLayer, Option.elim_some]
      exact passive_layer (n := nS) hS le_rfl) hRT
  simp only
  linarith

/-- **C51**: absorbance and transmittance are defined if no wave travels exactly parallel to the
surface. -/
theorem C51_defined {w n c : ℝ} (hw : 0 < w) (hn : 0 < n) (hc : 0 < c) (hc1 : c ≤ 1)
    (pol : Bool) {nO nS : ℝ → ℂ} (hO : PassiveIndex (nO w)) (hS : PassiveIndex (nS w)) {dO D : ℝ}
    (hdO : 0 ≤ dO) (h1 : snellsLawScalar c n (nO w) ≠ 0) (h2 : snellsLawScalar c n (nS w) ≠ 0) :
    ∃ A, sensorAbsorbance w pol c n nO nS dO D 0 0 = some A := by
  obtain ⟨R, T, hRT⟩ := C32_finite hw hn hc hc1 pol (.sequence [.layer ⟨nO, dO, none⟩])
    (some ⟨nS, D, none⟩) (by simp [Stack.Counted, CountedAll])
    (by
      intro l hl
      simp only [Stack.flat, flatAll, List.append_nil, List.mem_singleton] at hl
      subst hl
      exact passive_layer hO hdO)
    (by
      simp only [substrateLayer, Option.elim_some]
      exact passive_layer (n := nS) hS le_rfl)
    (by
      intro l hl
      simp only [Stack.flat, flatAll, List.append_nil, List.cons_append, List.nil_append,
        List.mem_cons, List.not_mem_nil, or_false, substrateLayer, Option.elim_some] at hl
      rcases hl with rfl | rfl
      · exact h1
      · exact h2)
  unfold sensorAbsorbance sensorTransmittance absorptionEffective
  rw [efficiency_smooth, hRT]
  simp only [div?_of_ne hw.ne']
  exact ⟨_, rfl⟩

/-- **C51**: the effective quantum efficiency is the absorbance (average of the polarizations)
times the mean collection efficiency of the absorbed photons, and lies between zero and the
absorbance. -/
theorem C51_eqe {w n c : ℝ} (hw : 0 < w) (hn : 0 < n) (hc : 0 < c) (hc1 : c ≤ 1)
    {nO nS : ℝ → ℂ} (hS : PassiveIndex (nS w)) {dO W D η₀ rO rS : ℝ}
    (hW : 0 < W) (hD : 0 ≤ D) (h0 : 0 ≤ η₀) (h1 : η₀ ≤ 1) {Q : ℝ}
    (h : quantumEfficiencyEffective w c n nO nS dO W D η₀ rO rS = some Q) :
    ∃ s p a, sensorAbsorbance w true c n nO nS dO D rO rS = some s
      ∧ sensorAbsorbance w false c n nO nS dO D rO rS = some p
      ∧ absorptionEffective w (nS w) (snellsLawScalar c n (nS w)) = some a
      ∧ Q = (s + p) / 2 * absorptionMean a (sternProfile η₀ W) ∧ 0 ≤ Q ∧ Q ≤ (s + p) / 2 := by
  unfold quantumEfficiencyEffective sensorAbsorbanceAverage at h
  simp only [Option.bind_eq_bind, Option.bind_eq_some_iff, Option.pure_def, Option.some.injEq] at h
  obtain ⟨A, ⟨s, hs, p, hp, rfl⟩, a, ha, cce, hcce, rfl⟩ := h
  obtain ⟨-, -, -, s0, -⟩ := C51_absorbance hw hn hc hc1 true hS hD hs
  obtain ⟨-, -, -, p0, -⟩ := C51_absorbance hw hn hc hc1 false hS hD hp
  have ha0 := absorption_nonneg hw hn hc hc1 hS ha
  rcases ha0.lt_or_eq with hpos | hz
  · have hm := C46_mean hpos hW η₀
    rw [hm, Option.some.injEq] at hcce
    have hr := C46_range hpos hW h1 hm
    subst hcce
    refine ⟨s, p, a, hs, hp, ha, rfl, ?_, ?_⟩ <;> nlinarith
  · rw [C46_zero_counterexample a W η₀ (Or.inl hz.symm)] at hcce
    simp at hcce

/-- A quarter wave of oxide on an absorbing substrate. -/
example : ∃ A T, sensorAbsorbance 1 false ((1 : ℝ) : ℂ) ((1 : ℝ) : ℂ) (fun _ => 3 / 2)
      (fun _ => 4 + I) (1 / 6) 7 0 0 = some A
    ∧ sensorTransmittance 1 false ((1 : ℝ) : ℂ) ((1 : ℝ) : ℂ) (fun _ => 3 / 2)
      (fun _ => 4 + I) (1 / 6) 7 0 0 = some T
    ∧ 0 ≤ A ∧ A ≤ T ∧ T ≤ 1 := by
  have hO : PassiveIndex (3 / 2) := ⟨by norm_num, by norm_num, by norm_num⟩
  have hS : PassiveIndex (4 + I) := ⟨fun h => by simpa using congrArg im h, by simp, by simp⟩
  have h1 : snellsLawScalar ((1 : ℝ) : ℂ) ((1 : ℝ) : ℂ) (3 / 2) ≠ 0 := by simp [snell_normal]
  have h2 : snellsLawScalar ((1 : ℝ) : ℂ) ((1 : ℝ) : ℂ) (4 + I) ≠ 0 := by simp [snell_normal]
  obtain ⟨A, hA⟩ := C51_defined (w := 1) (n := 1) (c := 1) (nO := fun _ => 3 / 2)
    (nS := fun _ => 4 + I) (dO := 1 / 6) (D := 7) one_pos one_pos one_pos le_rfl false hO hS
    (by norm_num) h1 h2
  obtain ⟨T, hT, -, h3, h4⟩ := C51_absorbance (w := 1) (n := 1) (c := 1) (nO := fun _ => 3 / 2)
    (nS := fun _ => 4 + I) one_pos one_pos one_pos le_rfl false hS (by norm_num) hA
  have h5 := C51_smooth (w := 1) (n := 1) (c := 1) (nO := fun _ => 3 / 2)
    (nS := fun _ => 4 + I) one_pos one_pos one_pos le_rfl false hO hS (by norm_num) hT
  exact ⟨A, T, hA, hT, h3, h4, h5⟩

/-- **C51**: material-level quantities: the efficiency of the sensor surface is the average
absorbance, the quantum efficiency is the quantum yield times the effective quantum efficiency. -/
theorem C51_material (m : SiliconMaterial) {w : ℝ} {d u : V3} {n : ℂ} {Q : ℝ}
    (h : m.quantumEfficiency w d n u = some Q) :
    ∃ E, m.eqe w d n u = some E ∧ Q = m.iqy w m.temperature * E := by
  unfold SiliconMaterial.quantumEfficiency at h
  simp only [Option.bind_eq_bind, Option.bind_eq_some_iff, Option.pure_def, Option.some.injEq] at h
  obtain ⟨E, hE, rfl⟩ := h
  exact ⟨E, hE, rfl⟩

/-- **C51**: a sensor surface with smooth interfaces never amplifies a ray from a transparent
medium. -/
theorem C51_efficiency (m : SiliconMaterial) {r : Ray} {u : V3} (hw : 0 < r.wavelength)
    (hn : 0 < r.index) (ha : r.attenuation = 0) (hc : r.direction.dot u < 0)
    (hc1 : -1 ≤ r.direction.dot u) (hO : PassiveIndex (m.nOxide r.wavelength))
    (hS : PassiveIndex (m.nSilicon r.wavelength)) (hdO : 0 ≤ m.thicknessOxide)
    (hD : 0 ≤ m.thicknessSubstrate) (h1 : m.roughnessOxide = 0) (h2 : m.roughnessSubstrate = 0)
    {e : ℝ} (h : m.efficiency r u = some e) : 0 ≤ e ∧ e ≤ 1 := by
  unfold SiliconMaterial.efficiency SiliconMaterial.absorbanceAverage sensorAbsorbanceAverage
    rayIndex at h
  rw [h1, h2, ha] at h
  simp only [zero_mul, zero_div, ofReal_zero, add_zero] at h
  simp only [Option.bind_eq_bind, Option.bind_eq_some_iff, Option.pure_def, Option.some.injEq] at h
  obtain ⟨s, hs, p, hp, rfl⟩ := h
  obtain ⟨T, hT, -, s0, s1⟩ := C51_absorbance hw hn (neg_pos.2 hc) (by linarith) true hS hD hs
  obtain ⟨T', hT', -, p0, p1⟩ := C51_absorbance hw hn (neg_pos.2 hc) (by linarith) false hS hD hp
  have := C51_smooth hw hn (neg_pos.2 hc) (by linarith) true hO hS hdO hT
  have := C51_smooth hw hn (neg_pos.2 hc) (by linarith) false hO hS hdO hT'
  constructor <;> linarith

/-- **C51**: the probability of measuring an absorbed photon is a probability. -/
theorem C51_probability {q c : ℝ} (hq : 0 ≤ q) (h0 : 0 ≤ c) (h1 : c ≤ 1) :
    0 ≤ probabilityMeasurement q c ∧ probabilityMeasurement q c ≤ 1 := by
  unfold probabilityMeasurement
  have h2 : 0 ≤ (1 - c) ^ q := Real.rpow_nonneg (by linarith) _
  have h3 : (1 - c) ^ q ≤ 1 := Real.rpow_le_one (by linarith) (by linarith) hq
  simp only
  constructor <;> linarith

/-- **C51**: for a whole number `k` of electrons, each collected with probability `c`, it is the
probability that not all of them are lost. -/
theorem C51_probability_whole (k : ℕ) (c : ℝ) :
    probabilityMeasurement k c = 1 - ∏ _i ∈ Finset.range k, (1 - c) := by
  unfold probabilityMeasurement
  simp [Real.rpow_natCast]

/-- **C51**: it increases with the quantum yield ... -/
theorem C51_probability_yield {q q' c : ℝ} (hq : 0 ≤ q) (h : q ≤ q') (h0 : 0 ≤ c) (h1 : c ≤ 1) :
    probabilityMeasurement q c ≤ probabilityMeasurement q' c := by
  unfold probabilityMeasurement
  simp only
  rcases h1.lt_or_eq with h1 | rfl
  · have := Real.rpow_le_rpow_of_exponent_ge (show 0 < 1 - c by linarith) (by linarith) h
    linarith
  · rcases hq.lt_or_eq with hq | rfl
    · rw [sub_self, Real.zero_rpow hq.ne', Real.zero_rpow (hq.trans_le h).ne']
    · rw [Real.rpow_zero]
      have := Real.rpow_le_one (show (0 : ℝ) ≤ 1 - 1 by norm_num) (by norm_num) h
      linarith

/-- ... and with the collection efficiency. -/
theorem C51_probability_efficiency {q c c' : ℝ} (hq : 0 ≤ q) (h : c ≤ c') (h1 : c' ≤ 1) :
    probabilityMeasurement q c ≤ probabilityMeasurement q c' := by
  unfold probabilityMeasurement
  have := Real.rpow_le_rpow (show 0 ≤ 1 - c' by linarith) (show 1 - c' ≤ 1 - c by linarith) hq
  simp only
  linarith

/-! ### C50 -/

/-- The cosines that a square root can return. -/
def ProperCosine (c : ℂ) : Prop := 0 < c.re ∨ (c.re = 0 ∧ 0 ≤ c.im)

theorem snell_same {c n : ℂ} (hc : ProperCosine c) (hn : n ≠ 0) : snellsLawScalar c n n = c := by
  rw [snellsLawScalar_eq]
  apply csqrt_unique
  · field_simp
    ring
  · rcases hc with h | h
    · exact h.le
    · exact h.1.ge
  · rcases hc with h | h
    · intro h0; exact absurd h0 h.ne'
    · exact fun _ => h.2

theorem cce_pos {a W η₀ c : ℝ} (ha : 0 < a) (hW : 0 < W) (h0 : 0 ≤ η₀) (h1 : η₀ ≤ 1)
    (hc : chargeCollectionEfficiency a W η₀ = some c) : 0 < c := by
  rw [cce_eq ha hW, Option.some.injEq] at hc
  have h2 := decay_ratio_pos (mul_pos ha hW)
  have h3 := decay_ratio_lt_one (mul_pos ha hW)
  subst hc
  rcases h0.lt_or_eq with h | rfl
  · nlinarith
  · simpa using h2

/-- A sensor that works: the silicon absorbs the wave of cosine `d`, the parameters of charge
collection make sense, and photons yield electrons. -/
structure SiliconMaterial.Works (m : SiliconMaterial) (w : ℝ) (d : ℂ) : Prop where
  wavelength : 0 < w
  index : m.nSilicon w ≠ 0
  absorbs : 0 < (m.nSilicon w * d).im
  implant : 0 < m.thicknessImplant
  cce_nonneg : 0 ≤ m.cceBacksurface
  cce_le_one : m.cceBacksurface ≤ 1
  yield : 0 < m.iqy w m.temperature

/-- The gain of the sensor, electrons per absorbed photon. -/
theorem gain_exists {m : SiliconMaterial} {w : ℝ} {d : ℂ} (h : m.Works w d) :
    ∃ a cce, absorptionEffective w (m.nSilicon w) d = some a ∧ 0 < a
      ∧ chargeCollectionEfficiency a m.thicknessImplant m.cceBacksurface = some cce ∧ 0 < cce := by
  have ha : 0 < 4 * Real.pi * (m.nSilicon w * d).im / w := by
    have := Real.pi_pos
    have := h.absorbs
    have := h.wavelength
    positivity
  refine ⟨_, _, by unfold absorptionEffective; rw [div?_of_ne h.wavelength.ne'], ha,
    C46_mean ha h.implant _, ?_⟩
  exact cce_pos ha h.implant h.cce_nonneg h.cce_le_one (C46_mean ha h.implant _)

theorem signal_eq {m : SiliconMaterial} {w : ℝ} {d : ℂ} (h : m.Works w d) (hd : ProperCosine d)
    {a cce : ℝ} (ha : absorptionEffective w (m.nSilicon w) d = some a)
    (hc : chargeCollectionEfficiency a m.thicknessImplant m.cceBacksurface = some cce)
    (hcst photons : ℝ) :
    m.signal hcst true photons w d = some (m.iqy w m.temperature * cce * photons) := by
  unfold SiliconMaterial.signal signalExpected toPhotons
  simp only [if_true, Option.bind_eq_bind, Option.bind_some, snell_same hd h.index, ha, hc,
    Option.pure_def, mul_one]

theorem signal_energy {m : SiliconMaterial} {w : ℝ} {d : ℂ} (hw : w ≠ 0) {hcst : ℝ} (hh : hcst ≠ 0)
    (energy : ℝ) :
    m.signal hcst false energy w d = m.signal hcst true (energy / (hcst / w)) w d := by
  unfold SiliconMaterial.signal toPhotons
  simp only [Bool.false_eq_true, if_false, if_true, div?_of_ne hw, Option.bind_eq_bind,
    Option.bind_some, div?_of_ne (div_ne_zero hh hw)]

theorem photonsAbsorbed_eq {m : SiliconMaterial} {w : ℝ} {d : ℂ} (h : m.Works w d)
    {a cce : ℝ} (ha : absorptionEffective w (m.nSilicon w) d = some a)
    (hc : chargeCollectionEfficiency a m.thicknessImplant m.cceBacksurface = some cce)
    (hc0 : 0 < cce) (electrons : ℝ) :
    m.photonsAbsorbed electrons w d = some (electrons / (m.iqy w m.temperature * cce)) := by
  unfold SiliconMaterial.photonsAbsorbed
  simp only [Option.bind_eq_bind, ha, hc, Option.bind_some,
    div?_of_ne (mul_pos h.yield hc0).ne']

/-- **C50**: exposing a sensor to an image of photon flux, without noise, and computing the
absorbed photons returns the image. -/
theorem C50_expose_then_invert {hc : ℝ} {m : SiliconMaterial} {edges : ℝ × ℝ} {d : ℂ}
    (h : m.Works ((edges.1 + edges.2) / 2) d) (hd : ProperCosine d) {t : ℝ} (ht : t ≠ 0)
    (image : ℝ) :
    ∃ electrons, exposeSilicon hc true m t image edges d = some electrons
      ∧ sensorPhotonsAbsorbed m t electrons edges d = some image := by
  obtain ⟨a, cce, h1, -, h2, h3⟩ := gain_exists h
  refine ⟨_, signal_eq h hd h1 h2 _ _, ?_⟩
  unfold sensorPhotonsAbsorbed
  have e := photonsAbsorbed_eq h h1 h2 h3
    (m.iqy ((edges.1 + edges.2) / 2) m.temperature * cce * (image * t))
  simp only [Option.bind_eq_bind, cellCenter, e, Option.bind_some, div?_of_ne ht]
  have := h.yield.ne'
  have := h3.ne'
  field_simp

/-- **C50**: in the other order. -/
theorem C50_invert_then_expose {hc : ℝ} {m : SiliconMaterial} {edges : ℝ × ℝ} {d : ℂ}
    (h : m.Works ((edges.1 + edges.2) / 2) d) (hd : ProperCosine d) {t : ℝ} (ht : t ≠ 0)
    (electrons : ℝ) :
    ∃ image, sensorPhotonsAbsorbed m t electrons edges d = some image
      ∧ exposeSilicon hc true m t image edges d = some electrons := by
  obtain ⟨a, cce, h1, -, h2, h3⟩ := gain_exists h
  refine ⟨electrons / (m.iqy ((edges.1 + edges.2) / 2) m.temperature * cce) / t, ?_, ?_⟩
  · unfold sensorPhotonsAbsorbed
    simp only [Option.bind_eq_bind, cellCenter, photonsAbsorbed_eq h h1 h2 h3 electrons,
      Option.bind_some, div?_of_ne ht]
  · refine (signal_eq h hd h1 h2 _ _).trans ?_
    have := h.yield.ne'
    have := h3.ne'
    congr 1
    field_simp

/-- **C50**: an image of energy flux comes back as the flux of photons of energy `hc / λ`. -/
theorem C50_energy {hc : ℝ} (hhc : hc ≠ 0) {m : SiliconMaterial} {edges : ℝ × ℝ} {d : ℂ}
    (h : m.Works ((edges.1 + edges.2) / 2) d) (hd : ProperCosine d) {t : ℝ} (ht : t ≠ 0)
    (image : ℝ) :
    ∃ electrons photons, exposeSilicon hc false m t image edges d = some electrons
      ∧ sensorPhotonsAbsorbed m t electrons edges d = some photons
      ∧ photons * (hc / ((edges.1 + edges.2) / 2)) = image := by
  have hw := h.wavelength.ne'
  obtain ⟨el, h1, h2⟩ := C50_expose_then_invert (hc := hc) h hd ht
    (image / (hc / ((edges.1 + edges.2) / 2)))
  refine ⟨el, _, ?_, h2, ?_⟩
  · unfold exposeSilicon cellCenter at h1 ⊢
    rw [signal_energy hw hhc]
    simp only at h1 ⊢
    rw [← h1]
    congr 1
    field_simp
  · rw [div_mul_cancel₀]
    exact div_ne_zero hhc hw

theorem proper_convex : Convex ℝ {c : ℂ | ProperCosine c} := by
  intro x hx y hy a b ha hb hab
  simp only [Set.mem_setOf_eq, ProperCosine, add_re, add_im, Complex.smul_re, Complex.smul_im,
    smul_eq_mul] at hx hy ⊢
  rcases ha.lt_or_eq with ha | rfl
  · rcases hx with hx | hx
    · left
      have : 0 ≤ b * y.re := mul_nonneg hb (by rcases hy with h | h; exacts [h.le, h.1.ge])
      have := mul_pos ha hx
      linarith
    · rcases hy with hy | hy
      · rcases hb.lt_or_eq with hb | rfl
        · left
          rw [hx.1]
          have := mul_pos hb hy
          linarith
        · right
          rw [hx.1]
          exact ⟨by ring, by have := mul_nonneg ha.le hx.2; linarith⟩
      · right
        rw [hx.1, hy.1]
        exact ⟨by ring, add_nonneg (mul_nonneg ha.le hx.2) (mul_nonneg hb hy.2)⟩
  · have hb1 : b = 1 := by linarith
    subst hb1
    simpa using hy

theorem directionRefracted_proper (m : SiliconMaterial) (w : ℝ) (d : V3) (n : ℂ) (u : V3) :
    ProperCosine (m.directionRefracted w d n u) := by
  unfold SiliconMaterial.directionRefracted snellsLawScalar
  obtain ⟨h1, h2⟩ := csqrt_quadrants (1 - (n * csqrt (1 - ((-(d.dot u) : ℝ) : ℂ) ^ 2)
    / m.nSilicon w) ^ 2)
  rcases h1.lt_or_eq with h | h
  · exact Or.inl h
  · exact Or.inr ⟨h.symm, h2 h.symm⟩

/-- **C50**: the cosines that the sensor finds for its pixels are cosines for which the round trip
works, whatever the rays. -/
theorem C50_collected {s : SensorGrid} {wavelength : List ℝ} {where_ : Ray → Bool}
    {rays : List Ray} {k : ℕ × ℕ × ℕ} (hI : ∀ r ∈ rays, 0 ≤ r.intensity) (m : SiliconMaterial)
    (u : Ray → V3) :
    ProperCosine (s.collectDirection wavelength where_
      (fun r => m.directionRefracted r.wavelength r.direction (rayIndex r) (u r)) rays k) := by
  by_cases h : 0 < s.collect wavelength where_ rays k
  · exact C42_mean hI h proper_convex fun r _ => directionRefracted_proper m _ _ _ _
  · rw [C42_empty s wavelength where_ _ rays k h]
    exact Or.inl (by simp)

/-- Silicon at normal incidence. -/
example : (⟨fun _ => 4 + I / 10, fun _ => 3 / 2, fun _ _ => 1, fun _ _ => 0, 0.005, 0.2317, 7, 0, 0,
    0.21, 300⟩ : SiliconMaterial).Works ((0.4 + 0.6) / 2) 1 ∧ ProperCosine 1 := by
  refine ⟨⟨by norm_num, fun h => by simpa using congrArg im h, by simp, by norm_num, by norm_num,
    by norm_num, by norm_num⟩, Or.inl (by simp)⟩

/-- **C50**: the ideal sensor. -/
theorem C50_ideal {hc t : ℝ} (ht : t ≠ 0) (image : ℝ) (edges : ℝ × ℝ) :
    ∃ electrons, exposeIdeal hc true t image edges = some electrons
      ∧ idealSensorPhotonsAbsorbed t electrons = some image := by
  refine ⟨image * t, rfl, ?_⟩
  unfold idealSensorPhotonsAbsorbed idealPhotonsAbsorbed
  rw [div?_of_ne ht, mul_div_cancel_right₀ _ ht]

/-- **C51**: the incident photons are the electrons divided by the quantum efficiency, which is the yield
times the effective quantum efficiency. -/
theorem C51_incident {m : SiliconMaterial} {electrons w : ℝ} {d u : V3} {n : ℂ} {p : ℝ}
    (h : m.photonsIncident electrons w d n u = some p) :
    ∃ E, m.eqe w d n u = some E ∧ p * (m.iqy w m.temperature * E) = electrons := by
  unfold SiliconMaterial.photonsIncident at h
  simp only [Option.bind_eq_bind, Option.bind_eq_some_iff] at h
  obtain ⟨Q, hQ, h⟩ := h
  obtain ⟨E, hE, rfl⟩ := C51_material m hQ
  obtain ⟨h0, rfl⟩ := div?_eq_some.1 h
  exact ⟨E, hE, div_mul_cancel₀ _ h0⟩

/-- **C50**: of the incident photons that `photons_incident` finds, the fraction given by the absorbance
is what `photons_absorbed` finds for the same electrons and the refracted direction. -/
theorem C50_incident_absorbed {m : SiliconMaterial} {electrons w : ℝ} {d u : V3} {n : ℂ} {p : ℝ}
    (h : m.photonsIncident electrons w d n u = some p) :
    ∃ A, m.absorbanceAverage w d n u = some A
      ∧ m.photonsAbsorbed electrons w (m.directionRefracted w d n u) = some (p * A) := by
  unfold SiliconMaterial.photonsIncident SiliconMaterial.quantumEfficiency SiliconMaterial.eqe
    quantumEfficiencyEffective at h
  simp only [Option.bind_eq_bind, Option.bind_eq_some_iff, Option.pure_def, Option.some.injEq] at h
  obtain ⟨Q, ⟨E, ⟨A, hA, a, ha, c, hc, rfl⟩, rfl⟩, h⟩ := h
  obtain ⟨h0, rfl⟩ := div?_eq_some.1 h
  have hA0 : A ≠ 0 := fun h => h0 (by rw [h]; ring)
  have hc0 : m.iqy w m.temperature * c ≠ 0 := fun h => h0 (by
    rw [show m.iqy w m.temperature * (A * c) = A * (m.iqy w m.temperature * c) by ring, h, mul_zero])
  refine ⟨A, hA, ?_⟩
  unfold SiliconMaterial.photonsAbsorbed SiliconMaterial.directionRefracted
  simp only [Option.bind_eq_bind, ha, hc, Option.bind_some, div?_of_ne hc0, Option.some.injEq]
  have h1 := left_ne_zero_of_mul hc0
  have h2 := right_ne_zero_of_mul hc0
  field_simp

end Optika
