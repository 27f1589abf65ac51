import Verif.Props.Image
import Verif.Lemmas.Silicon
import Verif.Lemmas.Layers
import Mathlib.Analysis.Convex.SpecificFunctions.Basic

/-!
# C94: the light of several sources on a silicon sensor
-/

namespace Optika

/-! ### The mean of a decaying exponential -/

/-- The mean of `exp (-x t)` over `0 ≤ t ≤ 1` is strictly convex. -/
theorem decay_ratio_convex {x y p q : ℝ} (hx : 0 < x) (hy : 0 < y) (hne : x ≠ y) (hp : 0 < p)
    (hq : 0 < q) (hpq : p + q = 1) :
    (1 - Real.exp (-(p * x + q * y))) / (p * x + q * y)
      < p * ((1 - Real.exp (-x)) / x) + q * ((1 - Real.exp (-y)) / y) := by
  have hz : 0 < p * x + q * y := by positivity
  have e : ∀ a : ℝ, 0 < a → (1 - Real.exp (-a)) / a = ∫ z in (0 : ℝ)..1, Real.exp (-(a * z)) := by
    intro a ha
    rw [integral_exp_decay ha.ne', mul_one]
  have hi : ∀ a : ℝ, IntervalIntegrable (fun z => Real.exp (-(a * z))) MeasureTheory.volume 0 1 :=
    fun a => (by fun_prop : Continuous fun z => Real.exp (-(a * z))).intervalIntegrable _ _
  rw [e _ hx, e _ hy, e _ hz, ← intervalIntegral.integral_const_mul,
    ← intervalIntegral.integral_const_mul, ← intervalIntegral.integral_add ((hi _).const_mul _)
    ((hi _).const_mul _)]
  have hpt : ∀ t : ℝ, t ≠ 0 → Real.exp (-((p * x + q * y) * t))
      < p * Real.exp (-(x * t)) + q * Real.exp (-(y * t)) := by
    intro t ht
    have := strictConvexOn_exp.2 (Set.mem_univ (-(x * t))) (Set.mem_univ (-(y * t))) (by
      intro h
      exact hne (mul_right_cancel₀ ht (neg_injective h))) hp hq hpq
    simp only [smul_eq_mul] at this
    have e2 : -((p * x + q * y) * t) = p * -(x * t) + q * -(y * t) := by ring
    rw [e2]
    exact this
  apply intervalIntegral.integral_lt_integral_of_continuousOn_of_le_of_exists_lt zero_lt_one
  · fun_prop
  · fun_prop
  · intro t ht
    exact (hpt t ht.1.ne').le
  · exact ⟨1, by simp, hpt 1 one_ne_zero⟩

/-! ### The signal of a pixel -/

/-- Multiplies the intensity of all rays. -/
def scaleAll (c : ℝ) (rays : List Ray) : List Ray := rays.map (Ray.scale c)

theorem histogram_scale (s : SensorGrid) (edges : List ℝ) (w w' : Ray → ℝ) (c : ℝ)
    (h : ∀ r, w' (r.scale c) = c * w r) (rays : List Ray) (k : ℕ × ℕ × ℕ) :
    s.histogram edges w' (scaleAll c rays) k = c * s.histogram edges w rays k := by
  unfold SensorGrid.histogram scaleAll
  induction rays with
  | nil => simp
  | cons r rays ih =>
    simp only [List.map_cons, List.sum_cons, mul_add, ih, h]
    congr 1
    have : s.bin edges (r.scale c) = s.bin edges r := rfl
    rw [this]
    split <;> simp

theorem toPhotons_scale (hc : ℝ) (b : Bool) (c x w : ℝ) :
    toPhotons hc b (c * x) w = (toPhotons hc b x w).map (c * ·) := by
  unfold toPhotons
  cases b with
  | true => rfl
  | false =>
    simp only [Bool.false_eq_true, if_false, Option.bind_eq_bind]
    cases div? hc w with
    | none => rfl
    | some e =>
      simp only [Option.bind_some, div?]
      split
      · rfl
      · simp [mul_div_assoc]

theorem signal_scale (hc : ℝ) (m : SiliconMaterial) (b : Bool) (c x w : ℝ) (d : ℂ) :
    m.signal hc b (c * x) w d = (m.signal hc b x w d).map (c * ·) := by
  unfold SiliconMaterial.signal
  rw [toPhotons_scale]
  cases toPhotons hc b x w with
  | none => rfl
  | some p =>
    simp only [Option.map_some, Option.bind_eq_bind, Option.bind_some]
    unfold signalExpected
    simp only [Option.bind_eq_bind, Option.pure_def]
    cases absorptionEffective w (m.nSilicon w) (snellsLawScalar d (m.nSilicon w) (m.nSilicon w)) with
    | none => rfl
    | some a =>
      simp only [Option.bind_some]
      cases chargeCollectionEfficiency a m.thicknessImplant m.cceBacksurface with
      | none => rfl
      | some e =>
        simp only [Option.bind_some, Option.map_some, Option.some.injEq]
        ring

theorem collect_scale (s : SensorGrid) (edges : List ℝ) (rays : List Ray) (k : ℕ × ℕ × ℕ) (c : ℝ) :
    s.collect edges (fun _ => true) (scaleAll c rays) k
      = c * s.collect edges (fun _ => true) rays k := by
  unfold SensorGrid.collect
  refine histogram_scale s edges _ _ c (fun r => ?_) rays k
  unfold rayFlux Ray.scale
  simp only
  split <;> simp

theorem collectDirection_scale (s : SensorGrid) (edges : List ℝ) (f : Ray → ℂ)
    (hf : ∀ (r : Ray) (i : ℝ), f { r with intensity := i } = f r) (rays : List Ray) (k : ℕ × ℕ × ℕ)
    {c : ℝ} (hc : 0 < c) :
    s.collectDirection edges (fun _ => true) f (scaleAll c rays) k
      = s.collectDirection edges (fun _ => true) f rays k := by
  have hflux : ∀ (g : ℂ → ℝ) (r : Ray), rayFlux (fun _ => true) (r.scale c) * g (f (r.scale c))
      = c * (rayFlux (fun _ => true) r * g (f r)) := by
    intro g r
    rw [show f (r.scale c) = f r from hf r _]
    unfold rayFlux Ray.scale
    simp only
    split <;> simp [mul_assoc]
  unfold SensorGrid.collectDirection
  simp only
  rw [collect_scale, histogram_scale s edges (fun r => rayFlux (fun _ => true) r * (f r).re) _ c
    (hflux Complex.re), histogram_scale s edges (fun r => rayFlux (fun _ => true) r * (f r).im) _ c
    (hflux Complex.im)]
  have : 0 < c * s.collect edges (fun _ => true) rays k ↔ 0 < s.collect edges (fun _ => true) rays k :=
    mul_pos_iff_of_pos_left hc
  simp only [this, mul_div_mul_left _ _ hc.ne']

/-- The refracted cosine at which a ray enters the sensor. -/
noncomputable def Camera.refracted (s : Camera) (r : Ray) : ℂ :=
  (s.system.sensor.surface.sag.normal r.position).elim 1 (s.material.directionRefracted r)

theorem measure_eq (s : Camera) (edges : List ℝ) (rays : List Ray) (b x y : ℕ)
    (hb : b + 1 < edges.length) : s.measure edges rays (b, x, y) = s.material.signal s.inPhotons
      (s.pixels.collect edges (fun _ => true) rays (b, x, y) * s.timedelta)
      (cellCenter (edges[b], edges[b + 1]))
      (s.pixels.collectDirection edges (fun _ => true) s.refracted rays (b, x, y)) := by
  unfold Camera.measure
  simp only [List.getElem?_eq_getElem (show b < edges.length by omega),
    List.getElem?_eq_getElem hb, Option.bind_eq_bind, Option.bind_some]
  rfl

/-- **C94**: light that is brighter by a factor makes a signal that is greater by the same factor. -/
theorem C94_scale {s : Camera} {hc : ℝ} {m : SiliconMaterial}
    (hm : s.material = siliconSensorMaterial hc m) (edges : List ℝ) (rays : List Ray)
    (b x y : ℕ) (hb : b + 1 < edges.length) {c : ℝ} (hc0 : 0 < c) :
    s.measure edges (rays.map fun r => { r with intensity := c * r.intensity }) (b, x, y)
      = (s.measure edges rays (b, x, y)).map (c * ·) := by
  have e : (rays.map fun r : Ray => { r with intensity := c * r.intensity }) = scaleAll c rays := rfl
  rw [e, measure_eq s _ _ _ _ _ hb, measure_eq s _ _ _ _ _ hb, collect_scale,
    collectDirection_scale _ _ _ ?_ _ _ hc0, hm]
  · simp only [siliconSensorMaterial]
    rw [mul_assoc, signal_scale]
  · intro r i
    unfold Camera.refracted
    rw [hm]
    rfl

/-! ### Two sources -/

theorem toPhotons_eq {hc w : ℝ} (hhc : 0 < hc) (hw : 0 < w) (b : Bool) (x : ℝ) :
    toPhotons hc b x w = some ((if b then 1 else w / hc) * x) := by
  unfold toPhotons
  cases b with
  | true => simp
  | false =>
    have := hhc.ne'
    have := hw.ne'
    have h2 : hc / w ≠ 0 := by positivity
    simp only [Bool.false_eq_true, if_false, div?_of_ne hw.ne', Option.bind_eq_bind,
      Option.bind_some, div?_of_ne h2, Option.some.injEq]
    field_simp

/-- The electrons per absorbed photon, as a function of the absorption times the thickness of the
implant layer. -/
noncomputable def collectedCharge (m : SiliconMaterial) (x : ℝ) : ℝ :=
  m.cceBacksurface + (1 - m.cceBacksurface) * ((1 - Real.exp (-x)) / x)

theorem silicon_signal_eq {hc : ℝ} (hhc : 0 < hc) {m : SiliconMaterial} {w : ℝ} (hw : 0 < w) (b : Bool)
    (P : ℝ) {d : ℂ} (hd : 0 < d.re) (ha : 0 < (m.nSilicon w * d).im) (hW : 0 < m.thicknessImplant) :
    m.signal hc b P w d = some ((if b then 1 else w / hc) * m.iqy w m.temperature
      * collectedCharge m (4 * Real.pi * (m.nSilicon w * d).im / w * m.thicknessImplant) * P) := by
  have hn : m.nSilicon w ≠ 0 := by
    intro h
    rw [h, zero_mul] at ha
    simp at ha
  have hs : snellsLawScalar d (m.nSilicon w) (m.nSilicon w) = d := by
    rw [snellsLawScalar_eq]
    have : 1 - m.nSilicon w ^ 2 * (1 - d ^ 2) / m.nSilicon w ^ 2 = d ^ 2 := by
      field_simp
      ring
    rw [this, csqrt_sq_of_re_pos hd]
  have hpos : 0 < 4 * Real.pi * (m.nSilicon w * d).im / w * m.thicknessImplant := by
    have := Real.pi_pos
    positivity
  unfold SiliconMaterial.signal signalExpected absorptionEffective chargeCollectionEfficiency
  simp only [toPhotons_eq hhc hw, hs, div?_of_ne hw.ne', div?_of_ne hpos.ne', Option.bind_eq_bind,
    Option.bind_some, Option.pure_def, Option.some.injEq, collectedCharge]
  ring

/-- The light collected from two sources. -/
theorem collect_append (s : SensorGrid) (edges : List ℝ) (r1 r2 : List Ray) (k : ℕ × ℕ × ℕ) :
    s.collect edges (fun _ => true) (r1 ++ r2) k
      = s.collect edges (fun _ => true) r1 k + s.collect edges (fun _ => true) r2 k := by
  simp [SensorGrid.collect, SensorGrid.histogram]

theorem collectDirection_append (s : SensorGrid) (edges : List ℝ) (f : Ray → ℂ) (r1 r2 : List Ray)
    (k : ℕ × ℕ × ℕ) (h1 : 0 < s.collect edges (fun _ => true) r1 k)
    (h2 : 0 < s.collect edges (fun _ => true) r2 k) :
    s.collectDirection edges (fun _ => true) f (r1 ++ r2) k
      = ((s.collect edges (fun _ => true) r1 k / (s.collect edges (fun _ => true) r1 k
          + s.collect edges (fun _ => true) r2 k) : ℝ) : ℂ)
          * s.collectDirection edges (fun _ => true) f r1 k
        + ((s.collect edges (fun _ => true) r2 k / (s.collect edges (fun _ => true) r1 k
          + s.collect edges (fun _ => true) r2 k) : ℝ) : ℂ)
          * s.collectDirection edges (fun _ => true) f r2 k := by
  have ha := fun g : Ray → ℝ => show s.histogram edges (fun r => rayFlux (fun _ => true) r * g r)
      (r1 ++ r2) k = s.histogram edges (fun r => rayFlux (fun _ => true) r * g r) r1 k
        + s.histogram edges (fun r => rayFlux (fun _ => true) r * g r) r2 k by
    simp [SensorGrid.histogram]
  have h3 : 0 < s.collect edges (fun _ => true) r1 k + s.collect edges (fun _ => true) r2 k := by
    linarith
  unfold SensorGrid.collectDirection
  simp only [collect_append, ha, h1, h2, h3, if_true]
  generalize s.collect edges (fun _ => true) r1 k = A at *
  generalize s.collect edges (fun _ => true) r2 k = B at *
  have hA := h1.ne'
  have hB := h2.ne'
  have hAB := h3.ne'
  apply Complex.ext
  · simp only [Complex.add_re, Complex.mul_re, Complex.ofReal_re, Complex.ofReal_im, Complex.I_re,
      Complex.I_im, Complex.add_im, Complex.mul_im]
    field_simp
    ring
  · simp only [Complex.add_re, Complex.mul_re, Complex.ofReal_re, Complex.ofReal_im, Complex.I_re,
      Complex.I_im, Complex.add_im, Complex.mul_im]
    field_simp
    ring

/-- The silicon sensor works, and absorbs light of the wavelength in the middle of the bin. -/
structure Camera.Silicon (s : Camera) (m : SiliconMaterial) (lo hi : ℝ) : Prop where
  material : ∃ hc, 0 < hc ∧ s.material = siliconSensorMaterial hc m
  time : 0 < s.timedelta
  implant : 0 < m.thicknessImplant
  yield : 0 < m.iqy ((lo + hi) / 2) m.temperature
  bin : 0 < lo ∧ lo < hi

/-- The light of both sources that is measured in the pixel is absorbed in the silicon, from
which the refracted cosine does not point away. -/
def Camera.Absorbs (s : Camera) (m : SiliconMaterial) (w : ℝ) (r : Ray) : Prop :=
  0 < (s.refracted r).re ∧ 0 < (m.nSilicon w * s.refracted r).im

theorem two_sources {s : Camera} {m : SiliconMaterial} {edges : List ℝ} {b x y : ℕ}
    (hb : b + 1 < edges.length) (hs : s.Silicon m edges[b] edges[b + 1]) {r1 r2 : List Ray}
    (hI1 : ∀ r ∈ r1, 0 ≤ r.intensity) (hI2 : ∀ r ∈ r2, 0 ≤ r.intensity)
    (h1 : 0 < s.pixels.collect edges (fun _ => true) r1 (b, x, y))
    (h2 : 0 < s.pixels.collect edges (fun _ => true) r2 (b, x, y))
    (ha1 : ∀ r ∈ s.pixels.counted edges (fun _ => true) r1 (b, x, y),
      s.Absorbs m ((edges[b] + edges[b + 1]) / 2) r)
    (ha2 : ∀ r ∈ s.pixels.counted edges (fun _ => true) r2 (b, x, y),
      s.Absorbs m ((edges[b] + edges[b + 1]) / 2) r) :
    ∃ K I1 I2 a1 a2 p q : ℝ, 0 < K ∧ 0 < I1 ∧ 0 < I2 ∧ 0 < a1 ∧ 0 < a2 ∧ 0 < p ∧ 0 < q ∧ p + q = 1
      ∧ I1 = p * (I1 + I2) ∧ I2 = q * (I1 + I2)
      ∧ s.measure edges r1 (b, x, y) = some (K * collectedCharge m a1 * I1)
      ∧ s.measure edges r2 (b, x, y) = some (K * collectedCharge m a2 * I2)
      ∧ s.measure edges (r1 ++ r2) (b, x, y) = some (K * collectedCharge m (p * a1 + q * a2) * (I1 + I2))
      ∧ (a1 = a2 ↔ (m.nSilicon ((edges[b] + edges[b + 1]) / 2)
          * s.pixels.collectDirection edges (fun _ => true) s.refracted r1 (b, x, y)).im
        = (m.nSilicon ((edges[b] + edges[b + 1]) / 2)
          * s.pixels.collectDirection edges (fun _ => true) s.refracted r2 (b, x, y)).im) := by
  obtain ⟨hc, hhc, hm⟩ := hs.material
  set w := (edges[b] + edges[b + 1]) / 2 with hw
  have hw0 : 0 < w := by have := hs.bin; rw [hw]; linarith
  have hcen : cellCenter (edges[b], edges[b + 1]) = w := by unfold cellCenter; rw [hw]
  have hconv : Convex ℝ {d : ℂ | 0 < d.re ∧ 0 < (m.nSilicon w * d).im} := by
    intro u hu v hv p q hp hq hpq
    simp only [Set.mem_ofPred_eq, Complex.add_re, Complex.smul_re, smul_eq_mul, Complex.mul_im,
      Complex.add_im, Complex.smul_im] at hu hv ⊢
    have key : ∀ α β : ℝ, 0 < α → 0 < β → 0 < p * α + q * β := by
      intro α β hα hβ
      rcases hp.lt_or_eq with h | h
      · have := mul_pos h hα
        have := mul_nonneg hq hβ.le
        linarith
      · have : q = 1 := by linarith
        rw [← h, this]
        linarith
    refine ⟨key _ _ hu.1 hv.1, ?_⟩
    have := key _ _ hu.2 hv.2
    linarith
  have hd1 := C42_mean hI1 h1 hconv ha1
  have hd2 := C42_mean hI2 h2 hconv ha2
  set d1 := s.pixels.collectDirection edges (fun _ => true) s.refracted r1 (b, x, y) with hd1e
  set d2 := s.pixels.collectDirection edges (fun _ => true) s.refracted r2 (b, x, y) with hd2e
  have hd3 := collectDirection_append s.pixels edges s.refracted r1 r2 (b, x, y) h1 h2
  rw [← hd1e, ← hd2e] at hd3
  have hm1 := measure_eq s edges r1 b x y hb
  have hm2 := measure_eq s edges r2 b x y hb
  have hm3 := measure_eq s edges (r1 ++ r2) b x y hb
  rw [collect_append, hd3] at hm3
  rw [← hd1e] at hm1
  rw [← hd2e] at hm2
  generalize s.pixels.collect edges (fun _ => true) r1 (b, x, y) = A at *
  generalize s.pixels.collect edges (fun _ => true) r2 (b, x, y) = B at *
  simp only [hm, siliconSensorMaterial, hcen] at hm1 hm2 hm3
  have hAB : 0 < A + B := by linarith
  have hpq : A / (A + B) + B / (A + B) = 1 := by field_simp
  have hp : 0 < A / (A + B) := by positivity
  have hq : 0 < B / (A + B) := by positivity
  have him : (m.nSilicon w * (((A / (A + B) : ℝ) : ℂ) * d1 + ((B / (A + B) : ℝ) : ℂ) * d2)).im
      = A / (A + B) * (m.nSilicon w * d1).im + B / (A + B) * (m.nSilicon w * d2).im := by
    simp only [Complex.mul_im, Complex.add_im, Complex.add_re, Complex.mul_re, Complex.ofReal_re,
      Complex.ofReal_im]
    ring
  have hre3 : 0 < (((A / (A + B) : ℝ) : ℂ) * d1 + ((B / (A + B) : ℝ) : ℂ) * d2).re := by
    simp only [Complex.add_re, Complex.mul_re, Complex.ofReal_re, Complex.ofReal_im, zero_mul,
      sub_zero]
    have := mul_pos hp hd1.1
    have := mul_pos hq hd2.1
    linarith
  have him3 : 0 < (m.nSilicon w * (((A / (A + B) : ℝ) : ℂ) * d1 + ((B / (A + B) : ℝ) : ℂ) * d2)).im := by
    rw [him]
    have := mul_pos hp hd1.2
    have := mul_pos hq hd2.2
    linarith
  rw [silicon_signal_eq hhc hw0 _ _ hd1.1 hd1.2 hs.implant] at hm1
  rw [silicon_signal_eq hhc hw0 _ _ hd2.1 hd2.2 hs.implant] at hm2
  rw [silicon_signal_eq hhc hw0 _ _ hre3 him3 hs.implant, him] at hm3
  have hpi := Real.pi_pos
  have hW := hs.implant
  have hT := hs.time
  have hκ : 0 < (if s.inPhotons then (1 : ℝ) else w / hc) := by
    split
    · norm_num
    · positivity
  have hi1 := hd1.2
  have hi2 := hd2.2
  refine ⟨(if s.inPhotons then 1 else w / hc) * m.iqy w m.temperature, A * s.timedelta,
    B * s.timedelta, 4 * Real.pi * (m.nSilicon w * d1).im / w * m.thicknessImplant,
    4 * Real.pi * (m.nSilicon w * d2).im / w * m.thicknessImplant, A / (A + B), B / (A + B),
    mul_pos hκ hs.yield, by positivity, by positivity, by positivity, by positivity, hp, hq, hpq, by
      field_simp, by field_simp, hm1, hm2, ?_, ?_⟩
  · rw [hm3, Option.some.injEq, add_mul A B]
    congr 3
    ring
  · constructor
    · intro h
      have h3 : 4 * Real.pi / w * m.thicknessImplant ≠ 0 := by positivity
      apply mul_left_cancel₀ h3
      linear_combination h
    · intro h
      rw [h]

/-- **C94**, superposition: the signal of two sources together is at most the sum of their signals,
and equal to it if the light of both is absorbed equally well per unit of depth, as it is for
parallel light of one colour. -/
theorem C94_add_partial {s : Camera} {m : SiliconMaterial} {edges : List ℝ} {b x y : ℕ}
    (hb : b + 1 < edges.length) (hs : s.Silicon m edges[b] edges[b + 1])
    (hη : m.cceBacksurface ≤ 1) {r1 r2 : List Ray}
    (hI1 : ∀ r ∈ r1, 0 ≤ r.intensity) (hI2 : ∀ r ∈ r2, 0 ≤ r.intensity)
    (h1 : 0 < s.pixels.collect edges (fun _ => true) r1 (b, x, y))
    (h2 : 0 < s.pixels.collect edges (fun _ => true) r2 (b, x, y))
    (ha1 : ∀ r ∈ s.pixels.counted edges (fun _ => true) r1 (b, x, y),
      s.Absorbs m ((edges[b] + edges[b + 1]) / 2) r)
    (ha2 : ∀ r ∈ s.pixels.counted edges (fun _ => true) r2 (b, x, y),
      s.Absorbs m ((edges[b] + edges[b + 1]) / 2) r) :
    ∃ e1 e2 e, s.measure edges r1 (b, x, y) = some e1 ∧ s.measure edges r2 (b, x, y) = some e2
      ∧ s.measure edges (r1 ++ r2) (b, x, y) = some e ∧ e ≤ e1 + e2
      ∧ ((∃ d : ℂ, ∀ r ∈ s.pixels.counted edges (fun _ => true) (r1 ++ r2) (b, x, y),
          s.refracted r = d) → e = e1 + e2) := by
  obtain ⟨K, I1, I2, a1, a2, p, q, hK, hI1', hI2', ha1', ha2', hp, hq, hpq, hp1, hq1, hm1, hm2, hm3,
    hiff⟩ := two_sources hb hs hI1 hI2 h1 h2 ha1 ha2
  have heq : a1 = a2 → K * collectedCharge m (p * a1 + q * a2) * (I1 + I2)
      = K * collectedCharge m a1 * I1 + K * collectedCharge m a2 * I2 := by
    intro h
    have : p * a1 + q * a2 = a2 := by rw [h, ← add_mul, hpq, one_mul]
    rw [this, h]
    ring
  refine ⟨_, _, _, hm1, hm2, hm3, ?_, ?_⟩
  · by_cases h : a1 = a2
    · exact (heq h).le
    · have hc := decay_ratio_convex ha1' ha2' h hp hq hpq
      have hη' : 0 ≤ 1 - m.cceBacksurface := by linarith
      have hle : collectedCharge m (p * a1 + q * a2) ≤ p * collectedCharge m a1 + q * collectedCharge m a2 := by
        unfold collectedCharge
        have h3 := mul_le_mul_of_nonneg_left hc.le hη'
        have h4 : m.cceBacksurface = (p + q) * m.cceBacksurface := by rw [hpq, one_mul]
        nlinarith
      calc K * collectedCharge m (p * a1 + q * a2) * (I1 + I2)
          ≤ K * (p * collectedCharge m a1 + q * collectedCharge m a2) * (I1 + I2) :=
            mul_le_mul_of_nonneg_right (mul_le_mul_of_nonneg_left hle hK.le) (by linarith)
        _ = K * collectedCharge m a1 * (p * (I1 + I2)) + K * collectedCharge m a2 * (q * (I1 + I2)) := by ring
        _ = _ := by rw [← hp1, ← hq1]
  · rintro ⟨d, hd⟩
    apply heq
    rw [hiff]
    have hsing : Convex ℝ ({d} : Set ℂ) := convex_singleton d
    have e1 := C42_mean hI1 h1 hsing (direction := s.refracted) fun r hr => hd r (by
      unfold SensorGrid.counted at hr ⊢
      rw [List.filter_append]
      exact List.mem_append_left _ hr)
    have e2 := C42_mean hI2 h2 hsing (direction := s.refracted) fun r hr => hd r (by
      unfold SensorGrid.counted at hr ⊢
      rw [List.filter_append]
      exact List.mem_append_right _ hr)
    rw [Set.mem_singleton_iff] at e1 e2
    rw [e1, e2]

/-- **C94**: if the light of the two sources is not absorbed equally well per unit of depth, and charge
is lost near the surface, the signal of both together is less than the sum of their signals. -/
theorem C94_strict {s : Camera} {m : SiliconMaterial} {edges : List ℝ} {b x y : ℕ}
    (hb : b + 1 < edges.length) (hs : s.Silicon m edges[b] edges[b + 1])
    (hη : m.cceBacksurface < 1) {r1 r2 : List Ray}
    (hI1 : ∀ r ∈ r1, 0 ≤ r.intensity) (hI2 : ∀ r ∈ r2, 0 ≤ r.intensity)
    (h1 : 0 < s.pixels.collect edges (fun _ => true) r1 (b, x, y))
    (h2 : 0 < s.pixels.collect edges (fun _ => true) r2 (b, x, y))
    (ha1 : ∀ r ∈ s.pixels.counted edges (fun _ => true) r1 (b, x, y),
      s.Absorbs m ((edges[b] + edges[b + 1]) / 2) r)
    (ha2 : ∀ r ∈ s.pixels.counted edges (fun _ => true) r2 (b, x, y),
      s.Absorbs m ((edges[b] + edges[b + 1]) / 2) r)
    (hne : ∀ u ∈ s.pixels.counted edges (fun _ => true) r1 (b, x, y),
      ∀ v ∈ s.pixels.counted edges (fun _ => true) r2 (b, x, y),
        (m.nSilicon ((edges[b] + edges[b + 1]) / 2) * s.refracted u).im
          < (m.nSilicon ((edges[b] + edges[b + 1]) / 2) * s.refracted v).im) :
    ∃ e1 e2 e, s.measure edges r1 (b, x, y) = some e1 ∧ s.measure edges r2 (b, x, y) = some e2
      ∧ s.measure edges (r1 ++ r2) (b, x, y) = some e ∧ e < e1 + e2 := by
  obtain ⟨K, I1, I2, a1, a2, p, q, hK, hI1', hI2', ha1', ha2', hp, hq, hpq, hp1, hq1, hm1, hm2, hm3,
    hiff⟩ := two_sources hb hs hI1 hI2 h1 h2 ha1 ha2
  set n := m.nSilicon ((edges[b] + edges[b + 1]) / 2) with hn
  have hlin : IsLinearMap ℝ fun d : ℂ => (n * d).im := by
    constructor
    · intro u v
      rw [mul_add, Complex.add_im]
    · intro c u
      rw [mul_smul_comm, Complex.smul_im]
  have hlt : (n * s.pixels.collectDirection edges (fun _ => true) s.refracted r1 (b, x, y)).im
      < (n * s.pixels.collectDirection edges (fun _ => true) s.refracted r2 (b, x, y)).im := by
    refine C42_mean (direction := s.refracted) hI2 h2 (convex_halfSpace_gt hlin _) fun v hv => ?_
    exact C42_mean (direction := s.refracted) hI1 h1 (convex_halfSpace_lt hlin _)
      fun u hu => hne u hu v hv
  have hne' : a1 ≠ a2 := fun h => hlt.ne (hiff.1 h)
  refine ⟨_, _, _, hm1, hm2, hm3, ?_⟩
  have hc := decay_ratio_convex ha1' ha2' hne' hp hq hpq
  have hη' : 0 < 1 - m.cceBacksurface := by linarith
  have hle : collectedCharge m (p * a1 + q * a2) < p * collectedCharge m a1 + q * collectedCharge m a2 := by
    unfold collectedCharge
    have h3 := mul_lt_mul_of_pos_left hc hη'
    have h4 : m.cceBacksurface = (p + q) * m.cceBacksurface := by rw [hpq, one_mul]
    nlinarith
  calc K * collectedCharge m (p * a1 + q * a2) * (I1 + I2)
      < K * (p * collectedCharge m a1 + q * collectedCharge m a2) * (I1 + I2) :=
        mul_lt_mul_of_pos_right (mul_lt_mul_of_pos_left hle hK) (by linarith)
    _ = K * collectedCharge m a1 * (p * (I1 + I2)) + K * collectedCharge m a2 * (q * (I1 + I2)) := by ring
    _ = _ := by rw [← hp1, ← hq1]

/-! ### Light from two directions -/

/-- A sensor of one pixel, of an absorbing material in which every fifth electron that is set free at
the surface is lost. -/
noncomputable def siliconCamera : Camera :=
  ⟨planes none, ⟨2, 2, 1, 1⟩, siliconSensorMaterial 1 ⟨fun _ => ⟨24 / 25, 8 / 25⟩, fun _ => 3 / 2,
    fun _ _ => 1, fun _ _ => 0, 0, 1, 7, 0, 0, 4 / 5, 300⟩, 1, true⟩

/-- A ray in the direction of the axis. -/
noncomputable def straightRay : Ray := ⟨1, ⟨0, 0, 0⟩, ⟨0, 0, 1⟩, 1, 0, 1, true⟩

/-- An oblique ray. -/
noncomputable def obliqueRay : Ray := ⟨1, ⟨0, 0, 0⟩, ⟨4 / 5, 0, 3 / 5⟩, 1, 0, 1, true⟩

theorem siliconCamera_straight : siliconCamera.refracted straightRay = 1 := by
  simp only [Camera.refracted, siliconCamera, planes, flatSag, flatNormal, Option.elim,
    siliconSensorMaterial, SiliconMaterial.directionRefracted, straightRay, rayIndex, V3.dot]
  rw [snellsLawScalar_eq]
  norm_num
  exact csqrt_unique (by norm_num) (by norm_num) (by norm_num)

theorem siliconCamera_oblique : siliconCamera.refracted obliqueRay = ⟨3 / 4, 1 / 4⟩ := by
  simp only [Camera.refracted, siliconCamera, planes, flatSag, flatNormal, Option.elim,
    siliconSensorMaterial, SiliconMaterial.directionRefracted, obliqueRay, rayIndex, V3.dot]
  rw [snellsLawScalar_eq]
  apply csqrt_unique
  · have h : (⟨24 / 25, 8 / 25⟩ : ℂ) ≠ 0 := by
      intro h
      have := congrArg Complex.re h
      norm_num at this
    rw [eq_sub_iff_add_eq, ← eq_sub_iff_add_eq', div_eq_iff (pow_ne_zero 2 h)]
    apply Complex.ext <;> norm_num [pow_two, Complex.mul_re, Complex.mul_im]
  · norm_num
  · norm_num

theorem siliconCamera_bin (r : Ray) (h : r = straightRay ∨ r = obliqueRay) :
    siliconCamera.pixels.bin [1 / 2, 3 / 2] r = some (0, 0, 0) := by
  rw [bin_eq_some_iff (by simp [SensorGrid.Proper, siliconCamera]) (by norm_num)]
  rcases h with rfl | rfl <;>
  · simp [InBin, SensorGrid.OnPixel, siliconCamera, straightRay, obliqueRay]
    norm_num

theorem siliconCamera_collect (r : Ray) (h : r = straightRay ∨ r = obliqueRay) :
    siliconCamera.pixels.collect [1 / 2, 3 / 2] (fun _ => true) [r] (0, 0, 0) = 1 := by
  have hb := siliconCamera_bin r h
  simp only [SensorGrid.collect, SensorGrid.histogram, List.map_cons, List.map_nil, hb]
  rcases h with rfl | rfl <;> simp [rayFlux, straightRay, obliqueRay]

theorem siliconCamera_silicon : ∃ m, siliconCamera.Silicon m (1 / 2) (3 / 2)
    ∧ m.cceBacksurface = 4 / 5 ∧ m.nSilicon 1 = ⟨24 / 25, 8 / 25⟩ :=
  ⟨_, ⟨⟨1, one_pos, rfl⟩, one_pos, one_pos, one_pos, by norm_num, by norm_num⟩, rfl, rfl⟩

/-- **C94**: a straight and an oblique ray of the same colour give fewer electrons together than one
at a time. -/
theorem C94_add_counterexample : ∃ e1 e2 e,
    siliconCamera.measure [1 / 2, 3 / 2] [straightRay] (0, 0, 0) = some e1
      ∧ siliconCamera.measure [1 / 2, 3 / 2] [obliqueRay] (0, 0, 0) = some e2
      ∧ siliconCamera.measure [1 / 2, 3 / 2] [straightRay, obliqueRay] (0, 0, 0) = some e
      ∧ e < e1 + e2 := by
  obtain ⟨m, hs, hη, hn⟩ := siliconCamera_silicon
  have hw : (([1 / 2, 3 / 2] : List ℝ)[0] + ([1 / 2, 3 / 2] : List ℝ)[0 + 1]) / 2 = 1 := by
    norm_num
  have hmem : ∀ r u, u ∈ siliconCamera.pixels.counted [1 / 2, 3 / 2] (fun _ => true) [r] (0, 0, 0) →
      u = r := by
    intro r u hu
    simpa using (List.mem_filter.1 hu).1
  refine C94_strict (m := m) (b := 0) (r1 := [straightRay]) (r2 := [obliqueRay]) (by simp) hs
    (by rw [hη]; norm_num) ?_ ?_ ?_ ?_ ?_ ?_ ?_
  · simp [straightRay]
  · simp [obliqueRay]
  · rw [siliconCamera_collect _ (Or.inl rfl)]; norm_num
  · rw [siliconCamera_collect _ (Or.inr rfl)]; norm_num
  · intro r hr
    rw [hmem _ _ hr, hw, Camera.Absorbs, siliconCamera_straight, hn]
    norm_num
  · intro r hr
    rw [hmem _ _ hr, hw, Camera.Absorbs, siliconCamera_oblique, hn]
    norm_num [Complex.mul_im]
  · intro u hu v hv
    rw [hmem _ _ hu, hmem _ _ hv, hw, siliconCamera_straight, siliconCamera_oblique, hn]
    norm_num [Complex.mul_im]

/-- Two straight rays. -/
example : ∃ e, siliconCamera.measure [1 / 2, 3 / 2] [straightRay] (0, 0, 0) = some e
    ∧ siliconCamera.measure [1 / 2, 3 / 2] [straightRay, straightRay] (0, 0, 0) = some (e + e) := by
  obtain ⟨m, hs, hη, hn⟩ := siliconCamera_silicon
  have hw : (([1 / 2, 3 / 2] : List ℝ)[0] + ([1 / 2, 3 / 2] : List ℝ)[0 + 1]) / 2 = 1 := by
    norm_num
  have ha : ∀ r ∈ siliconCamera.pixels.counted [1 / 2, 3 / 2] (fun _ => true) [straightRay]
      (0, 0, 0), siliconCamera.Absorbs m
        ((([1 / 2, 3 / 2] : List ℝ)[0] + ([1 / 2, 3 / 2] : List ℝ)[0 + 1]) / 2) r := by
    intro r hr
    have : r = straightRay := by simpa using (List.mem_filter.1 hr).1
    rw [this, hw, Camera.Absorbs, siliconCamera_straight, hn]
    norm_num
  have hc : 0 < siliconCamera.pixels.collect [1 / 2, 3 / 2] (fun _ => true) [straightRay]
      (0, 0, 0) := by
    rw [siliconCamera_collect _ (Or.inl rfl)]; norm_num
  obtain ⟨e1, e2, e, h1, h2, h3, -, h5⟩ := C94_add_partial (m := m) (b := 0) (r1 := [straightRay])
    (r2 := [straightRay]) (by simp) hs (by rw [hη]; norm_num) (by simp [straightRay])
    (by simp [straightRay]) hc hc ha ha
  have h6 : e = e1 + e2 := h5 ⟨siliconCamera.refracted straightRay, fun r hr => by
    have : r = straightRay := by simpa using (List.mem_filter.1 hr).1
    rw [this]⟩
  have h7 : e1 = e2 := Option.some.inj (h1.symm.trans h2)
  refine ⟨e1, h1, ?_⟩
  rw [show [straightRay, straightRay] = [straightRay] ++ [straightRay] from rfl, h3, h6, h7]

end Optika
