import Verif.Props.Recoated
import Verif.Props.Image
import Verif.Props.SensorMaterial

/-!
# C111: the quantum efficiency of a sensor
-/

namespace Optika
open V3

/-! ## Specification -/

/-- Light of wavelength `w` in a medium of complex index `n` that travels along `d` in the coordinates of the surface. -/
structure ComesAlong (s : Surface) (w : ℝ) (n : ℂ) (d : V3) (a : Ray) : Prop where
  wavelength : a.wavelength = w
  medium : rayIndex a = n
  index : 0 < a.index
  direction : s.frame.ivec a.direction = d

/-- The light of the ray `a` that is left at the place of `out`: the medium may absorb. -/
noncomputable def arriving (a out : Ray) : ℝ :=
  a.intensity * Real.exp (-(a.attenuation * (out.position - a.position).len))

open scoped Classical in
/-- Of the pairs of rays before and after the surface of the sensor, those that are counted in the bin `b` of the wavelength
and the pixel in column `x` and row `y`. -/
noncomputable def Camera.pairs (s : Camera) (edges : List ℝ) (b x y : ℕ) (l : List (Ray × Ray)) : List (Ray × Ray) :=
  l.filter fun p => InBin edges b p.2.wavelength ∧
    s.pixels.OnPixel x y (s.system.sensor.surface.frame.ipoint p.2.position) ∧ p.2.unvignetted = true

/-! ## Proofs -/

/-- **C111** for one ray: the surface of the sensor absorbs the fraction `absorbance` of the light that arrives, and leaves
direction, wavelength and medium as they are. -/
theorem C111_surface {s : Surface} {m : SiliconMaterial} (hm : s.material = m.material) (hr : s.rulings = none) {w : ℝ}
    {n : ℂ} {d u : V3} (hd : d.dot d = 1) (hu : u.dot u = 1) (hdu : d.dot u ≠ 0) {a out : Ray} (ha : ComesAlong s w n d a)
    (h : s.propagate a = some out) (hn : s.sag.normal (s.frame.ipoint out.position) = some u) :
    ComesAlong s w n d out ∧
      ∃ A, m.absorbanceAverage w d n u = some A ∧ out.intensity = arriving a out * A := by
  have hd' : a.direction.dot a.direction = 1 := by
    rw [← ha.direction, Rigid.ivec_dot_ivec] at hd; exact hd
  obtain ⟨h1, h2, h3, h4⟩ := C110_straight (by rw [hm]; exact .silicon m) hr ha.index hd' h (by
    intro v hv
    rw [hn, Option.some.injEq] at hv
    rw [← hv, ha.direction]; exact ⟨hu, hdu⟩)
  refine ⟨⟨h2.trans ha.wavelength, ?_, h3 ▸ ha.index, by rw [h1]; exact ha.direction⟩, ?_⟩
  · rw [← ha.medium]; unfold rayIndex; rw [h2, h3, h4]
  · obtain ⟨rin, v, e1, e2, hp, hv, iw, ii, hdr, he1, he2, -, hatt, ia, hI⟩ := C15_one_surface h
    rw [hp, hn, Option.some.injEq] at hv
    subst hv
    rw [hm] at he1
    have he1 : m.absorbanceAverage rin.wavelength rin.direction (rayIndex rin) u = some e1 := he1
    have hri : rayIndex rin = n := by rw [← ha.medium]; unfold rayIndex; rw [iw, ii, ia]
    rw [hri, iw, ha.wavelength, hdr hr, ha.direction] at he1
    exact ⟨e1, he1, by rw [hI, he2 hr, mul_one]; rfl⟩

theorem proper_snell (c n k : ℂ) : ProperCosine (snellsLawScalar c n k) := by
  rw [snellsLawScalar_eq]
  obtain ⟨h1, h2⟩ := csqrt_quadrants (1 - n ^ 2 * (1 - c ^ 2) / k ^ 2)
  rcases h1.lt_or_eq with h | h
  · exact .inl h
  · exact .inr ⟨h.symm, h2 h.symm⟩

theorem signal_of {m : SiliconMaterial} {w : ℝ} {δ : ℂ} (hδ : ProperCosine δ) (hn : m.nSilicon w ≠ 0) {α cce : ℝ}
    (hα : absorptionEffective w (m.nSilicon w) δ = some α)
    (hcce : chargeCollectionEfficiency α m.thicknessImplant m.cceBacksurface = some cce) (hc P : ℝ) :
    m.signal hc true P w δ = some (m.iqy w m.temperature * cce * P) := by
  unfold SiliconMaterial.signal signalExpected toPhotons
  simp only [if_true, Option.bind_eq_bind, Option.bind_some, snell_same hδ hn, hα, hcce, Option.pure_def, mul_one]

/-- **C111**: the electrons of a pixel are the photons that arrive in it, times the quantum efficiency of the material for
the direction from which they come. -/
theorem C111_electrons {s : Camera} {hc : ℝ} {m : SiliconMaterial} (hm : s.material = siliconSensorMaterial hc m)
    (hs : s.system.sensor.surface.material = m.material) (hr : s.system.sensor.surface.rulings = none)
    (hph : s.inPhotons = true) (hpx : s.pixels.Proper) {edges : List ℝ} (hed : edges.Pairwise (· < ·)) {b x y : ℕ} (hb : b + 1 < edges.length) {n : ℂ} {d u : V3}
    (hd : d.dot d = 1) (hu : u.dot u = 1) (hdu : d.dot u < 0) {l : List (Ray × Ray)}
    (hl : ∀ p ∈ l, s.system.sensor.surface.propagate p.1 = some p.2 ∧ 0 ≤ p.2.intensity)
    (hk : ∀ p ∈ s.pairs edges b x y l,
      ComesAlong s.system.sensor.surface ((edges[b] + edges[b + 1]) / 2) n d p.1 ∧
      s.system.sensor.surface.sag.normal (s.system.sensor.surface.frame.ipoint p.2.position) = some u)
    (hpos : ∃ p ∈ s.pairs edges b x y l, 0 < p.2.intensity)
    (hsi : m.nSilicon ((edges[b] + edges[b + 1]) / 2) ≠ 0) {Q : ℝ}
    (hQ : m.quantumEfficiency ((edges[b] + edges[b + 1]) / 2) d n u = some Q) :
    s.measure edges (l.map fun p => p.2.unmove s.system.sensor.surface.frame) (b, x, y) =
      some (Q * s.timedelta * ((s.pairs edges b x y l).map fun p => arriving p.1 p.2).sum) := by
  set w := (edges[b] + edges[b + 1]) / 2 with hw
  set rays := l.map fun p => p.2.unmove s.system.sensor.surface.frame with hrays
  set δ := snellsLawScalar ((-(d.dot u) : ℝ) : ℂ) n (m.nSilicon w) with hδ
  have hcounted : s.pixels.counted edges (fun _ => true) rays (b, x, y) =
      (s.pairs edges b x y l).map fun p => p.2.unmove s.system.sensor.surface.frame := by
    unfold SensorGrid.counted Camera.pairs
    rw [hrays, List.filter_map]
    congr 1
    apply List.filter_congr
    intro p _
    have := bin_eq_some_iff hpx hed (p.2.unmove s.system.sensor.surface.frame) b x y
    rw [Bool.eq_iff_iff]
    simp only [Function.comp, Bool.and_true, Bool.and_eq_true, decide_eq_true_eq]
    rw [this, and_assoc]
    rfl
  have hI : ∀ r ∈ rays, 0 ≤ r.intensity := by
    intro r hr
    rw [hrays, List.mem_map] at hr
    obtain ⟨p, hp, rfl⟩ := hr
    exact (hl p hp).2
  have hsub : ∀ p ∈ s.pairs edges b x y l, p ∈ l := fun p hp => (List.mem_filter.1 hp).1
  unfold SiliconMaterial.quantumEfficiency SiliconMaterial.eqe quantumEfficiencyEffective at hQ
  simp only [Option.bind_eq_bind, Option.bind_eq_some_iff, Option.pure_def, Option.some.injEq] at hQ
  obtain ⟨E, ⟨A, hA, α, hα, cce, hcce, rfl⟩, rfl⟩ := hQ
  have hland : ∀ p ∈ s.pairs edges b x y l, ComesAlong s.system.sensor.surface w n d p.2 ∧
      p.2.intensity = arriving p.1 p.2 * A := by
    intro p hp
    obtain ⟨h1, A', hA', h2⟩ := C111_surface hs hr hd hu hdu.ne (hk p hp).1 (hl p (hsub p hp)).1 (hk p hp).2
    have hA' : sensorAbsorbanceAverage _ _ _ _ _ _ _ _ _ = some A' := hA'
    rw [hA, Option.some.injEq] at hA'
    exact ⟨h1, by rw [h2, hA']⟩
  have hcollect : s.pixels.collect edges (fun _ => true) rays (b, x, y) =
      A * ((s.pairs edges b x y l).map fun p => arriving p.1 p.2).sum := by
    have h1 := histogram_counted s.pixels edges (fun _ => true) (fun _ => 1) rays (b, x, y)
    simp only [mul_one] at h1
    have h1 : s.pixels.collect edges (fun _ => true) rays (b, x, y) = _ := h1
    rw [h1, hcounted, List.map_map, ← List.sum_map_mul_left]
    congr 1
    apply List.map_congr_left
    intro p hp
    show p.2.intensity = _
    rw [(hland p hp).2, mul_comm]
  have hcpos : 0 < s.pixels.collect edges (fun _ => true) rays (b, x, y) := by
    have h1 := histogram_counted s.pixels edges (fun _ => true) (fun _ => 1) rays (b, x, y)
    simp only [mul_one] at h1
    have h1 : s.pixels.collect edges (fun _ => true) rays (b, x, y) = _ := h1
    rw [h1, hcounted, List.map_map]
    obtain ⟨p, hp, h0⟩ := hpos
    refine lt_of_lt_of_le h0 (List.single_le_sum ?_ _ (List.mem_map.2 ⟨p, hp, rfl⟩))
    intro z hz
    obtain ⟨q, hq, rfl⟩ := List.mem_map.1 hz
    exact (hl q (hsub q hq)).2
  obtain ⟨δ', hme, hmean, -⟩ := C63_silicon hm edges rays hI b x y hb (by
    intro r hr'
    rw [hcounted, List.mem_map] at hr'
    obtain ⟨p, hp, rfl⟩ := hr'
    exact ⟨u, (hk p hp).2⟩)
  have hδ' : δ' = δ := by
    have := hmean hcpos {δ} (convex_singleton δ) (by
      intro r hr' v hv
      rw [hcounted, List.mem_map] at hr'
      obtain ⟨p, hp, rfl⟩ := hr'
      have hv' : s.system.sensor.surface.sag.normal _ = some v := hv
      have hnv := (hk p hp).2
      have : v = u := by
        have h2 : s.system.sensor.surface.sag.normal (s.system.sensor.surface.frame.ipoint p.2.position) = some v := hv
        rw [hnv, Option.some.injEq] at h2
        exact h2.symm
      subst this
      have hc := (hland p hp).1
      have h3 : rayIndex (p.2.unmove s.system.sensor.surface.frame) = n := hc.medium
      rw [h3]
      show snellsLawScalar ((-((s.system.sensor.surface.frame.ivec p.2.direction).dot v) : ℝ) : ℂ) n
        (m.nSilicon p.2.wavelength) = δ
      rw [hc.direction, hc.wavelength])
    simpa using this
  rw [hme, hδ', hph, signal_of (proper_snell _ _ _) hsi hα hcce, hcollect]
  congr 1
  ring

/-- **C111**, the inverse: from the electrons of a pixel, `photons_incident` recovers the photons that arrived in it. -/
theorem C111_incident {s : Camera} {hc : ℝ} {m : SiliconMaterial} (hm : s.material = siliconSensorMaterial hc m)
    (hs : s.system.sensor.surface.material = m.material) (hr : s.system.sensor.surface.rulings = none)
    (hph : s.inPhotons = true) (hpx : s.pixels.Proper) {edges : List ℝ} (hed : edges.Pairwise (· < ·)) {b x y : ℕ}
    (hb : b + 1 < edges.length) {n : ℂ} {d u : V3} (hd : d.dot d = 1) (hu : u.dot u = 1) (hdu : d.dot u < 0)
    {l : List (Ray × Ray)} (hl : ∀ p ∈ l, s.system.sensor.surface.propagate p.1 = some p.2 ∧ 0 ≤ p.2.intensity)
    (hk : ∀ p ∈ s.pairs edges b x y l,
      ComesAlong s.system.sensor.surface ((edges[b] + edges[b + 1]) / 2) n d p.1 ∧
      s.system.sensor.surface.sag.normal (s.system.sensor.surface.frame.ipoint p.2.position) = some u)
    (hpos : ∃ p ∈ s.pairs edges b x y l, 0 < p.2.intensity)
    (hsi : m.nSilicon ((edges[b] + edges[b + 1]) / 2) ≠ 0) {Q : ℝ}
    (hQ : m.quantumEfficiency ((edges[b] + edges[b + 1]) / 2) d n u = some Q) (hQ0 : Q ≠ 0) :
    ∃ electrons,
      s.measure edges (l.map fun p => p.2.unmove s.system.sensor.surface.frame) (b, x, y) = some electrons ∧
      m.photonsIncident electrons ((edges[b] + edges[b + 1]) / 2) d n u =
        some (s.timedelta * ((s.pairs edges b x y l).map fun p => arriving p.1 p.2).sum) := by
  refine ⟨_, C111_electrons hm hs hr hph hpx hed hb hd hu hdu hl hk hpos hsi hQ, ?_⟩
  unfold SiliconMaterial.photonsIncident
  simp only [Option.bind_eq_bind, hQ, Option.bind_some, div?_of_ne hQ0, Option.some.injEq]
  field_simp

/-- A thick substrate without oxide; a photon frees three electrons. -/
noncomputable def coatedSilicon : SiliconMaterial :=
  ⟨fun _ => 4 + Complex.I, fun _ => 3 / 2, fun _ _ => 3, fun _ _ => 0, 0, 1, 7, 0, 0, 4 / 5, 300⟩

/-- A camera of one pixel whose sensor is of that material. -/
noncomputable def coatedCamera : Camera :=
  ⟨{ planes none with sensor := ⟨⟨flatSag, coatedSilicon.material, none, none, none⟩, false, false⟩ }, ⟨2, 2, 1, 1⟩,
    siliconSensorMaterial 1 coatedSilicon, 5, true⟩

theorem coatedSilicon_transmits (pol : Bool) : ∃ T, 0 < T ∧
    sensorTransmittance 1 pol ((1 : ℝ) : ℂ) ((1 : ℝ) : ℂ) (fun _ => 3 / 2) (fun _ => 4 + Complex.I) 0 7 0 0 = some T := by
  have hO : PassiveIndex (3 / 2) := ⟨by norm_num, by norm_num, by norm_num⟩
  have hS : PassiveIndex (4 + Complex.I) := ⟨fun h => by simpa using congrArg Complex.im h, by simp, by simp⟩
  have h1 : snellsLawScalar ((1 : ℝ) : ℂ) ((1 : ℝ) : ℂ) (3 / 2) ≠ 0 := by simp [snell_normal]
  have h2 : snellsLawScalar ((1 : ℝ) : ℂ) ((1 : ℝ) : ℂ) (4 + Complex.I) ≠ 0 := by simp [snell_normal]
  obtain ⟨A, hA⟩ := C51_defined (w := 1) (n := 1) (c := 1) (nO := fun _ => 3 / 2)
    (nS := fun _ => 4 + Complex.I) (dO := 0) (D := 7) one_pos one_pos one_pos le_rfl pol hO hS le_rfl h1 h2
  obtain ⟨T, hT, -, h3, h4⟩ := C51_absorbance (w := 1) (n := 1) (c := 1) (nO := fun _ => 3 / 2)
    (nS := fun _ => 4 + Complex.I) one_pos one_pos one_pos le_rfl pol hS (by norm_num) hA
  refine ⟨T, ?_, hT⟩
  unfold sensorTransmittance at hT
  obtain ⟨⟨R, T'⟩, hRT, rfl⟩ := Option.map_eq_some_iff.1 hT
  obtain ⟨r, t, hc, -, -, h5⟩ := efficiency_split hRT
  have ht : t ≠ 0 := by
    unfold multilayerCoefficients multilayerTransfer at hc
    simp only [Option.bind_eq_some_iff] at hc
    obtain ⟨M, hM, hc⟩ := hc
    split_ifs at hc with hz hv
    · simp only [Option.some.injEq, Prod.mk.injEq] at hc
      rw [← hc.2]
      exact one_div_ne_zero hz
    · exfalso
      apply hv
      simp [substrateLayer, Stack.transfer, transferAll, Layer.transfer, roughLayer, propagation_zero]
      norm_num
  simp only
  rw [h5]
  refine mul_pos (by positivity) ?_
  have : snellsLawScalar ((1 : ℝ) : ℂ) ((1 : ℝ) : ℂ) (4 + Complex.I) = 1 := by simp [snell_normal]
  simp only [substrateLayer, Option.elim_some, roughLayer, this]
  cases pol
  · rw [momentum_p, momentum_p]
    simp
    exact hS.ne
  · rw [momentum_s, momentum_s]
    simp

/-- Ten photons per second, exposed for five seconds. -/
noncomputable def tenPhotons : Ray := ⟨1, ⟨1 / 2, 0, -3⟩, ⟨0, 0, 1⟩, 10, 0, 1, true⟩

/-- Ten photons per second, exposed for five seconds. -/
example : ∃ out Q, 0 < Q ∧ coatedCamera.system.sensor.surface.propagate tenPhotons = some out ∧
    coatedSilicon.quantumEfficiency 1 ⟨0, 0, 1⟩ 1 ⟨0, 0, -1⟩ = some Q ∧
    coatedCamera.measure [1 / 2, 3 / 2] [out] (0, 0, 0) = some (Q * 50) := by
  have hS : PassiveIndex (4 + Complex.I) := ⟨fun h => by simpa using congrArg Complex.im h, by simp, by simp⟩
  have hsn : snellsLawScalar 1 1 (4 + Complex.I) = 1 := by simp [snell_normal]
  have hα : absorptionEffective 1 (4 + Complex.I) 1 = some (4 * Real.pi) := by
    unfold absorptionEffective
    rw [div?_of_ne one_ne_zero]
    simp
  have hα0 : 0 < 4 * Real.pi := by positivity
  have habs : ∀ pol, ∃ A, 0 < A ∧ sensorAbsorbance 1 pol 1 1 (fun _ => 3 / 2) (fun _ => 4 + Complex.I) 0 7 0 0 = some A := by
    intro pol
    obtain ⟨T, hT0, hT⟩ := coatedSilicon_transmits pol
    simp only [Complex.ofReal_one] at hT
    refine ⟨T - T * Real.exp (-(4 * Real.pi) * 7), ?_, ?_⟩
    · have : Real.exp (-(4 * Real.pi) * 7) < 1 := by rw [Real.exp_lt_one_iff]; linarith
      nlinarith
    · unfold sensorAbsorbance
      simp only [hT, hsn, hα, Option.bind_eq_bind, Option.bind_some, Option.pure_def]
  obtain ⟨As, hs0, hAs⟩ := habs true
  obtain ⟨Ap, hp0, hAp⟩ := habs false
  have hA : sensorAbsorbanceAverage 1 1 1 (fun _ => 3 / 2) (fun _ => 4 + Complex.I) 0 7 0 0 = some ((As + Ap) / 2) := by
    unfold sensorAbsorbanceAverage
    simp only [hAs, hAp, Option.bind_eq_bind, Option.bind_some, Option.pure_def]
  have hcce := C46_mean hα0 one_pos (4 / 5)
  have hcce0 := cce_pos hα0 one_pos (by norm_num : (0 : ℝ) ≤ 4 / 5) (by norm_num) hcce
  set cce := absorptionMean (4 * Real.pi) (sternProfile (4 / 5) 1)
  have hdot : ((-((⟨0, 0, 1⟩ : V3).dot ⟨0, 0, -1⟩) : ℝ) : ℂ) = 1 := by norm_num [dot]
  have hQ : coatedSilicon.quantumEfficiency 1 ⟨0, 0, 1⟩ 1 ⟨0, 0, -1⟩ = some (3 * ((As + Ap) / 2 * cce)) := by
    unfold SiliconMaterial.quantumEfficiency SiliconMaterial.eqe quantumEfficiencyEffective
    simp only [hdot, coatedSilicon, hA, hsn, hα, hcce, Option.bind_eq_bind, Option.bind_some, Option.pure_def]
  have hsl : snellsLaw ⟨0, 0, 1⟩ 1 1 false ⟨0, 0, -1⟩ = some ⟨0, 0, 1⟩ := by
    rw [snellsLaw_iff (m := false) (by simp [dot]) (by norm_num) (by norm_num) (by simp [dot])]
    refine ⟨⟨by simp [dot], ?_⟩, by simp [SameSide, dot]⟩
    ext <;> simp [tang, dot]
  have heff : coatedSilicon.efficiency { tenPhotons with position := ⟨1 / 2, 0, 0⟩ } ⟨0, 0, -1⟩ = some ((As + Ap) / 2) := by
    have hn : rayIndex { tenPhotons with position := ⟨1 / 2, 0, 0⟩ } = 1 := by simp [rayIndex, tenPhotons]
    unfold SiliconMaterial.efficiency SiliconMaterial.absorbanceAverage
    rw [hn]
    simp only [tenPhotons, hdot, coatedSilicon, hA]
  rw [tenPhotons] at heff
  simp only at heff
  have hprop : coatedCamera.system.sensor.surface.propagate tenPhotons =
      some ⟨1, ⟨1 / 2, 0, 0⟩, ⟨0, 0, 1⟩, 10 * ((As + Ap) / 2), 0, 1, true⟩ := by
    simp [coatedCamera, tenPhotons, Surface.propagate, Surface.propagateLocal, Sag.propagate, flatSag, flatIntercept, div?,
      Surface.interact, flatNormal, Surface.effectiveRay, Surface.rulingFactor, SiliconMaterial.material, hsl,
      Surface.clip]
    rw [one_div] at heff
    rw [heff, Option.bind_some]
  have hmem : ∀ p ∈ coatedCamera.pairs [1 / 2, 3 / 2] 0 0 0
      [(tenPhotons, ⟨1, ⟨1 / 2, 0, 0⟩, ⟨0, 0, 1⟩, 10 * ((As + Ap) / 2), 0, 1, true⟩)], p =
      (tenPhotons, ⟨1, ⟨1 / 2, 0, 0⟩, ⟨0, 0, 1⟩, 10 * ((As + Ap) / 2), 0, 1, true⟩) := fun p hp => by
    simpa using (List.mem_filter.1 hp).1
  have hip := Rigid.id_ipoint
  have hiv := Rigid.id_ivec
  have hfr : coatedCamera.system.sensor.surface.frame = Rigid.id := rfl
  have hpairs : coatedCamera.pairs [1 / 2, 3 / 2] 0 0 0
      [(tenPhotons, ⟨1, ⟨1 / 2, 0, 0⟩, ⟨0, 0, 1⟩, 10 * ((As + Ap) / 2), 0, 1, true⟩)] =
      [(tenPhotons, ⟨1, ⟨1 / 2, 0, 0⟩, ⟨0, 0, 1⟩, 10 * ((As + Ap) / 2), 0, 1, true⟩)] := by
    unfold Camera.pairs
    rw [List.filter_eq_self]
    intro p hp
    rw [List.mem_singleton] at hp
    subst hp
    rw [hfr, hip]
    simp [InBin, SensorGrid.OnPixel, coatedCamera]
    norm_num
  have hw : (([1 / 2, 3 / 2] : List ℝ)[0] + ([1 / 2, 3 / 2] : List ℝ)[0 + 1]) / 2 = 1 := by norm_num
  have h := C111_electrons (s := coatedCamera) (m := coatedSilicon) (hc := 1) rfl rfl rfl rfl
    (by simp [SensorGrid.Proper, coatedCamera]) (edges := [1 / 2, 3 / 2]) (by norm_num) (b := 0) (x := 0) (y := 0) (by simp)
    (n := 1) (d := ⟨0, 0, 1⟩) (u := ⟨0, 0, -1⟩) (by simp [dot]) (by simp [dot]) (by simp [dot])
    (l := [(tenPhotons, ⟨1, ⟨1 / 2, 0, 0⟩, ⟨0, 0, 1⟩, 10 * ((As + Ap) / 2), 0, 1, true⟩)])
    (by
      intro p hp
      rw [List.mem_singleton] at hp
      subst hp
      exact ⟨hprop, by positivity⟩)
    (by
      rw [hpairs, hw]
      intro p hp
      rw [List.mem_singleton] at hp
      subst hp
      refine ⟨⟨rfl, by simp [rayIndex, tenPhotons], by simp [tenPhotons], ?_⟩, rfl⟩
      rw [hfr, hiv]
      rfl)
    ⟨_, by rw [hpairs, List.mem_singleton], by positivity⟩ (by rw [hw]; exact hS.ne) (by rw [hw]; exact hQ)
  refine ⟨_, _, by positivity, hprop, hQ, ?_⟩
  rw [hpairs, hfr] at h
  simp only [List.map_cons, List.map_nil, List.sum_cons, List.sum_nil] at h
  have h0 : (⟨1, ⟨1 / 2, 0, 0⟩, ⟨0, 0, 1⟩, 10 * ((As + Ap) / 2), 0, 1, true⟩ : Ray).unmove Rigid.id =
      ⟨1, ⟨1 / 2, 0, 0⟩, ⟨0, 0, 1⟩, 10 * ((As + Ap) / 2), 0, 1, true⟩ := by simp only [Ray.unmove, hip, hiv]
  rw [h0] at h
  rw [h]
  simp [arriving, tenPhotons, coatedCamera]
  ring

end Optika
