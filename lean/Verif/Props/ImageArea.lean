import Verif.Props.Image
import Mathlib.Analysis.Real.Pi.Bounds

/-!
# C93: images and effective areas
-/

namespace Optika

theorem cells_sum (sc : Scene) (f : Cell → ℝ) : (sc.cells.map f).sum
    = ∑ i ∈ Finset.range sc.numWavelength, ∑ j ∈ Finset.range sc.numFieldX,
      ∑ k ∈ Finset.range sc.numFieldY, ∑ p : Fin sc.numPupilX × Fin sc.numPupilY,
        f ⟨i, j, k, p.1, p.2⟩ := by
  have hr : ∀ (n : ℕ) (g : ℕ → ℝ), ((List.range n).map g).sum = ∑ i ∈ Finset.range n, g i :=
    fun _ _ => rfl
  have hf : ∀ (n : ℕ) (g : ℕ → List Cell), (((List.range n).flatMap g).map f).sum
      = ∑ i ∈ Finset.range n, ((g i).map f).sum := by
    intro n g
    rw [← hr, List.map_flatMap, List.flatMap_def, List.sum_flatten, List.map_map]
    rfl
  unfold Scene.cells
  rw [hf]
  refine Finset.sum_congr rfl fun i _ => ?_
  rw [hf]
  refine Finset.sum_congr rfl fun j _ => ?_
  rw [hf]
  refine Finset.sum_congr rfl fun k _ => ?_
  rw [hf, Fintype.sum_prod_type, Finset.sum_range]
  refine Finset.sum_congr rfl fun l _ => ?_
  rw [List.map_map, hr, Finset.sum_range]
  rfl

/-- The light of one cell that arrives at the sensor. -/
theorem response_sum {s : Camera} (hs : s.Ideal) {edges : List ℝ} (hw : edges.Pairwise (· < ·))
    (h2 : 2 ≤ edges.length) {v : VertexGrid} {draw : Cell → CellDraw} {c : Cell} {r : Ray}
    (h : s.system.rayfunction (sceneCall (v.sample (draw c) c) 1) none = some r)
    (hland : r.unvignetted = true → s.pixels.mask r.position = true ∧ edges[0] ≤ r.wavelength
      ∧ r.wavelength ≤ edges[edges.length - 1]) :
    ∑ b ∈ Finset.range (edges.length - 1), ∑ x ∈ Finset.range s.pixels.numX,
      ∑ y ∈ Finset.range s.pixels.numY, s.response edges v draw c b x y
    = if r.unvignetted = true then r.intensity else 0 := by
  have hcong : ∀ b x y : ℕ, s.response edges v draw c b x y
      = s.pixels.collect edges (fun _ => true) [r] (b, x, y) := by
    intro b x y
    have e := bin_eq_some_iff hs.pixels hw r b x y
    simp only [Camera.response, h, SensorGrid.collect, SensorGrid.histogram, List.map_cons,
      List.map_nil, List.sum_cons, List.sum_nil, add_zero, rayFlux]
    by_cases h3 : r.unvignetted = true <;> by_cases h4 : s.pixels.bin edges r = some (b, x, y)
    · rw [if_pos ⟨h3, e.1 h4⟩, if_pos h4]; simp [h3]
    · rw [if_neg fun hh => h4 (e.2 hh.2), if_neg h4]
    · rw [if_neg fun hh => h3 hh.1, if_pos h4]; simp [h3]
    · rw [if_neg fun hh => h3 hh.1, if_neg h4]
  simp only [hcong]
  rw [C41_flux hs.pixels hw h2, List.filter_cons]
  by_cases h3 : r.unvignetted = true
  · obtain ⟨h4, h5, h6⟩ := hland h3
    simp [h3, h4, h5, h6]
  · simp [h3]

/-- **C93**: for an object at infinity, the sum of all pixels of an image is the exposure time times
the sum, over the cells of the scene, of the radiance, the width of the wavelength bin, the solid
angle of the cell of the field, and the effective area for the light of that cell: that which
`area_effective` makes of the rays traced through the cells of the pupil.  The vertices of the pupil are
the same for all wavelengths and fields, and all light which is not vignetted falls on the sensor. -/
theorem C93_total_partial {s : Camera} (hs : s.Ideal) (hobj : s.system.objectAtInfinity = true) (sc : Scene)
    (draw : Cell → CellDraw) (integrate : Bool) {v : VertexGrid}
    (hv : sc.denormalize s.system.extents = some v)
    (hw : (sc.bins integrate).Pairwise (· < ·)) (h2 : 2 ≤ (sc.bins integrate).length)
    {pupil : ℕ → ℕ → V2} (hp : ∀ i j k, v.pupil i j k = pupil)
    (rays : ℕ → ℕ → ℕ → Fin sc.numPupilX × Fin sc.numPupilY → Ray)
    (hA : ∀ c ∈ sc.cells, ∀ p : Fin sc.numPupilX × Fin sc.numPupilY, c.l = p.1 → c.m = p.2 →
      s.system.rayfunction (cellCall (v.sample (draw c) c) (gridCell false pupil c.l c.m)) none
        = some (rays c.i c.j c.k p))
    (hland : ∀ i j k p, (rays i j k p).unvignetted = true →
      s.pixels.mask (rays i j k p).position = true ∧ (sc.bins integrate)[0] ≤ (rays i j k p).wavelength
        ∧ (rays i j k p).wavelength ≤ (sc.bins integrate)[(sc.bins integrate).length - 1])
    (f : ℕ → ℕ → ℕ → ℝ)
    (hf : ∀ b x y : ℕ, b + 1 < (sc.bins integrate).length →
      s.image sc draw integrate (b, x, y) = some (f b x y)) :
    ∑ b ∈ Finset.range ((sc.bins integrate).length - 1), ∑ x ∈ Finset.range s.pixels.numX,
        ∑ y ∈ Finset.range s.pixels.numY, f b x y
      = s.timedelta * ∑ i ∈ Finset.range sc.numWavelength, ∑ j ∈ Finset.range sc.numFieldX,
          ∑ k ∈ Finset.range sc.numFieldY, sc.radiance i j k
            * (sc.wavelength (i + 1) - sc.wavelength i)
            * ((|gridCell true (v.field i) j k| + |gridCell true (v.field (i + 1)) j k|) / 2)
            * areaField (rays i j k) := by
  have hval : ∀ b x y : ℕ, b + 1 < (sc.bins integrate).length → f b x y
      = s.timedelta * (sc.cells.map fun c =>
        s.emitted sc v c * s.response (sc.bins integrate) v draw c b x y).sum := by
    intro b x y hb
    have := hf b x y hb
    rw [C63_pixel_partial hs sc draw integrate hv hw b x y hb, Option.some.injEq] at this
    exact this.symm
  have hswap : ∀ l : List Cell, ∑ b ∈ Finset.range ((sc.bins integrate).length - 1),
        ∑ x ∈ Finset.range s.pixels.numX, ∑ y ∈ Finset.range s.pixels.numY, (l.map fun c =>
          s.emitted sc v c * s.response (sc.bins integrate) v draw c b x y).sum
      = (l.map fun c => s.emitted sc v c * ∑ b ∈ Finset.range ((sc.bins integrate).length - 1),
        ∑ x ∈ Finset.range s.pixels.numX, ∑ y ∈ Finset.range s.pixels.numY,
          s.response (sc.bins integrate) v draw c b x y).sum := by
    intro l
    induction l with
    | nil => simp
    | cons c l ih =>
      simp only [List.map_cons, List.sum_cons, Finset.sum_add_distrib, ih, Finset.mul_sum]
  have htotal : ∑ b ∈ Finset.range ((sc.bins integrate).length - 1),
        ∑ x ∈ Finset.range s.pixels.numX, ∑ y ∈ Finset.range s.pixels.numY, f b x y
      = s.timedelta * ∑ b ∈ Finset.range ((sc.bins integrate).length - 1),
        ∑ x ∈ Finset.range s.pixels.numX, ∑ y ∈ Finset.range s.pixels.numY, (sc.cells.map fun c =>
          s.emitted sc v c * s.response (sc.bins integrate) v draw c b x y).sum := by
    simp only [Finset.mul_sum]
    refine Finset.sum_congr rfl fun b hb => Finset.sum_congr rfl fun x _ => Finset.sum_congr rfl
      fun y _ => ?_
    rw [hval b x y (by have := Finset.mem_range.1 hb; omega)]
  rw [htotal, hswap, cells_sum]
  congr 1
  refine Finset.sum_congr rfl fun i hi => Finset.sum_congr rfl fun j hj => Finset.sum_congr rfl
    fun k hk => ?_
  unfold areaField
  rw [Finset.sum_filter, Finset.mul_sum]
  refine Finset.sum_congr rfl fun p _ => ?_
  have hc : (⟨i, j, k, p.1, p.2⟩ : Cell) ∈ sc.cells := by
    unfold Scene.cells
    simp only [List.mem_flatMap, List.mem_map, List.mem_range]
    exact ⟨i, Finset.mem_range.1 hi, j, Finset.mem_range.1 hj, k, Finset.mem_range.1 hk, p.1, p.1.2,
      p.2, p.2.2, rfl⟩
  have hr := hA _ hc p rfl rfl
  have hcall : ∀ (g : Grid) (x : ℝ), cellCall g x = sceneCall g |x| := fun _ _ => rfl
  rw [hcall, rayfunction_scale hs.blind] at hr
  obtain ⟨r1, hr1, hr2⟩ := Option.map_eq_some_iff.1 hr
  rw [response_sum hs hw h2 hr1 (by
    intro h
    have := hland i j k p (by rw [← hr2]; exact h)
    rw [← hr2] at this
    exact this)]
  have hu : (rays i j k p).unvignetted = r1.unvignetted := by rw [← hr2]; rfl
  have hI : (rays i j k p).intensity = r1.intensity * |gridCell false pupil p.1 p.2| := by
    rw [← hr2]; simp [Ray.scale, mul_comm]
  unfold Camera.emitted VertexGrid.cellArea centerOf
  simp only [hobj, Bool.not_true, hp, denormalize_wavelength hv, hu, hI]
  split
  · ring
  · ring

/-- **C93**: a scene of uniform radiance in one bin of wavelength, with cells of equal solid angle: the
sum of all pixels is the exposure time times the radiance, the width of the bin, the solid angle of the
scene and the effective area of the system. -/
theorem C93_uniform_partial {s : Camera} (hs : s.Ideal) (hobj : s.system.objectAtInfinity = true) (sc : Scene)
    (draw : Cell → CellDraw) (integrate : Bool) {v : VertexGrid}
    (hv : sc.denormalize s.system.extents = some v)
    (hw : (sc.bins integrate).Pairwise (· < ·)) (h2 : 2 ≤ (sc.bins integrate).length)
    {pupil : ℕ → ℕ → V2} (hp : ∀ i j k, v.pupil i j k = pupil)
    (rays : Fin sc.numFieldX × Fin sc.numFieldY → Fin sc.numPupilX × Fin sc.numPupilY → Ray)
    (h1 : sc.numWavelength = 1) (hn : 0 < sc.numFieldX * sc.numFieldY)
    (hA : ∀ q p, s.system.rayfunction (cellCall (v.sample (draw ⟨0, q.1, q.2, p.1, p.2⟩)
      ⟨0, q.1, q.2, p.1, p.2⟩) (gridCell false pupil p.1 p.2)) none = some (rays q p))
    (hland : ∀ q p, (rays q p).unvignetted = true →
      s.pixels.mask (rays q p).position = true ∧ (sc.bins integrate)[0] ≤ (rays q p).wavelength
        ∧ (rays q p).wavelength ≤ (sc.bins integrate)[(sc.bins integrate).length - 1])
    {L Ω : ℝ} (hL : ∀ j k, sc.radiance 0 j k = L)
    (hΩ : ∀ j k : ℕ, j < sc.numFieldX → k < sc.numFieldY →
      |gridCell true (v.field 0) j k| = Ω ∧ |gridCell true (v.field 1) j k| = Ω)
    (f : ℕ → ℕ → ℕ → ℝ)
    (hf : ∀ b x y : ℕ, b + 1 < (sc.bins integrate).length →
      s.image sc draw integrate (b, x, y) = some (f b x y)) :
    ∑ b ∈ Finset.range ((sc.bins integrate).length - 1), ∑ x ∈ Finset.range s.pixels.numX,
        ∑ y ∈ Finset.range s.pixels.numY, f b x y
      = s.timedelta * L * (sc.wavelength 1 - sc.wavelength 0)
          * (sc.numFieldX * sc.numFieldY * Ω) * areaEffective rays := by
  obtain ⟨hX, hY⟩ : 0 < sc.numFieldX ∧ 0 < sc.numFieldY := by
    constructor <;> exact Nat.pos_of_ne_zero fun h => by simp [h] at hn
  rw [C93_total_partial hs hobj sc draw integrate hv hw h2 hp
    (fun _ j k => rays (⟨j % sc.numFieldX, Nat.mod_lt _ hX⟩, ⟨k % sc.numFieldY, Nat.mod_lt _ hY⟩))
    ?_ (fun _ _ _ _ => hland _ _) f hf]
  · rw [h1, Finset.sum_range_one]
    have hcard : (Fintype.card (Fin sc.numFieldX × Fin sc.numFieldY) : ℝ)
        = sc.numFieldX * sc.numFieldY := by simp
    have hne : (sc.numFieldX * sc.numFieldY : ℝ) ≠ 0 := by exact_mod_cast hn.ne'
    unfold areaEffective
    rw [hcard, Fintype.sum_prod_type, Finset.sum_range]
    have : ∀ j : Fin sc.numFieldX, ∑ k ∈ Finset.range sc.numFieldY, sc.radiance 0 j k
          * (sc.wavelength (0 + 1) - sc.wavelength 0)
          * ((|gridCell true (v.field 0) j k| + |gridCell true (v.field (0 + 1)) j k|) / 2)
          * areaField (rays (⟨(j : ℕ) % sc.numFieldX, Nat.mod_lt _ hX⟩,
            ⟨k % sc.numFieldY, Nat.mod_lt _ hY⟩))
        = L * (sc.wavelength 1 - sc.wavelength 0) * Ω * ∑ k : Fin sc.numFieldY,
          areaField (rays (j, k)) := by
      intro j
      rw [Finset.sum_range, Finset.mul_sum]
      refine Finset.sum_congr rfl fun k _ => ?_
      obtain ⟨hΩ1, hΩ2⟩ := hΩ j k j.2 k.2
      have e : ((⟨(j : ℕ) % sc.numFieldX, Nat.mod_lt _ hX⟩, ⟨(k : ℕ) % sc.numFieldY, Nat.mod_lt _ hY⟩) :
          Fin sc.numFieldX × Fin sc.numFieldY) = (j, k) := by
        ext
        · exact Nat.mod_eq_of_lt j.2
        · exact Nat.mod_eq_of_lt k.2
      rw [e, hL, hΩ1]
      simp only [zero_add, hΩ2]
      ring
    simp only [this]
    rw [← Finset.mul_sum]
    field_simp
  · intro c hc p hl hm
    obtain ⟨hi, hj, hk, -, -⟩ := mem_cells hc
    have h0 : c.i = 0 := by omega
    obtain ⟨i, j, k, l, m⟩ := c
    simp only at h0 hj hk hl hm ⊢
    subst h0
    have := hA (⟨j, hj⟩, ⟨k, hk⟩) p
    simp only [← hl, ← hm] at this
    simp only [Nat.mod_eq_of_lt hj, Nat.mod_eq_of_lt hk]
    exact this

/-- Disagreement with C93 for objects at a finite distance: the pupil is measured in angles, and the size of
a cell of the pupil is a solid angle for `image` and a product of angles for `area_effective`. For the cell
from 0 to π/2 along both axes, an eighth of the sphere, the one is π/2 and the other π²/4. -/
theorem C93_finite_counterexample : ∃ P : ℕ → ℕ → V2,
    |gridCell true P 0 0| = Real.pi / 2 ∧ |gridCell false P 0 0| = Real.pi ^ 2 / 4
      ∧ |gridCell true P 0 0| ≠ |gridCell false P 0 0| := by
  refine ⟨fun l m => ⟨l * (Real.pi / 2), m * (Real.pi / 2)⟩, ?_⟩
  have h1 : |gridCell true (fun l m : ℕ => (⟨l * (Real.pi / 2), m * (Real.pi / 2)⟩ : V2)) 0 0|
      = Real.pi / 2 := by
    have h11 : arctan2 1 1 = Real.pi / 4 := by
      have : (⟨1, 1⟩ : ℂ) = ((Real.sqrt 2 : ℝ) : ℂ) * (Real.cos (Real.pi / 4) + Real.sin (Real.pi / 4) * Complex.I) := by
        have h2 : Real.sqrt 2 * (Real.sqrt 2 / 2) = 1 := by
          rw [← mul_div_assoc, Real.mul_self_sqrt (by norm_num)]
          norm_num
        apply Complex.ext <;> simp [Real.cos_pi_div_four, Real.sin_pi_div_four, h2]
      unfold arctan2
      rw [this, Complex.ofReal_cos, Complex.ofReal_sin,
        Complex.arg_mul_cos_add_sin_mul_I (by positivity)
        ⟨by linarith [Real.pi_pos], by linarith [Real.pi_pos]⟩]
    have h02 : arctan2 0 2 = 0 := by
      unfold arctan2
      rw [Complex.arg_eq_zero_iff]
      exact ⟨by norm_num, rfl⟩
    have : gridCell true (fun l m : ℕ => (⟨l * (Real.pi / 2), m * (Real.pi / 2)⟩ : V2)) 0 0
        = Real.pi / 2 := by
      simp only [gridCell, cellSize, solidAngle, directionOf, if_true, V3.dot, V3.cross,
        Nat.cast_zero, zero_mul, zero_add, Nat.cast_one, one_mul, Real.cos_zero, Real.sin_zero,
        Real.cos_pi_div_two, Real.sin_pi_div_two]
      norm_num
      rw [h11, h02]
      ring
    rw [this, abs_of_pos (by positivity)]
  have h2 : |gridCell false (fun l m : ℕ => (⟨l * (Real.pi / 2), m * (Real.pi / 2)⟩ : V2)) 0 0|
      = Real.pi ^ 2 / 4 := by
    have : gridCell false (fun l m : ℕ => (⟨l * (Real.pi / 2), m * (Real.pi / 2)⟩ : V2)) 0 0
        = Real.pi ^ 2 / 4 := by
      simp only [gridCell, cellSize, quadArea, Bool.false_eq_true, if_false]
      push_cast
      ring
    rw [this, abs_of_pos (by positivity)]
  refine ⟨h1, h2, ?_⟩
  rw [h1, h2]
  intro h
  have := Real.pi_gt_three
  nlinarith

/-- A camera without optics in front of a scene of one cell meets the hypotheses. -/
example : ∃ p, (planesCamera 1 true).image (oneCell 1 (fun i => i + 1) fun _ => 3) middle true (0, 0, 0)
    = some p ∧ p = 3 * oneCellAngle * 4 := by
  set sc := oneCell 1 (fun i => i + 1) fun _ => 3 with hsc
  have hbins : sc.bins true = [1, 2] := by
    simp only [Scene.bins, Scene.edges, hsc, oneCell, if_true, List.range_succ, List.range_zero,
      List.nil_append, List.map_append, List.map_cons, List.map_nil, List.cons_append]
    simp [List.min?_cons, List.max?_cons]
    norm_num
  have hw : (sc.bins true).Pairwise (· < ·) := by rw [hbins]; simp
  have h2 : 2 ≤ (sc.bins true).length := by rw [hbins]; simp
  have hv : sc.denormalize (planesCamera 1 true).system.extents
      = some (oneCellVertices fun i => i + 1) := oneCell_denormalize 1 _ _
  obtain ⟨F, hf⟩ : ∃ F : ℕ → ℕ → ℕ → ℝ, ∀ b x y : ℕ, b + 1 < (sc.bins true).length →
      (planesCamera 1 true).image sc middle true (b, x, y) = some (F b x y) :=
    ⟨_, fun b x y hb => C63_pixel_partial (planesCamera_ideal 1) sc middle true hv hw b x y hb⟩
  refine ⟨F 0 0 0, hf 0 0 0 (by rw [hbins]; simp), ?_⟩
  have h4 : |gridCell false defaultPupil 0 0| = 4 := by
    have : gridCell false defaultPupil 0 0 = 4 := by
      simp only [gridCell, cellSize, quadArea, defaultPupil, Bool.false_eq_true, if_false]
      push_cast
      ring
    rw [this]
    norm_num
  have h := C93_uniform_partial (planesCamera_ideal 1) rfl sc middle true hv hw h2 (pupil := defaultPupil)
    (fun _ _ _ => rfl) (fun _ _ => ⟨3 / 2, ⟨0, 0, 0⟩, ⟨0, 0, 1⟩, 4, 0, 1, true⟩) rfl (by decide) ?_ ?_
    (L := 3) (Ω := oneCellAngle) (fun _ _ => rfl) ?_ _ hf
  · have hlen : (sc.bins true).length = 2 := by rw [hbins]; rfl
    rw [hlen] at h
    simp [planesCamera, hsc, oneCell, areaEffective, areaField] at h
    rw [h]
  · intro q p
    have hq : q = ((0, 0) : Fin 1 × Fin 1) := Subsingleton.elim (α := Fin 1 × Fin 1) _ _
    have hp' : p = ((0, 0) : Fin 1 × Fin 1) := Subsingleton.elim (α := Fin 1 × Fin 1) _ _
    rw [hq, hp']
    have hg : (oneCellVertices fun i => (i : ℝ) + 1).sample (middle ⟨0, 0, 0, 0, 0⟩) ⟨0, 0, 0, 0, 0⟩
        = ⟨3 / 2, ⟨0, 0⟩, ⟨0, 0⟩⟩ := by
      simp only [VertexGrid.sample, middle, oneCellVertices, cellLerp, cellLerpV, defaultPupil,
        Grid.mk.injEq, V2.mk.injEq]
      push_cast
      refine ⟨by norm_num, ⟨by norm_num, by norm_num⟩, by norm_num, by norm_num⟩
    show (planes none).rayfunction (sceneCall ((oneCellVertices fun i => (i : ℝ) + 1).sample
      (middle ⟨0, 0, 0, 0, 0⟩) ⟨0, 0, 0, 0, 0⟩) |gridCell false defaultPupil 0 0|) none = _
    rw [hg, h4, planes_rayfunction]
  · intro q p _
    simp only [hbins]
    refine ⟨?_, by norm_num, by norm_num⟩
    simp [planesCamera, SensorGrid.mask, rectangleMask, SensorGrid.halfX, SensorGrid.halfY,
      applyFlags, toLocal]
  · intro j k hj hk
    have hj' : j = 0 := by simpa [hsc, oneCell] using hj
    have hk' : k = 0 := by simpa [hsc, oneCell] using hk
    subst hj' hk'
    exact ⟨rfl, rfl⟩

end Optika
