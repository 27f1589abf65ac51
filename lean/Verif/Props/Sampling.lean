import Verif.Props.Image
import Mathlib.Probability.Moments.Variance
import Mathlib.Probability.Independence.InfinitePi
import Mathlib.MeasureTheory.Constructions.Pi
import Mathlib.MeasureTheory.Measure.Lebesgue.Basic

/-!
# C106: the noise of random sampling in images
-/

namespace Optika
open MeasureTheory ProbabilityTheory

/-! ## Specification -/

/-- The numbers that are drawn for a cell, as a point of the unit cube. -/
def CellDraw.ofPoint (t : Fin 5 → ℝ) : CellDraw := ⟨t 0, t 1, t 2, t 3, t 4⟩

/-- The uniform distribution on the unit cube. -/
noncomputable def unitCube : Measure (Fin 5 → ℝ) := Measure.pi fun _ => volume.restrict (Set.Icc (0 : ℝ) 1)

/-- Independent uniform draws for all cells, as `cell_centers(random=True)` of `named_arrays` makes them. -/
structure UniformDraws {Ω : Type*} [MeasurableSpace Ω] (μ : Measure Ω) (U : Cell → Ω → Fin 5 → ℝ) : Prop where
  measurable : ∀ c, Measurable (U c)
  uniform : ∀ c, μ.map (U c) = unitCube
  independent : iIndepFun U μ

/-- The part of a ray of unit intensity that is detected in a pixel, as a function of the point in the cell. -/
noncomputable def Camera.detected (s : Camera) (edges : List ℝ) (v : VertexGrid) (c : Cell) (b x y : ℕ)
    (t : Fin 5 → ℝ) : ℝ :=
  s.response edges v (fun _ => CellDraw.ofPoint t) c b x y

/-! ## Proofs -/

theorem cells_nodup (sc : Scene) : sc.cells.Nodup := by
  unfold Scene.cells
  refine List.nodup_flatMap.2 ⟨fun i _ => List.nodup_flatMap.2 ⟨fun j _ => List.nodup_flatMap.2 ⟨fun k _ =>
    List.nodup_flatMap.2 ⟨fun l _ => List.Nodup.map (fun a b h => by simpa using h) List.nodup_range, ?_⟩, ?_⟩, ?_⟩, ?_⟩
  all_goals
    refine List.Pairwise.imp (fun {a b} hab => ?_) List.nodup_range
    rw [Function.onFun, List.disjoint_left]
    intro x hx hx'
    simp only [List.mem_flatMap, List.mem_map] at hx hx'
    aesop

instance : IsProbabilityMeasure unitCube := by
  unfold unitCube
  have : IsProbabilityMeasure (volume.restrict (Set.Icc (0 : ℝ) 1)) := ⟨by simp⟩
  infer_instance

theorem detected_range {s : Camera} (hp : ∀ x ∈ s.system.everySurface, Passive x) (edges : List ℝ) (v : VertexGrid) (c : Cell)
    (b x y : ℕ) (t : Fin 5 → ℝ) : 0 ≤ s.detected edges v c b x y t ∧ s.detected edges v c b x y t ≤ 1 := by
  unfold Camera.detected Camera.response
  split
  · simp
  · rename_i r hr
    split
    · exact rayfunction_le_one hp hr
    · simp

/-- **C106**: the mean of the counts in a pixel is the exposure times the sum, over the cells, of the flux of the cell and
the part of the cell from which light is detected in the pixel.  The variance is the sum over the cells; a cell all of whose
light is detected alike does not contribute, and no cell contributes more than a quarter of the square of its counts. -/
theorem C106_moments {s : Camera} (hs : s.Ideal) (hp : ∀ x ∈ s.system.everySurface, Passive x) (sc : Scene)
    (integrate : Bool) {v : VertexGrid} (hv : sc.denormalize s.system.extents = some v)
    (hw : (sc.bins integrate).Pairwise (· < ·)) {b x y : ℕ} (hb : b + 1 < (sc.bins integrate).length)
    {Ω : Type*} [MeasurableSpace Ω] {μ : Measure Ω} [IsProbabilityMeasure μ] {U : Cell → Ω → Fin 5 → ℝ}
    (hU : UniformDraws μ U) (hm : ∀ c ∈ sc.cells, AEMeasurable (s.detected (sc.bins integrate) v c b x y) unitCube) :
    ∃ f : Ω → ℝ, (∀ ω, s.image sc (fun c => CellDraw.ofPoint (U c ω)) integrate (b, x, y) = some (f ω)) ∧
      MemLp f 2 μ ∧
      (∫ ω, f ω ∂μ = s.timedelta * (sc.cells.map fun c =>
        s.emitted sc v c * ∫ t, s.detected (sc.bins integrate) v c b x y t ∂unitCube).sum) ∧
      (Var[f; μ] = s.timedelta ^ 2 * (sc.cells.map fun c =>
        s.emitted sc v c ^ 2 * Var[s.detected (sc.bins integrate) v c b x y; unitCube]).sum) ∧
      Var[f; μ] ≤ s.timedelta ^ 2 * (sc.cells.map fun c => s.emitted sc v c ^ 2 / 4).sum := by
  classical
  set D := fun c => s.detected (sc.bins integrate) v c b x y with hD
  set X : Cell → Ω → ℝ := fun c ω => s.emitted sc v c * D c (U c ω) with hX
  have hr := fun c t => detected_range hp (sc.bins integrate) v c b x y t
  have hmU : ∀ c ∈ sc.cells, AEMeasurable (D c) (μ.map (U c)) := fun c hc => by rw [hU.uniform]; exact hm c hc
  have hmX : ∀ c ∈ sc.cells, AEMeasurable (fun ω => D c (U c ω)) μ := fun c hc =>
    (hmU c hc).comp_measurable (hU.measurable c)
  have hL : ∀ c ∈ sc.cells, MemLp (fun ω => D c (U c ω)) 2 μ := fun c hc =>
    MemLp.of_bound (hmX c hc).aestronglyMeasurable 1 (Filter.Eventually.of_forall fun ω => by
      rw [Real.norm_eq_abs, abs_le]
      exact ⟨by linarith [(hr c (U c ω)).1], (hr c (U c ω)).2⟩)
  have hLX : ∀ c ∈ sc.cells, MemLp (X c) 2 μ := fun c hc => (hL c hc).const_mul _
  have hsum : ∀ g : Cell → ℝ, (sc.cells.map g).sum = ∑ c ∈ sc.cells.toFinset, g c := fun g =>
    (List.sum_toFinset g (cells_nodup sc)).symm
  have hf : (fun ω => s.timedelta * (sc.cells.map fun c => X c ω).sum) = fun ω => s.timedelta * (∑ c ∈ sc.cells.toFinset, X c) ω := by
    funext ω; rw [hsum, Finset.sum_apply]
  have hvar : ∀ c ∈ sc.cells, Var[X c; μ] = s.emitted sc v c ^ 2 * Var[D c; unitCube] := fun c hc => by
    rw [hX, variance_const_mul, ← hU.uniform c, variance_map (hmU c hc) (hU.measurable c).aemeasurable]
    rfl
  have hV : Var[fun ω => s.timedelta * (sc.cells.map fun c => X c ω).sum; μ] = s.timedelta ^ 2 * (sc.cells.map fun c =>
        s.emitted sc v c ^ 2 * Var[D c; unitCube]).sum := by
    rw [hf, variance_const_mul, IndepFun.variance_sum (fun c hc => hLX c (List.mem_toFinset.1 hc)), hsum]
    · congr 1
      exact Finset.sum_congr rfl fun c hc => hvar c (List.mem_toFinset.1 hc)
    · intro c hc c' hc' hne
      have h := hU.independent.indepFun hne
      exact h.comp₀ (φ := fun t => s.emitted sc v c * D c t) (ψ := fun t => s.emitted sc v c' * D c' t)
        (hU.measurable c).aemeasurable (hU.measurable c').aemeasurable
        ((hmU c (List.mem_toFinset.1 hc)).const_mul _) ((hmU c' (List.mem_toFinset.1 hc')).const_mul _)
  refine ⟨fun ω => s.timedelta * (sc.cells.map fun c => X c ω).sum, fun ω => ?_, ?_, ?_, hV, ?_⟩
  · rw [C63_pixel_partial hs sc _ integrate hv hw b x y hb]
    rfl
  · rw [hf]
    exact (memLp_finsetSum' _ fun c hc => hLX c (List.mem_toFinset.1 hc)).const_mul _
  · rw [integral_const_mul]
    congr 1
    simp only [hsum]
    rw [integral_finsetSum _ fun c hc => (hLX c (List.mem_toFinset.1 hc)).integrable (by norm_num)]
    refine Finset.sum_congr rfl fun c hc => ?_
    rw [hX, integral_const_mul, ← hU.uniform c, integral_map (hU.measurable c).aemeasurable
      (hmU c (List.mem_toFinset.1 hc)).aestronglyMeasurable]
  · rw [hV, hsum, hsum]
    refine mul_le_mul_of_nonneg_left (Finset.sum_le_sum fun c hc => ?_) (sq_nonneg _)
    have := variance_le_sq_of_bounded (μ := unitCube) (X := D c) (a := 0) (b := 1)
      (Filter.Eventually.of_forall fun t => hr c t) (hm c (List.mem_toFinset.1 hc))
    nlinarith [sq_nonneg (s.emitted sc v c)]

/-- **C106**, convergence: if the scene sends the flux `F` towards the pupil and no cell more than `F / N`, the standard
deviation of the counts in any pixel is at most `1 / (2 √N)` of the counts of all light, and larger deviations are rare. -/
theorem C106_convergence {s : Camera} (hs : s.Ideal) (hp : ∀ x ∈ s.system.everySurface, Passive x) (sc : Scene)
    (integrate : Bool) {v : VertexGrid} (hv : sc.denormalize s.system.extents = some v)
    (hw : (sc.bins integrate).Pairwise (· < ·)) {b x y : ℕ} (hb : b + 1 < (sc.bins integrate).length)
    {Ω : Type*} [MeasurableSpace Ω] {μ : Measure Ω} [IsProbabilityMeasure μ] {U : Cell → Ω → Fin 5 → ℝ}
    (hU : UniformDraws μ U) (hm : ∀ c ∈ sc.cells, AEMeasurable (s.detected (sc.bins integrate) v c b x y) unitCube)
    {F N : ℝ} (hN : 0 < N) (hF : (sc.cells.map fun c => s.emitted sc v c).sum = F)
    (hc : ∀ c ∈ sc.cells, 0 ≤ s.emitted sc v c ∧ s.emitted sc v c ≤ F / N) :
    ∃ f : Ω → ℝ, (∀ ω, s.image sc (fun c => CellDraw.ofPoint (U c ω)) integrate (b, x, y) = some (f ω)) ∧
      Var[f; μ] ≤ (s.timedelta * F) ^ 2 / (4 * N) ∧
      ∀ ε, 0 < ε → μ {ω | ε ≤ |f ω - ∫ ω', f ω' ∂μ|} ≤ ENNReal.ofReal ((s.timedelta * F) ^ 2 / (4 * N * ε ^ 2)) := by
  obtain ⟨f, h1, h2, -, -, h5⟩ := C106_moments hs hp sc integrate hv hw hb hU hm
  have hV : Var[f; μ] ≤ (s.timedelta * F) ^ 2 / (4 * N) := by
    refine h5.trans ?_
    have : (sc.cells.map fun c => s.emitted sc v c ^ 2 / 4).sum ≤ (F / N) / 4 * F := by
      rw [← hF, ← List.sum_map_mul_left, hF]
      refine List.sum_le_sum fun c h => ?_
      have := hc c h
      nlinarith
    calc _ ≤ s.timedelta ^ 2 * (F / N / 4 * F) := mul_le_mul_of_nonneg_left this (sq_nonneg _)
      _ = _ := by field_simp
  refine ⟨f, h1, hV, fun ε hε => (meas_ge_le_variance_div_sq h2 hε).trans (ENNReal.ofReal_le_ofReal ?_)⟩
  rw [← div_div]
  exact div_le_div_of_nonneg_right hV (sq_nonneg ε)

/-! ## A case: a pixel half as wide as the pupil of two planes -/

/-- There are such draws. -/
theorem uniformDraws_exist : UniformDraws (Measure.infinitePi fun _ : Cell => unitCube) fun c ω => ω c where
  measurable c := measurable_pi_apply c
  uniform c := Measure.infinitePi_map_eval _ c
  independent := iIndepFun_infinitePi (X := fun _ ω => ω) fun _ => measurable_id

/-- Planes are passed straight on. -/
theorem plane_passed {d : V3} (hd : d.dot d = 1) (hz : d.z ≠ 0) (w x y i : ℝ) :
    (⟨flatSag, vacuum, none, none, none⟩ : Surface).propagate
      ⟨w, ⟨x, y, 0⟩, d, i, 0, 1, true⟩ = some ⟨w, ⟨x, y, 0⟩, d, i, 0, 1, true⟩ := by
  have hs : snellsLaw d 1 1 false ⟨0, 0, -1⟩ = some d := by
    rw [snellsLaw_iff (m := false) (by simp [V3.dot]) (by norm_num) (by norm_num) (by simpa [V3.dot] using hz)]
    refine ⟨⟨hd, ?_⟩, by simpa [SameSide, V3.dot] using mul_self_nonneg d.z⟩
    ext <;> simp
  simp [Surface.propagate, Surface.propagateLocal, Sag.propagate, flatSag, flatIntercept, div?, hz,
    Surface.interact, flatNormal, Surface.effectiveRay, Surface.rulingFactor, vacuum, hs, Surface.clip]

theorem planes_any {f : V2} (hz : (directionOf f).z ≠ 0) (w I : ℝ) (p : V2) :
    (planes none).rayfunction (sceneCall ⟨w, f, p⟩ I) none
      = some ⟨w, ⟨p.x, p.y, 0⟩, directionOf f, I, 0, 1, true⟩ := by
  have hd : (directionOf f).dot (directionOf f) = 1 := by
    simp only [directionOf, V3.dot]
    linear_combination Real.cos f.y ^ 2 * Real.sin_sq_add_cos_sq f.x + Real.sin_sq_add_cos_sq f.y
  rw [C24_rayfunction]
  refine ⟨⟨w, ⟨p.x, p.y, 0⟩, directionOf f, I, 0, 1, true⟩, ⟨w, ⟨p.x, p.y, 0⟩, directionOf f, I, 0, 1, true⟩, ?_, ?_, ?_⟩
  · simp [System.callInput, sceneCall, System.calcInput, planes, denormalizeGrid, setIntensity]
  · have := C16_rigid Rigid.id [⟨flatSag, vacuum, none, none, none⟩,
      ⟨flatSag, vacuum, none, none, none⟩] ⟨w, ⟨p.x, p.y, 0⟩, directionOf f, I, 0, 1, true⟩
    rw [Ray.move_id] at this
    simp only [planes, System.placed, List.map_nil, List.append_eq, List.nil_append,
      List.cons_append, Option.getD_none]
    rw [this]
    simp only [propagateSurfaces_cons, propagateSurfaces_nil, plane_passed hd hz, Option.bind_some,
      Option.map_some, Ray.move_id]
  · simp only [planes, Option.getD_none, Surface.frame]
    rw [Ray.unmove_comp, Ray.unmove_id, Ray.unmove_id]

/-- The camera of two planes with a pixel of half the size. -/
noncomputable def halfCamera : Camera := { planesCamera 1 true with pixels := ⟨1, 1, 1, 1⟩ }

theorem halfCamera_detected (t : Fin 5 → ℝ) (ht : ∀ i, t i ∈ Set.Icc (0 : ℝ) 1) :
    halfCamera.detected [1, 2] (oneCellVertices fun i => i + 1) ⟨0, 0, 0, 0, 0⟩ 0 0 0 t
      = Set.indicator {t : Fin 5 → ℝ | t 3 ∈ Set.Icc (1 / 4 : ℝ) (3 / 4) ∧ t 4 ∈ Set.Icc (1 / 4 : ℝ) (3 / 4)} 1 t := by
  have hg : (oneCellVertices fun i => (i : ℝ) + 1).sample (CellDraw.ofPoint t) ⟨0, 0, 0, 0, 0⟩
      = ⟨1 + t 0, ⟨t 1 - 1 / 2, t 2 - 1 / 2⟩, ⟨2 * t 3 - 1, 2 * t 4 - 1⟩⟩ := by
    simp only [VertexGrid.sample, CellDraw.ofPoint, oneCellVertices, cellLerp, cellLerpV, defaultPupil, Grid.mk.injEq,
      V2.mk.injEq]
    push_cast
    refine ⟨by ring, ⟨by ring, by ring⟩, by ring, by ring⟩
  have hcos : ∀ a ∈ Set.Icc (0 : ℝ) 1, 0 < Real.cos (a - 1 / 2) := fun a ha =>
    Real.cos_pos_of_mem_Ioo ⟨by linarith [Real.two_le_pi, ha.1], by linarith [Real.two_le_pi, ha.2]⟩
  have hz : (directionOf ⟨t 1 - 1 / 2, t 2 - 1 / 2⟩).z ≠ 0 :=
    (mul_pos (hcos _ (ht 2)) (hcos _ (ht 1))).ne'
  have hr : halfCamera.system.rayfunction (sceneCall ((oneCellVertices fun i => (i : ℝ) + 1).sample
      (CellDraw.ofPoint t) ⟨0, 0, 0, 0, 0⟩) 1) none
      = some ⟨1 + t 0, ⟨2 * t 3 - 1, 2 * t 4 - 1, 0⟩, directionOf ⟨t 1 - 1 / 2, t 2 - 1 / 2⟩, 1, 0, 1, true⟩ := by
    rw [hg]; exact planes_any hz _ _ _
  unfold Camera.detected Camera.response
  rw [hr]
  dsimp only
  have hin : InBin [1, 2] 0 (1 + t 0) := by
    refine ⟨by simp, by simpa using (ht 0).1, ?_⟩
    rcases lt_or_eq_of_le (ht 0).2 with h | h
    · left; simp; linarith
    · right; simp [h]; norm_num
  have hpx : halfCamera.pixels.OnPixel 0 0 ⟨2 * t 3 - 1, 2 * t 4 - 1, 0⟩ ↔
      t ∈ {t : Fin 5 → ℝ | t 3 ∈ Set.Icc (1 / 4 : ℝ) (3 / 4) ∧ t 4 ∈ Set.Icc (1 / 4 : ℝ) (3 / 4)} := by
    simp only [SensorGrid.OnPixel, halfCamera, Set.mem_setOf_eq, Set.mem_Icc]
    push_cast
    simp only [zero_add, and_true, ← le_iff_lt_or_eq, mul_one]
    constructor
    · rintro ⟨⟨-, a, b⟩, -, c, d⟩
      exact ⟨⟨by linarith, by linarith⟩, by linarith, by linarith⟩
    · rintro ⟨⟨a, b⟩, c, d⟩
      exact ⟨⟨by norm_num, by linarith, by linarith⟩, by norm_num, by linarith, by linarith⟩
  by_cases h : t ∈ {t : Fin 5 → ℝ | t 3 ∈ Set.Icc (1 / 4 : ℝ) (3 / 4) ∧ t 4 ∈ Set.Icc (1 / 4 : ℝ) (3 / 4)}
  · rw [if_pos ⟨rfl, hin, hpx.2 h⟩, Set.indicator_of_mem h]; rfl
  · rw [if_neg fun hh => h (hpx.1 hh.2.2), Set.indicator_of_notMem h]

/-- The conditions are met by the camera of two planes, of which the pixel detects a part of the light. -/
example : halfCamera.Ideal ∧ (∀ x ∈ halfCamera.system.everySurface, Passive x) ∧
    (∀ c ∈ (oneCell 1 (fun i => i + 1) fun _ => 1).cells,
      AEMeasurable (halfCamera.detected [1, 2] (oneCellVertices fun i => i + 1) c 0 0 0) unitCube) := by
  refine ⟨?_, ?_, ?_⟩
  · obtain ⟨a, b, -, d⟩ := planesCamera_ideal 1
    exact ⟨a, b, ⟨by simp [halfCamera], by simp [halfCamera], by simp [halfCamera], by simp [halfCamera]⟩, d⟩
  · intro x hx
    simp only [System.everySurface, halfCamera, planesCamera, planes, List.map_nil,
      List.nil_append, List.cons_append, List.mem_cons, List.not_mem_nil, or_false, or_self] at hx
    rw [hx]
    exact (C15_passive_ideal flatSag none none 1 1).1
  · intro c hc
    rw [oneCell_cells] at hc
    simp only [List.range_one, List.map_cons, List.map_nil, List.mem_singleton] at hc
    subst hc
    refine ⟨Set.indicator {t : Fin 5 → ℝ | t 3 ∈ Set.Icc (1 / 4 : ℝ) (3 / 4) ∧ t 4 ∈ Set.Icc (1 / 4 : ℝ) (3 / 4)} 1,
      Measurable.indicator measurable_one ?_, ?_⟩
    · exact (measurable_pi_apply 3 measurableSet_Icc).inter (measurable_pi_apply 4 measurableSet_Icc)
    · have : ∀ᵐ t ∂unitCube, ∀ i, t i ∈ Set.Icc (0 : ℝ) 1 := by
        unfold unitCube
        rw [ae_all_iff]
        intro i
        exact Measure.tendsto_eval_ae_ae.eventually (ae_restrict_mem measurableSet_Icc)
      filter_upwards [this] with t ht
      exact halfCamera_detected t ht

end Optika
