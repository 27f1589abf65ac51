import Verif.Lemmas.Image
import Verif.Props.Averages
import Verif.Props.Transformed

/-!
# C63, C64: the image of a scene
-/

namespace Optika

/-! ## Specification -/

open scoped Classical in
/-- The part of a ray of unit intensity, sent through the system from one cell of the scene, which
is detected in a bin of wavelength and a pixel. -/
noncomputable def Camera.response (s : Camera) (edges : List ℝ) (v : VertexGrid)
    (draw : Cell → CellDraw) (c : Cell) (b x y : ℕ) : ℝ :=
  match s.system.rayfunction (sceneCall (v.sample (draw c) c) 1) none with
  | none => 0
  | some r =>
    if r.unvignetted = true ∧ InBin edges b r.wavelength ∧ s.pixels.OnPixel x y r.position
    then r.intensity else 0

/-- The flux emitted by the cell towards the pupil. -/
noncomputable def Camera.emitted (s : Camera) (sc : Scene) (v : VertexGrid) (c : Cell) : ℝ :=
  sc.radiance c.i c.j c.k * v.cellArea s.system.objectAtInfinity (!s.system.objectAtInfinity) c

/-- An ideal sensor and light in units of photons. -/
structure Camera.Ideal (s : Camera) : Prop where
  material : ∃ hc, s.material = idealSensorMaterial hc
  photons : s.inPhotons = true
  pixels : s.pixels.Proper
  blind : ∀ x ∈ s.system.everySurface, IntensityBlind x

/-! ## C63: the flux in a pixel -/

theorem measure_ideal {s : Camera} (hs : s.Ideal) (edges : List ℝ) (rays : List Ray) (b x y : ℕ)
    (hb : b + 1 < edges.length) : s.measure edges rays (b, x, y)
      = some (s.pixels.collect edges (fun _ => true) rays (b, x, y) * s.timedelta) := by
  obtain ⟨hc, hm⟩ := hs.material
  unfold Camera.measure
  simp [List.getElem?_eq_getElem (show b < edges.length by omega), List.getElem?_eq_getElem hb, hm,
    idealSensorMaterial, idealSignal, toPhotons, hs.photons]

/-- **C63**: the value of a pixel is the exposure time times the sum, over the cells of the scene, of
the flux emitted by the cell and the part of it which the system brings to that pixel. -/
theorem C63_pixel_partial {s : Camera} (hs : s.Ideal) (sc : Scene) (draw : Cell → CellDraw)
    (integrate : Bool) {v : VertexGrid} (hv : sc.denormalize s.system.extents = some v)
    (hw : (sc.bins integrate).Pairwise (· < ·)) (b x y : ℕ) (hb : b + 1 < (sc.bins integrate).length) :
    s.image sc draw integrate (b, x, y) = some (s.timedelta * (sc.cells.map fun c =>
      s.emitted sc v c * s.response (sc.bins integrate) v draw c b x y).sum) := by
  unfold Camera.image
  rw [hv]
  simp only [Option.bind_eq_bind, Option.bind_some]
  rw [measure_ideal hs _ _ _ _ _ hb, mul_comm]
  congr 2
  unfold SensorGrid.collect SensorGrid.histogram
  rw [sum_filterMap_eq]
  congr 1
  apply List.map_congr_left
  intro c _
  unfold Camera.cellRay Camera.response
  dsimp only
  rw [rayfunction_scale hs.blind]
  cases h : s.system.rayfunction (sceneCall (v.sample (draw c) c) 1) none with
  | none => simp
  | some r =>
    simp only [Option.map_some, Option.elim_some]
    have e : s.pixels.bin (sc.bins integrate) (r.scale (sc.radiance c.i c.j c.k
        * v.cellArea s.system.objectAtInfinity (!s.system.objectAtInfinity) c)) = some (b, x, y)
        ↔ InBin (sc.bins integrate) b r.wavelength ∧ s.pixels.OnPixel x y r.position :=
      bin_eq_some_iff hs.pixels hw _ b x y
    unfold Camera.emitted
    by_cases h1 : InBin (sc.bins integrate) b r.wavelength ∧ s.pixels.OnPixel x y r.position
    · rw [if_pos (e.2 h1)]
      by_cases h2 : r.unvignetted = true
      · rw [if_pos ⟨h2, h1⟩]
        simp [rayFlux, Ray.scale, h2]
      · rw [if_neg fun hh => h2 hh.1]
        simp [rayFlux, Ray.scale, h2]
    · rw [if_neg fun hh => h1 (e.1 hh), if_neg fun hh => h1 hh.2, mul_zero]

/-- **C63**, light in units of energy: the flux is divided by the energy of a photon at the centre of
the wavelength bin. -/
theorem C63_energy {s : Camera} (hs : ({ s with inPhotons := true } : Camera).Ideal)
    (he : s.inPhotons = false) {hc : ℝ} (hm : s.material = idealSensorMaterial hc) (h0 : hc ≠ 0)
    (sc : Scene) (draw : Cell → CellDraw)
    (integrate : Bool) {v : VertexGrid} (hv : sc.denormalize s.system.extents = some v)
    (hw : (sc.bins integrate).Pairwise (· < ·)) (b x y : ℕ) (hb : b + 1 < (sc.bins integrate).length)
    (hpos : 0 < (sc.bins integrate)[b]) :
    s.image sc draw integrate (b, x, y) = some (s.timedelta * (sc.cells.map fun c =>
      s.emitted sc v c * s.response (sc.bins integrate) v draw c b x y).sum
        / (hc / (((sc.bins integrate)[b] + (sc.bins integrate)[b + 1]) / 2))) := by
  have h1 := C63_pixel_partial hs sc draw integrate hv hw b x y hb
  unfold Camera.image at h1 ⊢
  rw [show ({ s with inPhotons := true } : Camera).system = s.system from rfl] at h1
  rw [hv] at h1 ⊢
  simp only [Option.bind_eq_bind, Option.bind_some] at h1 ⊢
  rw [measure_ideal hs _ _ _ _ _ hb, Option.some.injEq] at h1
  have hlt : (sc.bins integrate)[b] < (sc.bins integrate)[b + 1] :=
    getElem_lt_of_sorted hw (Nat.lt_succ_self b) hb
  have hcen : 0 < ((sc.bins integrate)[b] + (sc.bins integrate)[b + 1]) / 2 := by linarith
  have hen : hc / (((sc.bins integrate)[b] + (sc.bins integrate)[b + 1]) / 2) ≠ 0 :=
    div_ne_zero h0 hcen.ne'
  have hcc : cellCenter ((sc.bins integrate)[b], (sc.bins integrate)[b + 1])
      = ((sc.bins integrate)[b] + (sc.bins integrate)[b + 1]) / 2 := by
    unfold cellCenter; ring
  unfold Camera.measure
  simp only [List.getElem?_eq_getElem (show b < (sc.bins integrate).length by omega),
    List.getElem?_eq_getElem hb, hm, Option.bind_eq_bind, Option.bind_some]
  simp only [idealSensorMaterial, idealSignal, toPhotons, he, Bool.false_eq_true, if_false, hcc,
    div?_of_ne hcen.ne', Option.bind_eq_bind, Option.bind_some, div?_of_ne hen, Option.some.injEq]
  congr 1

theorem emitted_linear (s : Camera) (sc : Scene) (v : VertexGrid) (L1 L2 : ℕ → ℕ → ℕ → ℝ) (α β : ℝ)
    (c : Cell) : s.emitted { sc with radiance := fun i j k => α * L1 i j k + β * L2 i j k } v c
      = α * s.emitted { sc with radiance := L1 } v c + β * s.emitted { sc with radiance := L2 } v c := by
  unfold Camera.emitted
  ring

/-- **C63**: with the same random numbers the image depends linearly on the radiance of the scene. -/
theorem C63_linear {s : Camera} (hs : s.Ideal) (sc : Scene) (draw : Cell → CellDraw)
    (integrate : Bool) {v : VertexGrid} (hv : sc.denormalize s.system.extents = some v)
    (hw : (sc.bins integrate).Pairwise (· < ·)) (b x y : ℕ) (hb : b + 1 < (sc.bins integrate).length)
    (L1 L2 : ℕ → ℕ → ℕ → ℝ) (α β : ℝ) :
    ∃ p q, s.image { sc with radiance := L1 } draw integrate (b, x, y) = some p ∧
      s.image { sc with radiance := L2 } draw integrate (b, x, y) = some q ∧
      s.image { sc with radiance := fun i j k => α * L1 i j k + β * L2 i j k } draw integrate (b, x, y)
        = some (α * p + β * q) := by
  refine ⟨_, _, C63_pixel_partial hs { sc with radiance := L1 } draw integrate hv hw b x y hb,
    C63_pixel_partial hs { sc with radiance := L2 } draw integrate hv hw b x y hb, ?_⟩
  rw [C63_pixel_partial hs { sc with radiance := fun i j k => α * L1 i j k + β * L2 i j k } draw integrate hv
    hw b x y hb, Option.some.injEq]
  have e : ∀ l : List Cell, (l.map fun c =>
      s.emitted { sc with radiance := fun i j k => α * L1 i j k + β * L2 i j k } v c
        * s.response (sc.bins integrate) v draw c b x y).sum
      = α * (l.map fun c => s.emitted { sc with radiance := L1 } v c
          * s.response (sc.bins integrate) v draw c b x y).sum
        + β * (l.map fun c => s.emitted { sc with radiance := L2 } v c
          * s.response (sc.bins integrate) v draw c b x y).sum := by
    intro l
    induction l with
    | nil => simp
    | cons c l ih =>
      simp only [List.map_cons, List.sum_cons]
      rw [ih, emitted_linear]
      ring
  have e := e sc.cells
  have h0 : ∀ L, ({ sc with radiance := L } : Scene).bins integrate = sc.bins integrate := fun _ => rfl
  have h1 : ∀ L, ({ sc with radiance := L } : Scene).cells = sc.cells := fun _ => rfl
  simp only [h0, h1]
  rw [e]
  ring

theorem centerOf_nonneg {f : ℕ → ℝ} (h : ∀ i, 0 ≤ f i) (i : ℕ) : 0 ≤ centerOf f i := by
  unfold centerOf
  have := h i
  have := h (i + 1)
  positivity

/-- The size of a cell is positive, if the wavelengths increase. -/
theorem cellArea_nonneg (v : VertexGrid) (a b : Bool) (c : Cell)
    (h : v.wavelength c.i ≤ v.wavelength (c.i + 1)) : 0 ≤ v.cellArea a b c := by
  unfold VertexGrid.cellArea
  dsimp only
  apply mul_nonneg (mul_nonneg (by linarith) _) _
  · exact centerOf_nonneg (fun i => abs_nonneg _) _
  · exact centerOf_nonneg (fun i => centerOf_nonneg (fun j => centerOf_nonneg (fun k =>
      abs_nonneg _) _) _) _

theorem denormalize_wavelength {sc : Scene} {e : ℝ → Option (Extent × Extent)} {v : VertexGrid}
    (h : sc.denormalize e = some v) : v.wavelength = sc.wavelength := by
  unfold Scene.denormalize at h
  dsimp only at h
  split at h
  · simp only [Option.some.injEq] at h
    rw [← h]
  · simp at h

theorem mem_cells {sc : Scene} {c : Cell} (h : c ∈ sc.cells) : c.i < sc.numWavelength
    ∧ c.j < sc.numFieldX ∧ c.k < sc.numFieldY ∧ c.l < sc.numPupilX ∧ c.m < sc.numPupilY := by
  unfold Scene.cells at h
  simp only [List.mem_flatMap, List.mem_map, List.mem_range] at h
  obtain ⟨i, hi, j, hj, k, hk, l, hl, m, hm, rfl⟩ := h
  exact ⟨hi, hj, hk, hl, hm⟩

/-- A passive system does not amplify a ray. -/
theorem rayfunction_le_one {s : System} (hp : ∀ x ∈ s.everySurface, Passive x) {g : Grid} {out : Ray}
    (h : s.rayfunction (sceneCall g 1) none = some out) : 0 ≤ out.intensity ∧ out.intensity ≤ 1 := by
  have hc := C26_cell s (hp _ (by simp [System.everySurface]))
    (fun x hx => hp _ (by
      simp only [System.everySurface, List.mem_append, List.mem_cons, List.mem_map]
      exact Or.inl (Or.inr ⟨x, hx, rfl⟩)))
    (hp _ (by simp [System.everySurface])) g 1 none out
  have e : (cellCall g 1) = sceneCall g 1 := by
    simp [cellCall, sceneCall]
  rw [e] at hc
  simpa using hc h

/-- **C63**: no light is created: the sum of all pixels is at most the exposure time times the flux
emitted by the scene, and no pixel is negative, if nothing amplifies, the radiance is not negative
and the wavelengths increase. -/
theorem C63_total_partial {s : Camera} (hs : s.Ideal) (hp : ∀ x ∈ s.system.everySurface, Passive x)
    (ht : 0 ≤ s.timedelta) (sc : Scene) (hL : ∀ i j k, 0 ≤ sc.radiance i j k)
    (hinc : ∀ i : ℕ, i < sc.numWavelength → sc.wavelength i ≤ sc.wavelength (i + 1))
    (draw : Cell → CellDraw) (integrate : Bool) {v : VertexGrid}
    (hv : sc.denormalize s.system.extents = some v)
    (hw : (sc.bins integrate).Pairwise (· < ·)) (f : ℕ → ℕ → ℕ → ℝ)
    (hf : ∀ b x y : ℕ, b + 1 < (sc.bins integrate).length →
      s.image sc draw integrate (b, x, y) = some (f b x y)) :
    (∀ b x y : ℕ, b + 1 < (sc.bins integrate).length → 0 ≤ f b x y) ∧
    ∑ b ∈ Finset.range ((sc.bins integrate).length - 1), ∑ x ∈ Finset.range s.pixels.numX,
        ∑ y ∈ Finset.range s.pixels.numY, f b x y
      ≤ s.timedelta * (sc.cells.map fun c => s.emitted sc v c).sum := by
  have hem : ∀ c ∈ sc.cells, 0 ≤ s.emitted sc v c := by
    intro c hc
    apply mul_nonneg (hL _ _ _) (cellArea_nonneg v _ _ c _)
    rw [denormalize_wavelength hv]
    exact hinc _ (mem_cells hc).1
  have hresp : ∀ c b x y, 0 ≤ s.response (sc.bins integrate) v draw c b x y := by
    intro c b x y
    unfold Camera.response
    split
    · exact le_refl _
    · rename_i r hr
      split
      · exact (rayfunction_le_one hp hr).1
      · exact le_refl _
  have hval : ∀ b x y : ℕ, b + 1 < (sc.bins integrate).length → f b x y
      = s.timedelta * (sc.cells.map fun c =>
        s.emitted sc v c * s.response (sc.bins integrate) v draw c b x y).sum := by
    intro b x y hb
    have := hf b x y hb
    rw [C63_pixel_partial hs sc draw integrate hv hw b x y hb, Option.some.injEq] at this
    exact this.symm
  refine ⟨fun b x y hb => ?_, ?_⟩
  · rw [hval b x y hb]
    apply mul_nonneg ht
    apply List.sum_nonneg
    intro q hq
    obtain ⟨c, hc, rfl⟩ := List.mem_map.1 hq
    exact mul_nonneg (hem c hc) (hresp c b x y)
  · have hone : ∀ c, ∑ b ∈ Finset.range ((sc.bins integrate).length - 1),
        ∑ x ∈ Finset.range s.pixels.numX, ∑ y ∈ Finset.range s.pixels.numY,
          s.response (sc.bins integrate) v draw c b x y ≤ 1 := by
      intro c
      cases h : s.system.rayfunction (sceneCall (v.sample (draw c) c) 1) none with
      | none => simp [Camera.response, h]
      | some r =>
        obtain ⟨h0, h1⟩ := rayfunction_le_one hp h
        have hcong : ∀ b x y : ℕ, s.response (sc.bins integrate) v draw c b x y
            = s.pixels.collect (sc.bins integrate) (fun _ => true) [r] (b, x, y) := by
          intro b x y
          have e := bin_eq_some_iff hs.pixels hw r b x y
          simp only [Camera.response, h, SensorGrid.collect, SensorGrid.histogram, List.map_cons,
            List.map_nil, List.sum_cons, List.sum_nil, add_zero, rayFlux]
          by_cases h3 : r.unvignetted = true <;> by_cases h4 : s.pixels.bin (sc.bins integrate) r
            = some (b, x, y)
          · rw [if_pos ⟨h3, e.1 h4⟩, if_pos h4]; simp [h3]
          · rw [if_neg fun hh => h4 (e.2 hh.2), if_neg h4]
          · rw [if_neg fun hh => h3 hh.1, if_pos h4]; simp [h3]
          · rw [if_neg fun hh => h3 hh.1, if_neg h4]
        simp only [hcong]
        by_cases h2 : 2 ≤ (sc.bins integrate).length
        · rw [C41_flux hs.pixels hw h2]
          rw [List.filter_cons]
          split <;> simp [h1]
        · have : (sc.bins integrate).length - 1 = 0 := by omega
          rw [this]
          simp
    have hsum : ∀ l : List Cell, (∀ c ∈ l, 0 ≤ s.emitted sc v c) →
        ∑ b ∈ Finset.range ((sc.bins integrate).length - 1), ∑ x ∈ Finset.range s.pixels.numX,
          ∑ y ∈ Finset.range s.pixels.numY, (l.map fun c =>
            s.emitted sc v c * s.response (sc.bins integrate) v draw c b x y).sum
        ≤ (l.map fun c => s.emitted sc v c).sum := by
      intro l hl
      induction l with
      | nil => simp
      | cons c l ih =>
        simp only [List.map_cons, List.sum_cons, Finset.sum_add_distrib]
        have ih := ih fun c hc => hl c (List.mem_cons_of_mem _ hc)
        have := mul_le_mul_of_nonneg_left (hone c) (hl c (by simp))
        simp only [Finset.mul_sum] at this
        linarith
    calc _ = s.timedelta * ∑ b ∈ Finset.range ((sc.bins integrate).length - 1),
          ∑ x ∈ Finset.range s.pixels.numX, ∑ y ∈ Finset.range s.pixels.numY, (sc.cells.map fun c =>
            s.emitted sc v c * s.response (sc.bins integrate) v draw c b x y).sum := by
          simp only [Finset.mul_sum]
          apply Finset.sum_congr rfl
          intro b hb
          apply Finset.sum_congr rfl
          intro x _
          apply Finset.sum_congr rfl
          intro y _
          exact hval b x y (by have := Finset.mem_range.1 hb; omega)
      _ ≤ _ := mul_le_mul_of_nonneg_left (hsum _ hem) ht

/-- **C63**: cells of a rectangular grid in units of length tile the rectangle: nothing of the scene
is counted twice or left out. -/
theorem C63_tiling (X Y : ℕ → ℝ) (hX : Monotone X) (hY : Monotone Y) (n m : ℕ) :
    ∑ j ∈ Finset.range n, ∑ k ∈ Finset.range m, |gridCell false (fun j k => ⟨X j, Y k⟩) j k|
      = (X n - X 0) * (Y m - Y 0) := by
  have e : ∀ j k, |gridCell false (fun j k => ⟨X j, Y k⟩) j k|
      = (X (j + 1) - X j) * (Y (k + 1) - Y k) := by
    intro j k
    have h1 : 0 ≤ X (j + 1) - X j := sub_nonneg.2 (hX (Nat.le_succ j))
    have h2 : 0 ≤ Y (k + 1) - Y k := sub_nonneg.2 (hY (Nat.le_succ k))
    have : gridCell false (fun j k => ⟨X j, Y k⟩) j k
        = (X (j + 1) - X j) * (Y (k + 1) - Y k) := by
      simp only [gridCell, cellSize, quadArea, Bool.false_eq_true, if_false]
      ring
    rw [this, abs_of_nonneg (mul_nonneg h1 h2)]
  simp only [e, ← Finset.mul_sum, Finset.sum_range_sub, ← Finset.sum_mul]

/-! ## C64: integrating over wavelength -/

theorem propagateSurfaces_wavelength {ss : List Surface} {r out : Ray}
    (h : propagateSurfaces ss r = some out) (h0 : r.index ≠ 0) :
    out.wavelength = r.wavelength * out.index / r.index := by
  induction ss generalizing r with
  | nil =>
    simp only [propagateSurfaces_nil, Option.some.injEq] at h
    subst h
    field_simp
  | cons s ss ih =>
    rw [propagateSurfaces_cons] at h
    simp only [Option.bind_eq_some_iff] at h
    obtain ⟨r1, h1, h2⟩ := h
    obtain ⟨-, -, -, -, -, -, -, hw⟩ := medium_behind h1
    by_cases hr : r1.index = 0
    · cases ss with
      | nil =>
        simp only [propagateSurfaces_nil, Option.some.injEq] at h2
        subst h2
        exact hw
      | cons s' ss =>
        rw [propagateSurfaces_cons] at h2
        simp only [Option.bind_eq_some_iff] at h2
        obtain ⟨r2, h3, -⟩ := h2
        obtain ⟨-, -, -, -, -, -, hne, -⟩ := medium_behind h3
        exact absurd hr hne
    · rw [ih h2 hr, hw]
      field_simp

/-- A ray that arrives in vacuum has the wavelength with which it was sent. -/
theorem rayfunction_wavelength {s : System} (hm : s.sensor.surface.material = vacuum) {g : Grid}
    {a : ℝ} {out : Ray} (h : s.rayfunction (sceneCall g a) none = some out) :
    out.wavelength = g.wavelength := by
  obtain ⟨r, gl, hr, hg, rfl⟩ := (C24_rayfunction s _ none out).1 h
  have hr : (s.calcInput g false false).map (setIntensity (some a)) = some r := hr
  obtain ⟨r0, h0, rfl⟩ := Option.map_eq_some_iff.1 hr
  obtain ⟨-, -, -, -, hw, -, -, hi, -⟩ := C25_input s g false false r0 h0
  have hi' : (setIntensity (some a) r0).index = 1 := hi
  have h1 := propagateSurfaces_wavelength hg (by rw [hi']; norm_num)
  have h2 : gl.index = 1 := by
    have e : s.placed = (s.object.surface :: s.surfaces.map (·.surface)).map
        (Surface.moved (s.transformation.getD Rigid.id))
        ++ [s.sensor.surface.moved (s.transformation.getD Rigid.id)] := by
      unfold System.placed
      rw [List.map_append]
      rfl
    rw [e, propagateSurfaces_append] at hg
    simp only [Option.bind_eq_some_iff, propagateSurfaces_cons, propagateSurfaces_nil] at hg
    obtain ⟨q, -, q', hq, hqq⟩ := hg
    simp only [Option.some.injEq] at hqq
    subst hqq
    exact (C15_vacuum_medium (s := s.sensor.surface.moved (s.transformation.getD Rigid.id)) hm hq).2
  show gl.wavelength = _
  rw [h1, h2, hi', mul_one, div_one]
  exact hw

/-- Wavelengths that increase. -/
theorem edges_sorted {sc : Scene} (hinc : StrictMono sc.wavelength) : sc.edges.Pairwise (· < ·) := by
  unfold Scene.edges
  rw [List.pairwise_map]
  exact List.pairwise_lt_range.imp fun h => hinc h

theorem edges_length (sc : Scene) : sc.edges.length = sc.numWavelength + 1 := by simp [Scene.edges]

theorem edges_getElem (sc : Scene) (k : ℕ) (h : k < sc.edges.length) : sc.edges[k] = sc.wavelength k := by
  simp [Scene.edges]

theorem bins_integrate {sc : Scene} (hinc : StrictMono sc.wavelength) :
    sc.bins true = [sc.wavelength 0, sc.wavelength sc.numWavelength] := by
  have h1 : sc.edges.min? = some (sc.wavelength 0) := by
    rw [List.min?_eq_some_iff]
    constructor
    · exact List.mem_map.2 ⟨0, by simp, rfl⟩
    · intro b hb
      obtain ⟨k, -, rfl⟩ := List.mem_map.1 hb
      exact hinc.monotone (Nat.zero_le k)
  have h2 : sc.edges.max? = some (sc.wavelength sc.numWavelength) := by
    rw [List.max?_eq_some_iff]
    constructor
    · exact List.mem_map.2 ⟨sc.numWavelength, by simp, rfl⟩
    · intro b hb
      obtain ⟨k, hk, rfl⟩ := List.mem_map.1 hb
      exact hinc.monotone (Nat.lt_succ_iff.1 (List.mem_range.1 hk))
  unfold Scene.bins
  rw [h1, h2]
  rfl

/-- Numbers as drawn by `numpy.random.uniform`. -/
def CellDraw.Unit (t : CellDraw) : Prop :=
  (0 ≤ t.ti ∧ t.ti < 1) ∧ (0 ≤ t.tj ∧ t.tj < 1) ∧ (0 ≤ t.tk ∧ t.tk < 1) ∧ (0 ≤ t.tl ∧ t.tl < 1)
    ∧ 0 ≤ t.tm ∧ t.tm < 1

theorem cellLerp_mem {t : ℝ} (h0 : 0 ≤ t) (h1 : t < 1) {f : ℕ → ℝ} {i : ℕ} (hf : f i < f (i + 1)) :
    f i ≤ cellLerp t f i ∧ cellLerp t f i < f (i + 1) := by
  unfold cellLerp
  constructor
  · nlinarith
  · nlinarith

/-- **C64**: the light of the `i`th wavelength bin of the scene is detected in the `i`th wavelength
bin of the image and in no other one. -/
theorem C64_spectral_partial {s : Camera} (hm : s.system.sensor.surface.material = vacuum) (sc : Scene)
    (hinc : StrictMono sc.wavelength) (draw : Cell → CellDraw) (hd : ∀ c, (draw c).Unit)
    {v : VertexGrid} (hv : sc.denormalize s.system.extents = some v) (c : Cell) (hc : c ∈ sc.cells)
    {r : Ray} (hr : s.cellRay sc v draw c = some r) (b : ℕ) :
    InBin sc.edges b r.wavelength ↔ b = c.i := by
  have hwl : r.wavelength = cellLerp (draw c).ti sc.wavelength c.i := by
    rw [rayfunction_wavelength hm hr]
    show cellLerp (draw c).ti v.wavelength c.i = _
    rw [denormalize_wavelength hv]
  obtain ⟨h1, h2⟩ := cellLerp_mem (hd c).1.1 (hd c).1.2 (hinc (Nat.lt_succ_self c.i))
  have hlen := edges_length sc
  have hi := (mem_cells hc).1
  rw [hwl]
  constructor
  · rintro ⟨hb, h3, h4⟩
    simp only [edges_getElem] at h3 h4
    have hb1 : sc.wavelength b < sc.wavelength (c.i + 1) := lt_of_le_of_lt h3 h2
    have hb1 := hinc.lt_iff_lt.1 hb1
    have hb2 : sc.wavelength c.i ≤ sc.wavelength (b + 1) := by
      rcases h4 with h4 | h4
      · linarith
      · linarith [h4.1]
    have hb2 := hinc.le_iff_le.1 hb2
    by_contra hne
    have : c.i = b + 1 := by omega
    rcases h4 with h4 | ⟨-, h5⟩
    · rw [← this] at h4
      linarith
    · omega
  · rintro rfl
    refine ⟨by omega, ?_, ?_⟩
    · rw [edges_getElem]; exact h1
    · rw [edges_getElem]; exact Or.inl h2

/-- **C64**: for light in units of photons and an ideal sensor, the image integrated over wavelength
is the sum of the images of all wavelength bins. -/
theorem C64_integrate_partial {s : Camera} (hs : s.Ideal) (sc : Scene) (hinc : StrictMono sc.wavelength)
    (hn : 0 < sc.numWavelength) (draw : Cell → CellDraw) {v : VertexGrid}
    (hv : sc.denormalize s.system.extents = some v) (x y : ℕ) (f : ℕ → ℝ)
    (hf : ∀ b : ℕ, b < sc.numWavelength → s.image sc draw false (b, x, y) = some (f b)) :
    s.image sc draw true (0, x, y) = some (∑ b ∈ Finset.range sc.numWavelength, f b) := by
  have hw : (sc.bins false).Pairwise (· < ·) := edges_sorted hinc
  have hlen : (sc.bins false).length = sc.numWavelength + 1 := edges_length sc
  have hw' : (sc.bins true).Pairwise (· < ·) := by
    rw [bins_integrate hinc]
    simpa using hinc hn
  have hlen' : (sc.bins true).length = 2 := by rw [bins_integrate hinc]; rfl
  have hval : ∀ b ∈ Finset.range sc.numWavelength, f b = s.timedelta * (sc.cells.map fun c =>
      s.emitted sc v c * s.response sc.edges v draw c b x y).sum := by
    intro b hb
    have hb := Finset.mem_range.1 hb
    have := hf b hb
    rw [C63_pixel_partial hs sc draw false hv hw b x y (by omega), Option.some.injEq] at this
    exact this.symm
  rw [C63_pixel_partial hs sc draw true hv hw' 0 x y (by omega), Option.some.injEq,
    Finset.sum_congr rfl hval, ← Finset.mul_sum]
  congr 1
  have hresp : ∀ c, s.response (sc.bins true) v draw c 0 x y
      = ∑ b ∈ Finset.range sc.numWavelength, s.response sc.edges v draw c b x y := by
    intro c
    unfold Camera.response
    cases h : s.system.rayfunction (sceneCall (v.sample (draw c) c) 1) none with
    | none => simp
    | some r =>
      dsimp only
      have hex : InBin (sc.bins true) 0 r.wavelength ↔
          ∃ b, InBin sc.edges b r.wavelength := by
        have e1 := binIndex_isSome_iff (edges_sorted hinc) (by rw [edges_length]; omega) r.wavelength
        have e2 := binIndex_isSome_iff hw' (by omega) r.wavelength
        simp only [binIndex_eq_some_iff (edges_sorted hinc)] at e1
        simp only [binIndex_eq_some_iff hw'] at e2
        simp only [edges_getElem, edges_length, Nat.add_sub_cancel] at e1
        simp only [bins_integrate hinc] at e2 ⊢
        rw [e1]
        constructor
        · intro hh
          exact e2.1 ⟨0, hh⟩
        · intro hh
          obtain ⟨k, hk⟩ := e2.2 hh
          have : k = 0 := by
            obtain ⟨hk, -⟩ := hk
            simp at hk
            omega
          rwa [this] at hk
      by_cases h1 : r.unvignetted = true ∧ s.pixels.OnPixel x y r.position
      · by_cases h2 : ∃ b, InBin sc.edges b r.wavelength
        · rw [if_pos ⟨h1.1, hex.2 h2, h1.2⟩]
          obtain ⟨b, hb⟩ := h2
          have hbn : b < sc.numWavelength := by
            obtain ⟨hb, -⟩ := hb
            rw [edges_length] at hb
            omega
          rw [Finset.sum_eq_single_of_mem b (Finset.mem_range.2 hbn)]
          · rw [if_pos ⟨h1.1, hb, h1.2⟩]
          · intro b' _ hne
            apply if_neg
            rintro ⟨-, hb', -⟩
            have g1 := (binIndex_eq_some_iff (edges_sorted hinc) _ _).2 hb
            have g2 := (binIndex_eq_some_iff (edges_sorted hinc) _ _).2 hb'
            rw [g1, Option.some.injEq] at g2
            exact hne g2.symm
        · rw [if_neg fun hh => h2 (hex.1 hh.2.1)]
          symm
          apply Finset.sum_eq_zero
          intro b _
          exact if_neg fun hh => h2 ⟨b, hh.2.1⟩
      · rw [if_neg fun hh => h1 ⟨hh.1, hh.2.2⟩]
        symm
        apply Finset.sum_eq_zero
        intro b _
        exact if_neg fun hh => h1 ⟨hh.1, hh.2.2⟩
  have hsum : ∀ l : List Cell, (l.map fun c => s.emitted sc v c
        * s.response (sc.bins true) v draw c 0 x y).sum
      = ∑ b ∈ Finset.range sc.numWavelength, (l.map fun c =>
        s.emitted sc v c * s.response sc.edges v draw c b x y).sum := by
    intro l
    induction l with
    | nil => simp
    | cons c l ih =>
      simp only [List.map_cons, List.sum_cons, Finset.sum_add_distrib]
      rw [ih, hresp, Finset.mul_sum]
  exact hsum _

/-! ## A camera of two planes -/

/-- Two planes and a sensor with one pixel. -/
noncomputable def planesCamera (hc : ℝ) (inPhotons : Bool) : Camera :=
  ⟨planes none, ⟨2, 2, 1, 1⟩, idealSensorMaterial hc, 1, inPhotons⟩

/-- A scene with one cell in field and pupil. -/
noncomputable def oneCell (n : ℕ) (W L : ℕ → ℝ) : Scene where
  numWavelength := n
  numFieldX := 1
  numFieldY := 1
  numPupilX := 1
  numPupilY := 1
  wavelength := W
  field j k := ⟨j - 1 / 2, k - 1 / 2⟩
  pupil := defaultPupil
  normalizedField := false
  normalizedPupil := false
  radiance i _ _ := L i

/-- The middle of each cell. -/
noncomputable def middle (_ : Cell) : CellDraw := ⟨1 / 2, 1 / 2, 1 / 2, 1 / 2, 1 / 2⟩

/-- The vertices of that scene. -/
noncomputable def oneCellVertices (W : ℕ → ℝ) : VertexGrid :=
  ⟨W, fun _ j k => ⟨j - 1 / 2, k - 1 / 2⟩, fun _ _ _ => defaultPupil⟩

/-- The solid angle of the field of view. -/
noncomputable def oneCellAngle : ℝ := |gridCell true (fun j k => ⟨j - 1 / 2, k - 1 / 2⟩) 0 0|

theorem arctan2_pos {y x : ℝ} (h : 0 < y) : 0 < arctan2 y x := by
  unfold arctan2
  apply lt_of_le_of_ne
  · exact Complex.arg_nonneg_iff.2 h.le
  · intro hh
    have := Complex.arg_eq_zero_iff.1 hh.symm
    exact h.ne' this.2

theorem oneCellAngle_pos : 0 < oneCellAngle := by
  have hs : 0 < Real.sin (1 / 2) := Real.sin_pos_of_pos_of_lt_pi (by norm_num) (by linarith [Real.two_le_pi])
  have hc : 0 < Real.cos (1 / 2) := Real.cos_pos_of_mem_Ioo ⟨by linarith [Real.two_le_pi],
    by linarith [Real.two_le_pi]⟩
  unfold oneCellAngle
  apply abs_pos.2
  apply ne_of_gt
  have e0 : ((0 : ℕ) : ℝ) - 1 / 2 = -(1 / 2) := by norm_num
  have e1 : ((0 + 1 : ℕ) : ℝ) - 1 / 2 = 1 / 2 := by norm_num
  simp only [gridCell, cellSize, if_true, e0, e1]
  unfold solidAngle
  apply add_pos
  · apply mul_pos two_pos (arctan2_pos _)
    have : (directionOf ⟨-(1 / 2), -(1 / 2)⟩).dot ((directionOf ⟨1 / 2, -(1 / 2)⟩).cross
        (directionOf ⟨1 / 2, 1 / 2⟩))
        = 4 * (Real.cos (1 / 2) * Real.sin (1 / 2)) * Real.sin (1 / 2) * Real.cos (1 / 2) ^ 2 := by
      simp only [directionOf, V3.dot, V3.cross, Real.cos_neg, Real.sin_neg]
      ring
    rw [this]
    positivity
  · apply mul_pos two_pos (arctan2_pos _)
    have : (directionOf ⟨-(1 / 2), -(1 / 2)⟩).dot ((directionOf ⟨1 / 2, 1 / 2⟩).cross
        (directionOf ⟨-(1 / 2), 1 / 2⟩))
        = 4 * (Real.cos (1 / 2) * Real.sin (1 / 2)) * Real.sin (1 / 2) * Real.cos (1 / 2) ^ 2 := by
      simp only [directionOf, V3.dot, V3.cross, Real.cos_neg, Real.sin_neg]
      ring
    rw [this]
    positivity

theorem oneCell_denormalize (n : ℕ) (W L : ℕ → ℝ) :
    (oneCell n W L).denormalize (planes none).extents = some (oneCellVertices W) := by
  simp [Scene.denormalize, oneCell, oneCellVertices, denormalizeGrid, planes]

theorem oneCell_cells (n : ℕ) (W L : ℕ → ℝ) :
    (oneCell n W L).cells = (List.range n).map fun i => ⟨i, 0, 0, 0, 0⟩ := by
  simp [Scene.cells, oneCell, ← List.map_eq_flatMap]

theorem planes_rayfunction (w I : ℝ) :
    (planes none).rayfunction (sceneCall ⟨w, ⟨0, 0⟩, ⟨0, 0⟩⟩ I) none
      = some ⟨w, ⟨0, 0, 0⟩, ⟨0, 0, 1⟩, I, 0, 1, true⟩ := by
  rw [C24_rayfunction]
  refine ⟨⟨w, ⟨0, 0, 0⟩, ⟨0, 0, 1⟩, I, 0, 1, true⟩, ⟨w, ⟨0, 0, 0⟩, ⟨0, 0, 1⟩, I, 0, 1, true⟩, ?_, ?_, ?_⟩
  · simp [System.callInput, sceneCall, System.calcInput, planes, denormalizeGrid, directionOf,
      setIntensity]
  · have := C16_rigid Rigid.id [⟨flatSag, vacuum, none, none, none⟩,
      ⟨flatSag, vacuum, none, none, none⟩] ⟨w, ⟨0, 0, 0⟩, ⟨0, 0, 1⟩, I, 0, 1, true⟩
    rw [Ray.move_id] at this
    simp only [planes, System.placed, List.map_nil, List.append_eq, List.nil_append,
      List.cons_append, Option.getD_none]
    rw [this]
    simp only [propagateSurfaces_cons, propagateSurfaces_nil, plane_propagate, Option.bind_some,
      Option.map_some, Ray.move_id]
  · simp only [planes, Option.getD_none, Surface.frame]
    rw [Ray.unmove_comp, Ray.unmove_id, Ray.unmove_id]

theorem oneCell_area (W : ℕ → ℝ) (i : ℕ) :
    (oneCellVertices W).cellArea true false ⟨i, 0, 0, 0, 0⟩
      = (W (i + 1) - W i) * oneCellAngle * 4 := by
  have h4 : |gridCell false defaultPupil 0 0| = 4 := by
    have : gridCell false defaultPupil 0 0 = 4 := by
      simp only [gridCell, cellSize, quadArea, defaultPupil, Bool.false_eq_true, if_false]
      push_cast
      ring
    rw [this]
    norm_num
  simp only [VertexGrid.cellArea, oneCellVertices, centerOf, h4]
  unfold oneCellAngle
  ring

theorem oneCell_ray (hc : ℝ) (p : Bool) (n : ℕ) (W L : ℕ → ℝ) (i : ℕ) :
    (planesCamera hc p).cellRay (oneCell n W L) (oneCellVertices W) middle ⟨i, 0, 0, 0, 0⟩
      = some ⟨(W i + W (i + 1)) / 2, ⟨0, 0, 0⟩, ⟨0, 0, 1⟩,
        L i * ((W (i + 1) - W i) * oneCellAngle * 4), 0, 1, true⟩ := by
  have hg : (oneCellVertices W).sample (middle ⟨i, 0, 0, 0, 0⟩) ⟨i, 0, 0, 0, 0⟩
      = ⟨(W i + W (i + 1)) / 2, ⟨0, 0⟩, ⟨0, 0⟩⟩ := by
    simp only [VertexGrid.sample, middle, oneCellVertices, cellLerp, cellLerpV, defaultPupil, Grid.mk.injEq,
      V2.mk.injEq]
    push_cast
    refine ⟨by ring, ⟨by ring, by ring⟩, by ring, by ring⟩
  unfold Camera.cellRay
  dsimp only
  rw [hg]
  show (planes none).rayfunction _ none = _
  rw [planes_rayfunction]
  show some (_ : Ray) = _
  have : (planesCamera hc p).system.objectAtInfinity = true := rfl
  rw [this]
  simp only [Bool.not_true]
  rw [oneCell_area]
  rfl

theorem planesCamera_proper (hc : ℝ) (p : Bool) : (planesCamera hc p).pixels.Proper := by
  refine ⟨?_, ?_, ?_, ?_⟩ <;> simp [planesCamera]

theorem plane_blind (tr : Option Rigid) : IntensityBlind ⟨flatSag, vacuum, none, none, tr⟩ := by
  refine ⟨?_, ?_, ?_, ?_⟩ <;> simp [vacuum]

theorem planesCamera_ideal (hc : ℝ) : (planesCamera hc true).Ideal := by
  refine ⟨⟨hc, rfl⟩, rfl, planesCamera_proper hc true, ?_⟩
  intro x hx
  simp only [System.everySurface, planesCamera, planes, List.map_nil, List.append_eq,
    List.nil_append, List.cons_append, List.mem_cons, List.not_mem_nil, or_false, or_self] at hx
  rw [hx]
  exact plane_blind none

theorem oneCell_response (hc : ℝ) (p : Bool) (edges : List ℝ) (W : ℕ → ℝ) (i b : ℕ) :
    (InBin edges b ((W i + W (i + 1)) / 2) →
      (planesCamera hc p).response edges (oneCellVertices W) middle ⟨i, 0, 0, 0, 0⟩ b 0 0 = 1) ∧
    (¬ InBin edges b ((W i + W (i + 1)) / 2) →
      (planesCamera hc p).response edges (oneCellVertices W) middle ⟨i, 0, 0, 0, 0⟩ b 0 0 = 0) := by
  have hg : (oneCellVertices W).sample (middle ⟨i, 0, 0, 0, 0⟩) ⟨i, 0, 0, 0, 0⟩
      = ⟨(W i + W (i + 1)) / 2, ⟨0, 0⟩, ⟨0, 0⟩⟩ := by
    simp only [VertexGrid.sample, middle, oneCellVertices, cellLerp, cellLerpV, defaultPupil, Grid.mk.injEq,
      V2.mk.injEq]
    push_cast
    refine ⟨by ring, ⟨by ring, by ring⟩, by ring, by ring⟩
  have hr : (planesCamera hc p).system.rayfunction (sceneCall ((oneCellVertices W).sample
      (middle ⟨i, 0, 0, 0, 0⟩) ⟨i, 0, 0, 0, 0⟩) 1) none
      = some ⟨(W i + W (i + 1)) / 2, ⟨0, 0, 0⟩, ⟨0, 0, 1⟩, 1, 0, 1, true⟩ := by
    rw [hg]; exact planes_rayfunction _ _
  have hp : (planesCamera hc p).pixels.OnPixel 0 0 ⟨0, 0, 0⟩ := by
    simp only [SensorGrid.OnPixel, planesCamera]
    norm_num
  unfold Camera.response
  rw [hr]
  dsimp only
  exact ⟨fun h => if_pos ⟨rfl, h, hp⟩, fun h => if_neg fun hh => h hh.2.1⟩

/-- Disagreement with C63: with decreasing wavelengths and `integrate=True` the image of a scene of
positive radiance is negative, because the width of a wavelength bin has a sign. -/
theorem C63_descending_counterexample :
    ∃ p, (planesCamera 1 true).image (oneCell 1 (fun i => 2 - i) fun _ => 1) middle true (0, 0, 0)
      = some p ∧ p < 0 := by
  set sc := oneCell 1 (fun i => 2 - i) fun _ => 1 with hsc
  have hbins : sc.bins true = [1, 2] := by
    simp only [Scene.bins, Scene.edges, hsc, oneCell, if_true, List.range_succ, List.range_zero,
      List.nil_append, List.map_append, List.map_cons, List.map_nil, List.cons_append]
    simp [List.min?_cons, List.max?_cons]
    norm_num
  have hw : (sc.bins true).Pairwise (· < ·) := by rw [hbins]; simp
  have h := C63_pixel_partial (planesCamera_ideal 1) sc middle true (oneCell_denormalize 1 _ _) hw 0 0 0
    (by rw [hbins]; simp)
  refine ⟨_, h, ?_⟩
  have hin : InBin (sc.bins true) 0 (((2 - (0 : ℕ) : ℝ) + (2 - (0 + 1 : ℕ))) / 2) := by
    rw [hbins]
    refine ⟨by simp, ?_, Or.inl ?_⟩ <;> norm_num
  have hr := (oneCell_response 1 true (sc.bins true) (fun i => 2 - i) 0 0).1 hin
  have hem : (planesCamera 1 true).emitted sc (oneCellVertices fun i => 2 - i) ⟨0, 0, 0, 0, 0⟩
      = -(oneCellAngle * 4) := by
    unfold Camera.emitted
    show 1 * (oneCellVertices fun i => 2 - (i : ℝ)).cellArea true false ⟨0, 0, 0, 0, 0⟩ = _
    rw [oneCell_area]
    push_cast
    ring
  rw [hsc, oneCell_cells]
  simp only [List.range_one, List.map_cons, List.map_nil, List.sum_cons, List.sum_nil]
  rw [← hsc, hr, hem]
  have := oneCellAngle_pos
  simp only [planesCamera]
  linarith

/-- Disagreement with C64: with light in units of energy the image integrated over wavelength is not
the sum of the images of the wavelength bins, because the photons are counted as if they all had the
wavelength in the middle of the whole band. -/
theorem C64_energy_counterexample :
    ∃ p q r, (planesCamera 1 false).image (oneCell 2 (fun i => i + 1) fun i => if i = 0 then 1 else 0)
        middle false (0, 0, 0) = some p ∧
      (planesCamera 1 false).image (oneCell 2 (fun i => i + 1) fun i => if i = 0 then 1 else 0)
        middle false (1, 0, 0) = some q ∧
      (planesCamera 1 false).image (oneCell 2 (fun i => i + 1) fun i => if i = 0 then 1 else 0)
        middle true (0, 0, 0) = some r ∧ p + q < r := by
  set sc := oneCell 2 (fun i => i + 1) fun i => if i = 0 then 1 else 0 with hsc
  have hinc : StrictMono sc.wavelength := by
    intro a b hab
    simp only [hsc, oneCell]
    have : (a : ℝ) < b := by exact_mod_cast hab
    linarith
  have hbins : sc.bins true = [1, 3] := by
    rw [bins_integrate hinc]
    simp only [hsc, oneCell]
    norm_num
  have hbins' : sc.bins false = [1, 2, 3] := by
    simp only [Scene.bins, Scene.edges, hsc, oneCell, Bool.false_eq_true, if_false,
      List.range_succ, List.range_zero, List.nil_append, List.map_append, List.map_cons,
      List.map_nil, List.cons_append]
    norm_num
  have hw : (sc.bins true).Pairwise (· < ·) := by rw [hbins]; simp
  have hw' : (sc.bins false).Pairwise (· < ·) := edges_sorted hinc
  have hv : sc.denormalize (planesCamera 1 false).system.extents
      = some (oneCellVertices fun i => i + 1) := oneCell_denormalize 2 _ _
  have H := fun integrate hw b hb hpos => C63_energy (s := planesCamera 1 false) (planesCamera_ideal 1)
    rfl (hc := 1) rfl one_ne_zero sc middle integrate hv hw b 0 0 hb hpos
  have hcells : sc.cells = [⟨0, 0, 0, 0, 0⟩, ⟨1, 0, 0, 0, 0⟩] := by
    rw [hsc, oneCell_cells]
    rfl
  have hem0 : (planesCamera 1 false).emitted sc (oneCellVertices fun i => i + 1) ⟨0, 0, 0, 0, 0⟩
      = oneCellAngle * 4 := by
    unfold Camera.emitted
    show (if 0 = 0 then (1 : ℝ) else 0)
      * (oneCellVertices fun i => (i : ℝ) + 1).cellArea true false ⟨0, 0, 0, 0, 0⟩ = _
    rw [oneCell_area]
    push_cast
    simp
  have hem1 : (planesCamera 1 false).emitted sc (oneCellVertices fun i => i + 1) ⟨1, 0, 0, 0, 0⟩
      = 0 := by
    unfold Camera.emitted
    show (if 1 = 0 then (1 : ℝ) else 0) * _ = _
    simp
  have hr0 := (oneCell_response 1 false (sc.bins false) (fun i => i + 1) 0 0).1 (by
    rw [hbins']
    refine ⟨by simp, ?_, Or.inl ?_⟩ <;> norm_num)
  have hr1 := (oneCell_response 1 false (sc.bins false) (fun i => i + 1) 0 1).2 (by
    rw [hbins']
    rintro ⟨h1, h2, h3⟩
    clear h3
    norm_num at h2)
  have hr := (oneCell_response 1 false (sc.bins true) (fun i => i + 1) 0 0).1 (by
    rw [hbins]
    refine ⟨by simp, ?_, Or.inl ?_⟩ <;> norm_num)
  rw [hbins'] at hr0 hr1
  rw [hbins] at hr
  have ht : (planesCamera 1 false).timedelta = 1 := rfl
  refine ⟨_, _, _, H false hw' 0 (by rw [hbins']; simp) (by simp [hbins']),
    H false hw' 1 (by rw [hbins']; simp) (by simp [hbins']),
    H true hw 0 (by rw [hbins]; simp) (by simp [hbins]), ?_⟩
  simp only [hcells, List.map_cons, List.map_nil, List.sum_cons, List.sum_nil, hem0, hem1, hr0, hr1,
    hr, ht, zero_mul, mul_zero, add_zero, mul_one, one_mul, hbins, hbins', zero_div]
  have := oneCellAngle_pos
  simp
  linarith

/-- The hypotheses of the theorems above are met, and the pixel of the two planes has a positive
value. -/
example : (planesCamera 1 true).Ideal ∧ (∀ x ∈ (planesCamera 1 true).system.everySurface, Passive x) ∧
    StrictMono (oneCell 2 (fun i => i + 1) fun _ => 1).wavelength ∧ (∀ c, (middle c).Unit) ∧
    (planesCamera 1 true).system.sensor.surface.material = vacuum ∧
    (oneCell 2 (fun i => i + 1) fun _ => 1).denormalize (planesCamera 1 true).system.extents
      = some (oneCellVertices fun i => i + 1) ∧
    ⟨0, 0, 0, 0, 0⟩ ∈ (oneCell 2 (fun i => i + 1) fun _ => 1).cells := by
  refine ⟨planesCamera_ideal 1, ?_, ?_, ?_, rfl, oneCell_denormalize 2 _ _, ?_⟩
  · intro x hx
    simp only [System.everySurface, planesCamera, planes, List.map_nil,
      List.nil_append, List.cons_append, List.mem_cons, List.not_mem_nil, or_false, or_self] at hx
    rw [hx]
    exact (C15_passive_ideal flatSag none none 1 1).1
  · intro a b hab
    simp only [oneCell]
    have : (a : ℝ) < b := by exact_mod_cast hab
    linarith
  · intro c
    unfold CellDraw.Unit middle
    norm_num
  · rw [oneCell_cells]
    simp

/-- **C63**: the vertices of the field are those of the scene if they are in physical units, and are
spread over the field stop at each wavelength if they are normalized; likewise, independently, those of
the pupil.  Wavelengths are not changed. -/
theorem C63_vertices {sc : Scene} {extents : ℝ → Option (Extent × Extent)} {v : VertexGrid}
    (h : sc.denormalize extents = some v) :
    v.wavelength = sc.wavelength ∧ ∀ i : ℕ, i ≤ sc.numWavelength → ∀ j k l m,
      (sc.normalizedField = false → v.field i j k = sc.field j k)
      ∧ (sc.normalizedPupil = false → v.pupil i j k l m = sc.pupil l m)
      ∧ (sc.normalizedField = true → ∃ e, extents (sc.wavelength i) = some e
          ∧ v.field i j k = e.1.denormalize (sc.field j k))
      ∧ (sc.normalizedPupil = true → ∃ e, extents (sc.wavelength i) = some e
          ∧ v.pupil i j k l m = e.2.denormalize (sc.pupil l m)) := by
  refine ⟨denormalize_wavelength h, fun i hi j k l m => ?_⟩
  unfold Scene.denormalize at h
  dsimp only at h
  split at h
  · rename_i hsome
    have hi := hsome i hi
    simp only [Option.some.injEq] at h
    subst h
    cases hf : sc.normalizedField <;> cases hp : sc.normalizedPupil <;>
      cases he : extents (sc.wavelength i) <;> simp [denormalizeGrid, hf, hp, he] at hi ⊢
  · simp at h

open Complex in
/-- **C63**, silicon: the electrons of a pixel are those that the material makes of the light collected
in the pixel during the exposure, at the wavelength in the middle of the bin and a mean of the
refracted cosines of the rays in the pixel: one that lies in every convex set which contains them. -/
theorem C63_silicon {s : Camera} {hc : ℝ} {m : SiliconMaterial}
    (hm : s.material = siliconSensorMaterial hc m) (edges : List ℝ) (rays : List Ray)
    (hI : ∀ r ∈ rays, 0 ≤ r.intensity) (b x y : ℕ) (hb : b + 1 < edges.length)
    (hn : ∀ r ∈ s.pixels.counted edges (fun _ => true) rays (b, x, y),
      ∃ u, s.system.sensor.surface.sag.normal r.position = some u) :
    ∃ d : ℂ, s.measure edges rays (b, x, y) = m.signal hc s.inPhotons
        (s.pixels.collect edges (fun _ => true) rays (b, x, y) * s.timedelta)
        ((edges[b] + edges[b + 1]) / 2) d
      ∧ (0 < s.pixels.collect edges (fun _ => true) rays (b, x, y) →
        ∀ S : Set ℂ, Convex ℝ S →
          (∀ r ∈ s.pixels.counted edges (fun _ => true) rays (b, x, y), ∀ u,
            s.system.sensor.surface.sag.normal r.position = some u →
            snellsLawScalar ((-(r.direction.dot u) : ℝ) : ℂ) (rayIndex r) (m.nSilicon r.wavelength) ∈ S)
          → d ∈ S)
      ∧ (¬ 0 < s.pixels.collect edges (fun _ => true) rays (b, x, y) → d = 1) := by
  refine ⟨s.pixels.collectDirection edges (fun _ => true)
    (fun r => (s.system.sensor.surface.sag.normal r.position).elim 1
      (s.material.directionRefracted r)) rays (b, x, y), ?_,
    fun h S hS hd => C42_mean hI h hS fun r hr => ?_, fun h => C42_empty _ _ _ _ _ _ h⟩
  · unfold Camera.measure
    simp only [List.getElem?_eq_getElem (show b < edges.length by omega),
      List.getElem?_eq_getElem hb, Option.bind_eq_bind, Option.bind_some, hm, siliconSensorMaterial,
      cellCenter]
  · obtain ⟨u, hu⟩ := hn r hr
    have := hd r hr u hu
    simpa [hu, hm, siliconSensorMaterial, SiliconMaterial.directionRefracted] using this

end Optika
