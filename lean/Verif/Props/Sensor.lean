import Verif.Lemmas.Histogram
import Mathlib.Analysis.Convex.Combination
import Mathlib.Analysis.Complex.Convex

/-!
# Binning rays onto pixels (C41, C42)
-/

namespace Optika

/-- A grid with at least one pixel of positive size. -/
def SensorGrid.Proper (s : SensorGrid) : Prop := 0 < s.widthX ∧ 0 < s.widthY ∧ 0 < s.numX ∧ 0 < s.numY

/-- The pixel in column `i` and row `j`: a rectangle of the width of a pixel, the grid being
centred on the origin. -/
def SensorGrid.Pixel (s : SensorGrid) (i j : ℕ) (p : V3) : Prop :=
  (i - s.numX / 2 : ℝ) * s.widthX ≤ p.x ∧ p.x ≤ (i + 1 - s.numX / 2 : ℝ) * s.widthX
    ∧ (j - s.numY / 2 : ℝ) * s.widthY ≤ p.y ∧ p.y ≤ (j + 1 - s.numY / 2 : ℝ) * s.widthY

theorem SensorGrid.halfX_pos {s : SensorGrid} (h : s.Proper) : 0 < s.halfX := by
  have : (0 : ℝ) < s.numX := by exact_mod_cast h.2.2.1
  have := h.1
  unfold SensorGrid.halfX; positivity

theorem SensorGrid.halfY_pos {s : SensorGrid} (h : s.Proper) : 0 < s.halfY := by
  have : (0 : ℝ) < s.numY := by exact_mod_cast h.2.2.2
  have := h.2.1
  unfold SensorGrid.halfY; positivity

theorem linspace_symm {w : ℝ} {n : ℕ} (hn : 0 < n) (k : ℕ) :
    -(w * n / 2) + k * ((w * n / 2 - -(w * n / 2)) / n) = (k - n / 2 : ℝ) * w := by
  have hn' : (n : ℝ) ≠ 0 := by exact_mod_cast hn.ne'
  field_simp
  ring

/-- The bin of a coordinate on a centred grid. -/
theorem binIndex_centred {w : ℝ} {n : ℕ} (hw : 0 < w) (hn : 0 < n) {x : ℝ} {k : ℕ} :
    binIndex (linspaceEdges (-(w * n / 2)) (w * n / 2) n) x = some k ↔
      k < n ∧ (k - n / 2 : ℝ) * w ≤ x ∧ (x < (k + 1 - n / 2 : ℝ) * w ∨ (x = (k + 1 - n / 2 : ℝ) * w ∧ k + 1 = n)) := by
  have hn' : (0 : ℝ) < n := by exact_mod_cast hn
  have hpos : 0 < w * n / 2 := by positivity
  rw [binIndex_eq_some_iff (linspaceEdges_sorted (by linarith) hn)]
  unfold InBin
  simp only [linspaceEdges_length, linspaceEdges_getElem, linspace_symm hn]
  push_cast
  constructor
  · rintro ⟨h1, h2, h3⟩
    exact ⟨by omega, h2, h3.imp id fun h => ⟨h.1, by omega⟩⟩
  · rintro ⟨h1, h2, h3⟩
    exact ⟨by omega, h2, h3.imp id fun h => ⟨h.1, by omega⟩⟩

theorem binIndex_centred_isSome {w : ℝ} {n : ℕ} (hw : 0 < w) (hn : 0 < n) (x : ℝ) :
    (∃ k, binIndex (linspaceEdges (-(w * n / 2)) (w * n / 2) n) x = some k) ↔
      -(w * n / 2) ≤ x ∧ x ≤ w * n / 2 := by
  have hn' : (0 : ℝ) < n := by exact_mod_cast hn
  have hpos : 0 < w * n / 2 := by positivity
  rw [binIndex_isSome_iff (linspaceEdges_sorted (by linarith) hn)
    (by rw [linspaceEdges_length]; omega)]
  simp only [linspaceEdges_getElem, linspace_symm hn, linspaceEdges_length]
  simp only [Nat.cast_zero, Nat.add_sub_cancel]
  constructor
  · rintro ⟨h1, h2⟩; constructor <;> linarith
  · rintro ⟨h1, h2⟩; constructor <;> linarith

/-- The light-sensitive region. -/
theorem sensor_mask_iff (s : SensorGrid) (p : V3) :
    s.mask p = true ↔ (-s.halfX ≤ p.x ∧ p.x ≤ s.halfX) ∧ (-s.halfY ≤ p.y ∧ p.y ≤ s.halfY) := by
  have e : s.mask p = (decide (-s.halfX ≤ p.x) && decide (-s.halfY ≤ p.y)
      && decide (p.x ≤ s.halfX) && decide (p.y ≤ s.halfY)) := by
    unfold SensorGrid.mask rectangleMask applyFlags toLocal
    rfl
  rw [e]
  simp only [Bool.and_eq_true, decide_eq_true_eq]
  constructor
  · rintro ⟨⟨⟨h1, h2⟩, h3⟩, h4⟩; exact ⟨⟨h1, h3⟩, h2, h4⟩
  · rintro ⟨⟨h1, h3⟩, h2, h4⟩; exact ⟨⟨⟨h1, h2⟩, h3⟩, h4⟩

/-- **C41**: the pixels tile the aperture: a point is inside the aperture of the sensor exactly if
it is in one of its pixels. -/
theorem C41_tiles {s : SensorGrid} (hs : s.Proper) (p : V3) :
    s.mask p = true ↔ ∃ i < s.numX, ∃ j < s.numY, s.Pixel i j p := by
  rw [sensor_mask_iff]
  unfold SensorGrid.Pixel
  have hnx : (0 : ℝ) < s.numX := by exact_mod_cast hs.2.2.1
  have hny : (0 : ℝ) < s.numY := by exact_mod_cast hs.2.2.2
  constructor
  · rintro ⟨hx, hy⟩
    obtain ⟨i, hi⟩ := (binIndex_centred_isSome hs.1 hs.2.2.1 p.x).2 hx
    obtain ⟨j, hj⟩ := (binIndex_centred_isSome hs.2.1 hs.2.2.2 p.y).2 hy
    obtain ⟨hi1, hi2, hi3⟩ := (binIndex_centred hs.1 hs.2.2.1).1 hi
    obtain ⟨hj1, hj2, hj3⟩ := (binIndex_centred hs.2.1 hs.2.2.2).1 hj
    exact ⟨i, hi1, j, hj1, hi2, hi3.elim le_of_lt fun h => h.1.le, hj2,
      hj3.elim le_of_lt fun h => h.1.le⟩
  · rintro ⟨i, hi, j, hj, h1, h2, h3, h4⟩
    have hi' : (i : ℝ) + 1 ≤ s.numX := by exact_mod_cast hi
    have hj' : (j : ℝ) + 1 ≤ s.numY := by exact_mod_cast hj
    have hi0 : (0 : ℝ) ≤ i := Nat.cast_nonneg i
    have hj0 : (0 : ℝ) ≤ j := Nat.cast_nonneg j
    unfold SensorGrid.halfX SensorGrid.halfY
    have hwx := hs.1
    have hwy := hs.2.1
    refine ⟨⟨?_, ?_⟩, ?_, ?_⟩ <;> nlinarith

/-- The bin of a ray is in the grid. -/
theorem bin_mem {s : SensorGrid} (hs : s.Proper) {wavelength : List ℝ}
    (hw : wavelength.Pairwise (· < ·)) {r : Ray} {k : ℕ × ℕ × ℕ}
    (h : s.bin wavelength r = some k) :
    k.1 + 1 < wavelength.length ∧ k.2.1 < s.numX ∧ k.2.2 < s.numY
      ∧ s.Pixel k.2.1 k.2.2 r.position ∧ InBin wavelength k.1 r.wavelength := by
  unfold SensorGrid.bin at h
  simp only [Option.bind_eq_bind, Option.pure_def, Option.bind_eq_some_iff, Option.some.injEq] at h
  obtain ⟨a, ha, b, hb, c, hc, rfl⟩ := h
  have ha := (binIndex_eq_some_iff hw _ _).1 ha
  obtain ⟨hb1, hb2, hb3⟩ := (binIndex_centred hs.1 hs.2.2.1).1 hb
  obtain ⟨hc1, hc2, hc3⟩ := (binIndex_centred hs.2.1 hs.2.2.2).1 hc
  exact ⟨ha.1, hb1, hc1, ⟨hb2, hb3.elim le_of_lt fun h => h.1.le, hc2,
    hc3.elim le_of_lt fun h => h.1.le⟩, ha⟩

theorem bin_isSome_iff {s : SensorGrid} (hs : s.Proper) {wavelength : List ℝ}
    (hw : wavelength.Pairwise (· < ·)) (h2 : 2 ≤ wavelength.length) (r : Ray) :
    (s.bin wavelength r).isSome ↔
      s.mask r.position = true ∧ wavelength[0] ≤ r.wavelength
        ∧ r.wavelength ≤ wavelength[wavelength.length - 1] := by
  have e1 := binIndex_centred_isSome hs.1 hs.2.2.1 r.position.x
  have e2 := binIndex_centred_isSome hs.2.1 hs.2.2.2 r.position.y
  rw [sensor_mask_iff, ← binIndex_isSome_iff hw h2 r.wavelength]
  unfold SensorGrid.halfX SensorGrid.halfY
  rw [← e1, ← e2]
  rw [Option.isSome_iff_exists]
  unfold SensorGrid.bin SensorGrid.edgesX SensorGrid.edgesY SensorGrid.halfX SensorGrid.halfY
  simp only [Option.bind_eq_bind, Option.pure_def, Option.bind_eq_some_iff, Option.some.injEq]
  constructor
  · rintro ⟨k, a, ha, b, hb, c, hc, rfl⟩
    exact ⟨⟨⟨b, hb⟩, c, hc⟩, a, ha⟩
  · rintro ⟨⟨⟨b, hb⟩, c, hc⟩, a, ha⟩
    exact ⟨_, a, ha, b, hb, c, hc, rfl⟩

/-- **C41**: no flux is lost or counted twice.  For every cloud of rays, the sum of the image over
all wavelength bins and pixels is the total intensity of the rays that are selected, unvignetted,
inside the aperture of the sensor and within the range of wavelengths. -/
theorem C41_flux {s : SensorGrid} (hs : s.Proper) {wavelength : List ℝ}
    (hw : wavelength.Pairwise (· < ·)) (h2 : 2 ≤ wavelength.length) (where_ : Ray → Bool)
    (rays : List Ray) :
    ∑ k ∈ Finset.range (wavelength.length - 1), ∑ i ∈ Finset.range s.numX,
        ∑ j ∈ Finset.range s.numY, s.collect wavelength where_ rays (k, i, j)
      = ((rays.filter fun r => where_ r && r.unvignetted && s.mask r.position
          && decide (wavelength[0] ≤ r.wavelength)
          && decide (r.wavelength ≤ wavelength[wavelength.length - 1])).map Ray.intensity).sum := by
  have e : ∑ k ∈ Finset.range (wavelength.length - 1), ∑ i ∈ Finset.range s.numX,
        ∑ j ∈ Finset.range s.numY, s.collect wavelength where_ rays (k, i, j)
      = ∑ k ∈ Finset.range (wavelength.length - 1) ×ˢ Finset.range s.numX ×ˢ Finset.range s.numY,
        s.histogram wavelength (rayFlux where_) rays k := by
    rw [Finset.sum_product]
    refine Finset.sum_congr rfl fun k _ => ?_
    rw [Finset.sum_product]
    rfl
  rw [e, histogram_sum]
  · clear e
    induction rays with
    | nil => rfl
    | cons r rays ih =>
      simp only [List.map_cons, List.sum_cons, ih, List.filter_cons]
      have hb := bin_isSome_iff hs hw h2 r
      by_cases hm : (s.bin wavelength r).isSome
      · obtain ⟨h3, h4, h5⟩ := hb.1 hm
        rw [if_pos hm]
        simp only [h3, h4, h5, decide_true, Bool.and_true]
        unfold rayFlux
        cases hu : (where_ r && r.unvignetted) <;> simp
      · rw [if_neg hm, if_neg, zero_add]
        intro h
        simp only [Bool.and_eq_true, decide_eq_true_eq] at h
        exact hm (hb.2 ⟨h.1.1.2, h.1.2, h.2⟩)
  · intro r _ k hk
    obtain ⟨h1, h3, h4, -⟩ := bin_mem hs hw hk
    simp only [Finset.mem_product, Finset.mem_range]
    exact ⟨by omega, h3, h4⟩

/-- **C41**: each ray that falls on the sensor is counted in exactly one bin, the pixel of which
contains it. -/
theorem C41_one_pixel {s : SensorGrid} (hs : s.Proper) {wavelength : List ℝ}
    (hw : wavelength.Pairwise (· < ·)) (h2 : 2 ≤ wavelength.length) (where_ : Ray → Bool)
    {r : Ray} (hr : s.mask r.position = true) (hl : wavelength[0] ≤ r.wavelength)
    (hu : r.wavelength ≤ wavelength[wavelength.length - 1]) :
    ∃ k i j, k + 1 < wavelength.length ∧ i < s.numX ∧ j < s.numY
      ∧ s.Pixel i j r.position ∧ InBin wavelength k r.wavelength
      ∧ ∀ k' i' j', s.collect wavelength where_ [r] (k', i', j')
        = if (k', i', j') = (k, i, j) then rayFlux where_ r else 0 := by
  obtain ⟨⟨k, i, j⟩, hb⟩ := Option.isSome_iff_exists.1 ((bin_isSome_iff hs hw h2 r).2 ⟨hr, hl, hu⟩)
  obtain ⟨h1, h3, h4, h5, h6⟩ := bin_mem hs hw hb
  refine ⟨k, i, j, h1, h3, h4, h5, h6, fun k' i' j' => ?_⟩
  unfold SensorGrid.collect SensorGrid.histogram
  simp only [List.map_cons, List.map_nil, List.sum_cons, List.sum_nil, add_zero, hb,
    Option.some.injEq]
  by_cases h : (k, i, j) = (k', i', j')
  · rw [if_pos h, if_pos h.symm]
  · rw [if_neg h, if_neg (fun h' => h h'.symm)]

/-- **C41**: clouds add up, and the image does not depend on the order of the rays. -/
theorem C41_additive (s : SensorGrid) (wavelength : List ℝ) (where_ : Ray → Bool)
    (rays rays' : List Ray) (k : ℕ × ℕ × ℕ) :
    s.collect wavelength where_ (rays ++ rays') k
      = s.collect wavelength where_ rays k + s.collect wavelength where_ rays' k := by
  simp [SensorGrid.collect, SensorGrid.histogram]

/-- **C41**: vignetted and deselected rays contribute nothing, neither to the image nor to the
direction. -/
theorem C41_vignetted (s : SensorGrid) (wavelength : List ℝ) (where_ : Ray → Bool)
    (direction : Ray → ℂ) (rays : List Ray) (k : ℕ × ℕ × ℕ) :
    s.collect wavelength where_ rays k
        = s.collect wavelength (fun _ => true) (rays.filter fun r => where_ r && r.unvignetted) k
      ∧ s.collectDirection wavelength where_ direction rays k
        = s.collectDirection wavelength (fun _ => true) direction
          (rays.filter fun r => where_ r && r.unvignetted) k := by
  have key : ∀ w : Ray → ℝ, s.histogram wavelength (fun r => rayFlux where_ r * w r) rays k
      = s.histogram wavelength (fun r => rayFlux (fun _ => true) r * w r)
        (rays.filter fun r => where_ r && r.unvignetted) k := by
    intro w
    unfold SensorGrid.histogram
    induction rays with
    | nil => rfl
    | cons r rays ih =>
      rw [List.map_cons, List.sum_cons, ih, List.filter_cons]
      cases hc : (where_ r && r.unvignetted) with
      | true =>
        have hu : r.unvignetted = true := (Bool.and_eq_true _ _ ▸ hc : _ ∧ _).2
        rw [if_pos rfl, List.map_cons, List.sum_cons]
        have hw : where_ r = true := (Bool.and_eq_true _ _ ▸ hc : _ ∧ _).1
        simp [rayFlux, hw, hu]
      | false => simp [rayFlux, hc]
  have key1 := key fun _ => 1
  simp only [mul_one] at key1
  refine ⟨key1, ?_⟩
  unfold SensorGrid.collectDirection SensorGrid.collect
  rw [key, key, key1]

/-- A cloud of three rays on a sensor with two by two pixels; the last ray is vignetted. -/
example : (⟨1, 1, 2, 2⟩ : SensorGrid).Proper ∧ ([500, 600, 700] : List ℝ).Pairwise (· < ·)
    ∧ (⟨1, 1, 2, 2⟩ : SensorGrid).mask ⟨1, -1 / 2, 0⟩ = true := by
  refine ⟨⟨by norm_num, by norm_num, by norm_num, by norm_num⟩, ?_, ?_⟩
  · simp only [List.pairwise_cons, List.mem_cons, List.not_mem_nil, or_false, forall_eq_or_imp,
      forall_eq, List.Pairwise.nil, and_true, false_imp_iff, implies_true]
    norm_num
  · rw [sensor_mask_iff]
    simp only [SensorGrid.halfX, SensorGrid.halfY]
    norm_num

/-! ### C42 -/

/-- **C42**: the direction of an empty pixel is normal incidence. -/
theorem C42_empty (s : SensorGrid) (wavelength : List ℝ) (where_ : Ray → Bool)
    (direction : Ray → ℂ) (rays : List Ray) (k : ℕ × ℕ × ℕ)
    (h : ¬ 0 < s.collect wavelength where_ rays k) :
    s.collectDirection wavelength where_ direction rays k = 1 := by
  unfold SensorGrid.collectDirection
  simp [h]

/-- The rays that are counted in a bin. -/
noncomputable def SensorGrid.counted (s : SensorGrid) (wavelength : List ℝ) (where_ : Ray → Bool)
    (rays : List Ray) (k : ℕ × ℕ × ℕ) : List Ray :=
  rays.filter fun r => decide (s.bin wavelength r = some k) && where_ r && r.unvignetted

theorem histogram_counted (s : SensorGrid) (wavelength : List ℝ) (where_ : Ray → Bool)
    (w : Ray → ℝ) (rays : List Ray) (k : ℕ × ℕ × ℕ) :
    s.histogram wavelength (fun r => rayFlux where_ r * w r) rays k
      = ((s.counted wavelength where_ rays k).map fun r => r.intensity * w r).sum := by
  unfold SensorGrid.histogram SensorGrid.counted
  induction rays with
  | nil => rfl
  | cons r rays ih =>
    rw [List.map_cons, List.sum_cons, ih, List.filter_cons]
    by_cases hb : s.bin wavelength r = some k
    · rw [if_pos hb]
      cases hc : (where_ r && r.unvignetted) with
      | true =>
        rw [Bool.and_assoc, hc]
        simp [hb, rayFlux, hc]
      | false =>
        rw [Bool.and_assoc, hc]
        simp [rayFlux, hc]
    · simp [hb]

theorem sum_smul_re_im (direction : Ray → ℂ) (l : List Ray) :
    ((l.map fun r => r.intensity • direction r).sum).re
        = (l.map fun r => r.intensity * (direction r).re).sum
      ∧ ((l.map fun r => r.intensity • direction r).sum).im
        = (l.map fun r => r.intensity * (direction r).im).sum := by
  induction l with
  | nil => exact ⟨rfl, rfl⟩
  | cons r l ih =>
    simp only [List.map_cons, List.sum_cons, Complex.add_re, Complex.add_im, Complex.smul_re,
      Complex.smul_im, smul_eq_mul, ih.1, ih.2, and_self]

/-- **C42**: the direction of a pixel with flux is a mean of the directions of the rays that are
counted in it: it lies in every convex set of complex numbers that contains them.  (Intervals of
real parts, discs and half planes are such sets.) -/
theorem C42_mean {s : SensorGrid} {wavelength : List ℝ} {where_ : Ray → Bool}
    {direction : Ray → ℂ} {rays : List Ray} {k : ℕ × ℕ × ℕ}
    (hI : ∀ r ∈ rays, 0 ≤ r.intensity) (h : 0 < s.collect wavelength where_ rays k)
    {S : Set ℂ} (hS : Convex ℝ S)
    (hd : ∀ r ∈ s.counted wavelength where_ rays k, direction r ∈ S) :
    s.collectDirection wavelength where_ direction rays k ∈ S := by
  have himage : s.collect wavelength where_ rays k
      = ((s.counted wavelength where_ rays k).map Ray.intensity).sum := by
    have := histogram_counted s wavelength where_ (fun _ => 1) rays k
    simp only [mul_one] at this
    exact this
  have hdir : s.collectDirection wavelength where_ direction rays k
      = (s.collect wavelength where_ rays k)⁻¹ •
        ((s.counted wavelength where_ rays k).map fun r => r.intensity • direction r).sum := by
    unfold SensorGrid.collectDirection
    rw [histogram_counted, histogram_counted]
    simp only [h, if_true]
    obtain ⟨hre, him⟩ := sum_smul_re_im direction (s.counted wavelength where_ rays k)
    apply Complex.ext
    · rw [Complex.smul_re, hre, smul_eq_mul, ← div_eq_inv_mul]; simp
    · rw [Complex.smul_im, him, smul_eq_mul, ← div_eq_inv_mul]; simp
  have hnn : ∀ r ∈ s.counted wavelength where_ rays k, 0 ≤ r.intensity :=
    fun r hr => hI r (List.mem_filter.1 hr).1
  rw [hdir, himage]
  rw [himage] at h
  revert h; revert hnn; revert hd
  generalize s.counted wavelength where_ rays k = l
  clear hdir himage
  induction l with
  | nil => intro hd hnn h; simp at h
  | cons r l ih =>
    intro hd hnn h
    have hr0 := hnn r List.mem_cons_self
    have hl0 : 0 ≤ (l.map Ray.intensity).sum := by
      apply List.sum_nonneg
      intro x hx
      obtain ⟨r', hr', rfl⟩ := List.mem_map.1 hx
      exact hnn r' (List.mem_cons_of_mem _ hr')
    rw [List.map_cons, List.sum_cons] at h
    rw [List.map_cons, List.sum_cons, List.map_cons, List.sum_cons]
    have hrS := hd r List.mem_cons_self
    have hdl := fun r' hr' => hd r' (List.mem_cons_of_mem _ hr')
    have hnl := fun r' hr' => hnn r' (List.mem_cons_of_mem _ hr')
    rcases hl0.lt_or_eq with hpos | hzero
    · have hm := ih hdl hnl hpos
      have e : (r.intensity + (l.map Ray.intensity).sum)⁻¹ •
          (r.intensity • direction r + (l.map fun r => r.intensity • direction r).sum)
          = (r.intensity / (r.intensity + (l.map Ray.intensity).sum)) • direction r
            + ((l.map Ray.intensity).sum / (r.intensity + (l.map Ray.intensity).sum)) •
              ((l.map Ray.intensity).sum⁻¹ • (l.map fun r => r.intensity • direction r).sum) := by
        rw [smul_add, smul_smul, smul_smul]
        congr 2
        · field_simp
        · field_simp
      rw [e]
      refine hS hrS hm (by positivity) (by positivity) ?_
      field_simp
    · have hz : ∀ l : List Ray, (∀ r ∈ l, 0 ≤ r.intensity) → 0 = (l.map Ray.intensity).sum →
          (l.map fun r => r.intensity • direction r).sum = 0 := by
        intro l
        induction l with
        | nil => intro _ _; rfl
        | cons a l ih' =>
          intro ha hs
          have ha0 := ha a List.mem_cons_self
          have hl0 : 0 ≤ (l.map Ray.intensity).sum := by
            apply List.sum_nonneg
            intro x hx
            obtain ⟨r', hr', rfl⟩ := List.mem_map.1 hx
            exact ha r' (List.mem_cons_of_mem _ hr')
          rw [List.map_cons, List.sum_cons] at hs
          rw [List.map_cons, List.sum_cons,
            ih' (fun r' hr' => ha r' (List.mem_cons_of_mem _ hr')) (by linarith),
            show a.intensity = 0 by linarith]
          simp
      rw [hz l hnl hzero, ← hzero, add_zero, add_zero, smul_smul]
      rw [← hzero, add_zero] at h
      rw [inv_mul_cancel₀ h.ne', one_smul]
      exact hrS

/-- **C42**, in terms of the smallest and largest cosine. -/
theorem C42_between {s : SensorGrid} {wavelength : List ℝ} {where_ : Ray → Bool}
    {direction : Ray → ℂ} {rays : List Ray} {k : ℕ × ℕ × ℕ} {lo hi : ℝ}
    (hI : ∀ r ∈ rays, 0 ≤ r.intensity) (h : 0 < s.collect wavelength where_ rays k)
    (hd : ∀ r ∈ s.counted wavelength where_ rays k,
      lo ≤ (direction r).re ∧ (direction r).re ≤ hi) :
    lo ≤ (s.collectDirection wavelength where_ direction rays k).re
      ∧ (s.collectDirection wavelength where_ direction rays k).re ≤ hi := by
  have hS : Convex ℝ {z : ℂ | lo ≤ z.re ∧ z.re ≤ hi} :=
    (convex_halfSpace_re_ge lo).inter (convex_halfSpace_re_le hi)
  exact C42_mean hI h hS hd

end Optika
