import Verif.Props.Superposition
import Verif.Props.Details

/-!
# C42: the cosines found by an ideal plane sensor
-/

namespace Optika

/-- **C42**: the cosine that a plane sensor of an ideal material finds for a pixel with light is the mean of the
components of the directions along the axis of the sensor, weighted with the intensities of the rays that are
counted in the pixel. -/
theorem C42_ideal {s : Camera} {hc : ℝ} (hm : s.material = idealSensorMaterial hc)
    (hf : s.system.sensor.surface.sag = flatSag) (edges : List ℝ) (rays : List Ray) (k : ℕ × ℕ × ℕ)
    (h : 0 < s.pixels.collect edges (fun _ => true) rays k) :
    s.pixels.collectDirection edges (fun _ => true) s.refracted rays k
      = ((((s.pixels.counted edges (fun _ => true) rays k).map fun r => r.intensity * r.direction.z).sum
        / ((s.pixels.counted edges (fun _ => true) rays k).map Ray.intensity).sum : ℝ) : ℂ) := by
  have hd : ∀ r, s.refracted r = ((r.direction.z : ℝ) : ℂ) := by
    intro r
    have e : flatSag.normal r.position = some ⟨0, 0, -1⟩ := rfl
    unfold Camera.refracted
    rw [hf, e, hm]
    change ((idealDirectionRefracted r.direction ⟨0, 0, -1⟩ : ℝ) : ℂ) = _
    rw [C50_ideal_direction _ _ _ e]
  have himage : s.pixels.collect edges (fun _ => true) rays k
      = ((s.pixels.counted edges (fun _ => true) rays k).map Ray.intensity).sum := by
    have := histogram_counted s.pixels edges (fun _ => true) (fun _ => 1) rays k
    simp only [mul_one] at this
    exact this
  unfold SensorGrid.collectDirection
  rw [histogram_counted, histogram_counted]
  simp only [h, if_true, hd, Complex.ofReal_re, Complex.ofReal_im, mul_zero]
  rw [himage]
  simp

/-- **C42**: and if the rays travel towards the sensor it is a cosine. -/
theorem C42_ideal_range {s : Camera} {hc : ℝ} (hm : s.material = idealSensorMaterial hc)
    (hf : s.system.sensor.surface.sag = flatSag) (edges : List ℝ) (rays : List Ray) (k : ℕ × ℕ × ℕ)
    (hI : ∀ r ∈ rays, 0 ≤ r.intensity) (hu : ∀ r ∈ rays, r.direction.dot r.direction = 1) (hz : ∀ r ∈ rays, 0 < r.direction.z)
    (h : 0 < s.pixels.collect edges (fun _ => true) rays k) :
    ∃ c : ℝ, s.pixels.collectDirection edges (fun _ => true) s.refracted rays k = c ∧ 0 < c ∧ c ≤ 1 := by
  have hS : Convex ℝ {z : ℂ | 0 < z.re ∧ z.re ≤ 1} :=
    (convex_halfSpace_re_gt 0).inter (convex_halfSpace_re_le 1)
  refine ⟨_, C42_ideal hm hf edges rays k h, ?_⟩
  have := C42_mean (direction := s.refracted) hI h hS (fun r hr => ?_)
  · rw [C42_ideal hm hf edges rays k h] at this
    simpa using this
  · have hr' := (List.mem_filter.1 hr).1
    have e : s.refracted r = ((r.direction.z : ℝ) : ℂ) := by
      have e : flatSag.normal r.position = some ⟨0, 0, -1⟩ := rfl
      unfold Camera.refracted
      rw [hf, e, hm]
      change ((idealDirectionRefracted r.direction ⟨0, 0, -1⟩ : ℝ) : ℂ) = _
      rw [C50_ideal_direction _ _ _ e]
    rw [e]
    refine ⟨by simpa using hz r hr', ?_⟩
    have := hu r hr'
    simp only [V3.dot] at this
    simp only [Complex.ofReal_re]
    nlinarith [sq_nonneg r.direction.x, sq_nonneg r.direction.y]

/-- A ray on the axis and an oblique one: the mean is in the middle. -/
example : (Camera.mk (planes none) ⟨2, 2, 1, 1⟩ (idealSensorMaterial 1) 1 true).pixels.collectDirection [1 / 2, 3 / 2]
    (fun _ => true) (Camera.mk (planes none) ⟨2, 2, 1, 1⟩ (idealSensorMaterial 1) 1 true).refracted
    [straightRay, obliqueRay] (0, 0, 0) = ((4 / 5 : ℝ) : ℂ) := by
  have b1 : (⟨2, 2, 1, 1⟩ : SensorGrid).bin [1 / 2, 3 / 2] straightRay = some (0, 0, 0) :=
    siliconCamera_bin _ (Or.inl rfl)
  have b2 : (⟨2, 2, 1, 1⟩ : SensorGrid).bin [1 / 2, 3 / 2] obliqueRay = some (0, 0, 0) :=
    siliconCamera_bin _ (Or.inr rfl)
  rw [C42_ideal (hc := 1) rfl rfl]
  · simp only [SensorGrid.counted, List.filter_cons, b1, b2, List.filter_nil]
    simp [straightRay, obliqueRay]
    norm_num
  · simp only [SensorGrid.collect, SensorGrid.histogram, List.map_cons, List.map_nil, b1, b2]
    simp [rayFlux, straightRay, obliqueRay]

end Optika
