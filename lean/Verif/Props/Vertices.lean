import Verif.Props.Apertures
import Mathlib.Analysis.SpecialFunctions.Complex.Log
import Mathlib.RingTheory.RootsOfUnity.Complex
import Mathlib.Analysis.SpecialFunctions.Trigonometric.Basic

/-!
# C65: the vertices of polygonal apertures
-/

namespace Optika

/-- The point of the aperture plane as complex number. -/
def V3.planar (v : V3) : ℂ := ⟨v.x, v.y⟩

theorem regular_planar (R : ℝ) (n k : ℕ) :
    V3.planar ⟨R * Real.cos (2 * Real.pi * k / n), R * Real.sin (2 * Real.pi * k / n), 0⟩
      = R * Complex.exp (2 * Real.pi * Complex.I * (k / n)) := by
  have e : (2 * Real.pi * Complex.I * (k / n) : ℂ) = ((2 * Real.pi * k / n : ℝ) : ℂ) * Complex.I := by
    push_cast; ring
  rw [e, Complex.exp_mul_I, ← Complex.ofReal_cos, ← Complex.ofReal_sin]
  generalize Real.cos (2 * Real.pi * k / n) = c
  generalize Real.sin (2 * Real.pi * k / n) = s
  apply Complex.ext <;> simp [V3.planar]

/-- **C65**: a regular polygon has `n` different vertices, which are the corners of the regular
polygon with one of them at distance `radius` on the `x` axis: as complex numbers, all the solutions
of `zⁿ = radiusⁿ`. -/
theorem C65_regular {R : ℝ} (hR : 0 < R) {n : ℕ} (hn : 0 < n) :
    (regularVertices R n).length = n ∧ (regularVertices R n).Nodup ∧
    (∀ v ∈ regularVertices R n, v.z = 0) ∧
    ∀ z : ℂ, (∃ v ∈ regularVertices R n, v.planar = z) ↔ z ^ n = (R : ℂ) ^ n := by
  have hn' : (n : ℂ) ≠ 0 := by exact_mod_cast hn.ne'
  have hRc : (R : ℂ) ≠ 0 := by exact_mod_cast hR.ne'
  haveI : NeZero n := ⟨hn.ne'⟩
  have hprim := Complex.isPrimitiveRoot_exp n hn.ne'
  have hpow : ∀ k : ℕ, Complex.exp (2 * Real.pi * Complex.I * (k / n))
      = Complex.exp (2 * Real.pi * Complex.I / n) ^ k := by
    intro k
    rw [← Complex.exp_nat_mul]
    congr 1
    ring
  have hmem : ∀ v, v ∈ regularVertices R n ↔ ∃ k : ℕ, k < n ∧
      v = ⟨R * Real.cos (2 * Real.pi * k / n), R * Real.sin (2 * Real.pi * k / n), 0⟩ := by
    intro v
    simp only [regularVertices, List.mem_map, List.mem_range]
    constructor
    · rintro ⟨k, hk, rfl⟩; exact ⟨k, hk, rfl⟩
    · rintro ⟨k, hk, rfl⟩; exact ⟨k, hk, rfl⟩
  refine ⟨by simp [regularVertices], ?_, ?_, ?_⟩
  · unfold regularVertices
    apply List.Nodup.map_on _ List.nodup_range
    intro i hi j hj hij
    have h := congrArg V3.planar hij
    rw [regular_planar, regular_planar, hpow, hpow] at h
    exact hprim.pow_inj (List.mem_range.1 hi) (List.mem_range.1 hj) (mul_left_cancel₀ hRc h)
  · intro v hv
    obtain ⟨k, -, rfl⟩ := (hmem v).1 hv
    rfl
  · intro z
    constructor
    · rintro ⟨v, hv, rfl⟩
      obtain ⟨k, hk, rfl⟩ := (hmem v).1 hv
      rw [regular_planar, hpow, mul_pow, ← pow_mul, mul_comm k n, pow_mul, hprim.pow_eq_one, one_pow,
        mul_one]
    · intro hz
      have h1 : (z / R) ^ n = 1 := by
        rw [div_pow, hz, div_self (pow_ne_zero _ hRc)]
      obtain ⟨k, hk, hk2⟩ := hprim.eq_pow_of_pow_eq_one h1
      refine ⟨_, (hmem _).2 ⟨k, hk, rfl⟩, ?_⟩
      rw [regular_planar, hpow, hk2]
      field_simp

/-- **C65**: the vertices follow each other counterclockwise, at equal angles. -/
theorem C65_regular_order (R : ℝ) {n k : ℕ} (hk : k + 1 < n) :
    ((regularVertices R n).getD (k + 1) 0).planar
      = Complex.exp (2 * Real.pi * Complex.I / n) * ((regularVertices R n).getD k 0).planar := by
  have h : ∀ j : ℕ, j < n → ((regularVertices R n).getD j 0).planar
      = R * Complex.exp (2 * Real.pi * Complex.I * (j / n)) := by
    intro j hj
    rw [← regular_planar]
    congr 1
    simp [regularVertices, hj]
  rw [h _ hk, h k (by omega), mul_left_comm, ← Complex.exp_add]
  congr 2
  push_cast
  ring

/-- **C65**: a rectangular aperture has the four corners `(±half_width.x, ±half_width.y)`, in
counterclockwise order. -/
theorem C65_rectangle (hx hy : ℝ) : rectangleVertices hx hy
    = [⟨hx, hy, 0⟩, ⟨-hx, hy, 0⟩, ⟨-hx, -hy, 0⟩, ⟨hx, -hy, 0⟩] := rectangleVertices_eq hx hy

theorem trapezoid_leg {x angle : ℝ} (ha : Real.cos (angle / 2) ≠ 0) :
    (⟨x, Real.tan (angle / 2) * x⟩ : ℂ)
      = (x / Real.cos (angle / 2) : ℝ) * Complex.exp ((angle / 2 : ℝ) * Complex.I) := by
  rw [Complex.exp_mul_I, ← Complex.ofReal_cos, ← Complex.ofReal_sin, Real.tan_eq_sin_div_cos]
  generalize Real.cos (angle / 2) = c at *
  generalize Real.sin (angle / 2) = s
  apply Complex.ext
  · simp
    field_simp
  · simp
    field_simp

/-- **C65**: the two bases of a trapezoid are at `x_left` and `x_right` and perpendicular to the `x`
axis, the aperture is symmetric with respect to the `x` axis, and the upper leg lies on the line
through the origin that makes half of the angle with the `x` axis, so that the legs make the whole
angle. -/
theorem C65_trapezoid_partial (xl xr angle : ℝ) (ha : Real.cos (angle / 2) ≠ 0) :
    ∃ a b c d : V3, trapezoidVertices xl xr angle = [a, b, c, d] ∧
      (a.x = xl ∧ d.x = xl ∧ b.x = xr ∧ c.x = xr) ∧
      (a.z = 0 ∧ b.z = 0 ∧ c.z = 0 ∧ d.z = 0) ∧ d.y = -a.y ∧ c.y = -b.y ∧
      (∃ t : ℝ, a.planar = t * Complex.exp ((angle / 2 : ℝ) * Complex.I)) ∧
      (∃ t : ℝ, b.planar = t * Complex.exp ((angle / 2 : ℝ) * Complex.I)) :=
  ⟨_, _, _, _, rfl, ⟨rfl, rfl, rfl, rfl⟩, ⟨rfl, rfl, rfl, rfl⟩, rfl, rfl, ⟨_, trapezoid_leg ha⟩, ⟨_, trapezoid_leg ha⟩⟩

/-- **C65**: the legs of a trapezoid with both bases on the same side of the origin have no point in common. -/
theorem C65_legs_partial {xl xr angle : ℝ} (hx : 0 < xl * xr) (ha : Real.tan (angle / 2) ≠ 0) :
    ∃ a b c d : V3, trapezoidVertices xl xr angle = [a, b, c, d] ∧
      ∀ s t : ℝ, 0 ≤ s → s ≤ 1 → 0 ≤ t → t ≤ 1 → (1 - s) • a + s • b ≠ (1 - t) • c + t • d := by
  refine ⟨_, _, _, _, rfl, fun s t hs hs1 ht ht1 h => ?_⟩
  have h1 := congrArg V3.x h
  have h2 := congrArg V3.y h
  simp only [V3.add_x, V3.add_y, V3.smul_x, V3.smul_y] at h1 h2
  have h3 : Real.tan (angle / 2) * ((1 - s) * xl + s * xr) = 0 := by linear_combination h2 / 2 + Real.tan (angle / 2) * h1 / 2
  have h4 : (1 - s) * xl + s * xr = 0 := (mul_eq_zero.1 h3).resolve_left ha
  have h5 : xl ≠ 0 := fun h => by rw [h, zero_mul] at hx; exact lt_irrefl _ hx
  have h6 : (1 - s) * xl ^ 2 + s * (xl * xr) = 0 := by linear_combination xl * h4
  have h7 : 0 < xl ^ 2 := by positivity
  rcases hs.lt_or_eq with h | h
  · nlinarith [mul_pos h hx, mul_nonneg (sub_nonneg.2 hs1) h7.le]
  · subst h; linarith

/-- Disagreement with C65: if the origin is between the two bases, the legs cross each other at the
origin: the polygon is not a trapezoid. -/
theorem C65_crossed_counterexample {xl xr : ℝ} (angle : ℝ) (hl : xl < 0) (hr : 0 < xr) :
    ∃ a b c d : V3, trapezoidVertices xl xr angle = [a, b, c, d] ∧
      (∃ t : ℝ, 0 < t ∧ t < 1 ∧ (1 - t) • a + t • b = 0) ∧
      ∃ t : ℝ, 0 < t ∧ t < 1 ∧ (1 - t) • c + t • d = 0 := by
  have hd : 0 < xr - xl := by linarith
  refine ⟨_, _, _, _, rfl, ⟨-xl / (xr - xl), div_pos (by linarith) hd, ?_, ?_⟩,
    ⟨xr / (xr - xl), div_pos hr hd, ?_, ?_⟩⟩
  · rw [div_lt_one hd]; linarith
  · apply V3.ext <;> vsimp <;> field_simp <;> ring
  · rw [div_lt_one hd]; linarith
  · apply V3.ext <;> vsimp <;> field_simp <;> ring

/-- Hypotheses of the theorems above: an octagon, and a trapezoid with a right angle between its
legs. -/
example : (regularVertices 1 8).length = 8 ∧ Real.cos (Real.pi / 2 / 2) ≠ 0 := by
  refine ⟨(C65_regular one_pos (by norm_num)).1, ?_⟩
  rw [show Real.pi / 2 / 2 = Real.pi / 4 by ring, Real.cos_pi_div_four]
  positivity

end Optika
