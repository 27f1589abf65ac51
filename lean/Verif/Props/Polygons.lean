import Verif.Props.Apertures
import Verif.Model.Mixins

/-!
# C18: polygonal apertures

The point-in-polygon test belongs to named_arrays.  Here it is anything that decides convex polygons correctly.
-/

namespace Optika

/-! ## Specification -/

/-- Twice the area of a triangle, positive if it is traversed counterclockwise. -/
def turn (a b p : V3) : ℝ := (b.x - a.x) * (p.y - a.y) - (b.y - a.y) * (p.x - a.x)

/-- The vertices of a polygon, going around. -/
def corner (vs : List V3) (i : ℕ) : V3 := vs.getD (i % vs.length) 0

/-- A strictly convex polygon, traversed counterclockwise (`s = 1`) or clockwise (`s = -1`). -/
structure ConvexPolygon (s : ℝ) (vs : List V3) : Prop where
  sign : s = 1 ∨ s = -1
  three : 3 ≤ vs.length
  left : ∀ i < vs.length, ∀ j < vs.length, j ≠ i → j ≠ (i + 1) % vs.length →
    0 < s * turn (corner vs i) (corner vs (i + 1)) (corner vs j)

/-- A test that accepts the points inside of convex polygons and rejects those outside; nothing is assumed about
points on the sides and about other polygons. -/
structure PolygonTest (pip : List V3 → V3 → Bool) : Prop where
  inside : ∀ {s vs p}, ConvexPolygon s vs →
    (∀ i < vs.length, 0 < s * turn (corner vs i) (corner vs (i + 1)) p) → pip vs p = true
  outside : ∀ {s vs p}, ConvexPolygon s vs → ∀ i < vs.length,
    s * turn (corner vs i) (corner vs (i + 1)) p < 0 → pip vs p = false

/-- There are such tests. -/
theorem polygonTest_exists : ∃ pip, PolygonTest pip := by
  classical
  refine ⟨fun vs p => decide (∃ s, ConvexPolygon s vs ∧
    ∀ i < vs.length, 0 < s * turn (corner vs i) (corner vs (i + 1)) p), ⟨?_, ?_⟩⟩
  · intro s vs p hc h
    exact decide_eq_true ⟨s, hc, h⟩
  · intro s vs p hc i hi h
    apply decide_eq_false
    rintro ⟨s', hc', h'⟩
    have h3 := hc.three
    have a := hc.left 0 (by omega) 2 (by omega) (by omega) (by rw [Nat.mod_eq_of_lt (by omega)]; omega)
    have b := hc'.left 0 (by omega) 2 (by omega) (by omega) (by rw [Nat.mod_eq_of_lt (by omega)]; omega)
    have c := h' i hi
    rcases hc.sign with rfl | rfl <;> rcases hc'.sign with rfl | rfl <;> linarith

/-! ## Trapezoids -/

theorem trapezoid_convex {l r m : ℝ} (hl : 0 < l) (hlr : l < r) (hm : 0 < m) :
    ConvexPolygon (-1) [⟨l, m * l, 0⟩, ⟨r, m * r, 0⟩, ⟨r, -(m * r), 0⟩, ⟨l, -(m * l), 0⟩] := by
  refine ⟨Or.inr rfl, by simp, ?_⟩
  have h1 : 0 < m * (r - l) := mul_pos hm (by linarith)
  have h2 : 0 < m * (r - l) * r := mul_pos h1 (by linarith)
  have h3 : 0 < m * (r - l) * l := mul_pos h1 hl
  intro i hi j hj hji hj1
  simp only [List.length_cons, List.length_nil] at hi hj hj1
  have : i = 0 ∨ i = 1 ∨ i = 2 ∨ i = 3 := by omega
  have : j = 0 ∨ j = 1 ∨ j = 2 ∨ j = 3 := by omega
  rcases ‹i = 0 ∨ i = 1 ∨ i = 2 ∨ i = 3› with rfl | rfl | rfl | rfl <;>
    rcases ‹j = 0 ∨ j = 1 ∨ j = 2 ∨ j = 3› with rfl | rfl | rfl | rfl <;>
    first
      | (exfalso; omega)
      | (simp [corner, turn]; nlinarith)

/-- A trapezoidal aperture to the right of the apex accepts the points between the two bases and the
two legs, and rejects the points outside. -/
theorem trapezoid_test {pip : List V3 → V3 → Bool} (hp : PolygonTest pip) {l r α : ℝ} (hl : 0 < l) (hlr : l < r)
    (h0 : 0 < α) (hπ : α < Real.pi) (q : V3) :
    ((l < q.x ∧ q.x < r ∧ |q.y| < Real.tan (α / 2) * q.x) → pip (trapezoidVertices l r α) q = true) ∧
    ((q.x < l ∨ r < q.x ∨ Real.tan (α / 2) * q.x < |q.y|) → pip (trapezoidVertices l r α) q = false) := by
  have hm : 0 < Real.tan (α / 2) := Real.tan_pos_of_pos_of_lt_pi_div_two (by linarith) (by linarith)
  unfold trapezoidVertices
  generalize Real.tan (α / 2) = m at *
  have hc := trapezoid_convex hl hlr hm
  have hr : 0 < r - l := by linarith
  constructor
  · rintro ⟨h1, h2, h3⟩
    obtain ⟨h4, h5⟩ := abs_lt.1 h3
    refine hp.inside hc fun i hi => ?_
    simp only [List.length_cons, List.length_nil] at hi
    have : i = 0 ∨ i = 1 ∨ i = 2 ∨ i = 3 := by omega
    rcases this with rfl | rfl | rfl | rfl <;> simp [corner, turn]
    · nlinarith
    · nlinarith [mul_pos (mul_pos hm (by linarith : 0 < r)) (by linarith : 0 < r - q.x)]
    · nlinarith
    · nlinarith [mul_pos (mul_pos hm hl) (by linarith : 0 < q.x - l)]
  · rintro (h | h | h)
    · refine hp.outside hc 3 (by simp) ?_
      simp [corner, turn]
      nlinarith [mul_pos (mul_pos hm hl) (by linarith : 0 < l - q.x)]
    · refine hp.outside hc 1 (by simp) ?_
      simp [corner, turn]
      nlinarith [mul_pos (mul_pos hm (by linarith : 0 < r)) (by linarith : 0 < q.x - r)]
    · rcases lt_abs.1 h with h | h
      · refine hp.outside hc 0 (by simp) ?_
        simp [corner, turn]
        nlinarith
      · refine hp.outside hc 2 (by simp) ?_
        simp [corner, turn]
        nlinarith

/-! ## Regular polygons -/

theorem regular_corner {ρ : ℝ} {n : ℕ} (hn : 0 < n) (i : ℕ) :
    corner (regularVertices ρ n) i = ⟨ρ * Real.cos (2 * Real.pi * i / n), ρ * Real.sin (2 * Real.pi * i / n), 0⟩ := by
  have hlen : (regularVertices ρ n).length = n := by simp [regularVertices]
  unfold corner
  rw [hlen, List.getD_eq_getElem?_getD]
  unfold regularVertices
  rw [List.getElem?_map, List.getElem?_range (Nat.mod_lt i hn)]
  simp only [Option.map_some, Option.getD_some]
  have hn0 : (n : ℝ) ≠ 0 := by positivity
  have e : 2 * Real.pi * (i : ℝ) / n = 2 * Real.pi * ((i % n : ℕ) : ℝ) / n + ((i / n : ℕ) : ℝ) * (2 * Real.pi) := by
    have : (i : ℝ) = ((i % n : ℕ) : ℝ) + n * ((i / n : ℕ) : ℝ) := by
      exact_mod_cast (Nat.mod_add_div i n).symm
    rw [this]
    field_simp
  rw [e, Real.cos_add_nat_mul_two_pi, Real.sin_add_nat_mul_two_pi]

/-- The side of a regular polygon, seen from a point. -/
theorem regular_turn {ρ : ℝ} {n : ℕ} (hn : 0 < n) (i : ℕ) (p : V3) :
    turn (corner (regularVertices ρ n) i) (corner (regularVertices ρ n) (i + 1)) p
      = 2 * ρ * Real.sin (Real.pi / n) * (ρ * Real.cos (Real.pi / n)
        - (p.x * Real.cos (Real.pi * (2 * i + 1) / n) + p.y * Real.sin (Real.pi * (2 * i + 1) / n))) := by
  have hn0 : (n : ℝ) ≠ 0 := by positivity
  rw [regular_corner hn, regular_corner hn]
  have e1 : 2 * Real.pi * (i : ℝ) / n = Real.pi * (2 * i + 1) / n - Real.pi / n := by field_simp; ring
  have e2 : 2 * Real.pi * ((i + 1 : ℕ) : ℝ) / n = Real.pi * (2 * i + 1) / n + Real.pi / n := by
    push_cast; field_simp; ring
  rw [e1, e2]
  generalize Real.pi * (2 * i + 1) / n = a
  generalize Real.pi / (n : ℝ) = b
  simp only [turn, Real.cos_add, Real.cos_sub, Real.sin_add, Real.sin_sub]
  have := Real.sin_sq_add_cos_sq a
  linear_combination 2 * ρ ^ 2 * Real.sin b * Real.cos b * this

theorem regular_convex {ρ : ℝ} {n : ℕ} (hρ : 0 < ρ) (hn : 3 ≤ n) : ConvexPolygon 1 (regularVertices ρ n) := by
  have hlen : (regularVertices ρ n).length = n := by simp [regularVertices]
  refine ⟨Or.inl rfl, by omega, ?_⟩
  rw [hlen]
  intro i hi j hj hji hj1
  have hn0 : (0 : ℝ) < n := by positivity
  have hπ := Real.pi_pos
  have hs : 0 < Real.sin (Real.pi / n) := Real.sin_pos_of_pos_of_lt_pi (by positivity) (by
    rw [div_lt_iff₀ hn0]; have : (1 : ℝ) < n := by exact_mod_cast (by omega : 1 < n)
    nlinarith)
  rw [one_mul, regular_turn (by omega), regular_corner (by omega)]
  have e : ρ * Real.cos (Real.pi / n) - (ρ * Real.cos (2 * Real.pi * j / n) * Real.cos (Real.pi * (2 * i + 1) / n)
      + ρ * Real.sin (2 * Real.pi * j / n) * Real.sin (Real.pi * (2 * i + 1) / n))
      = 2 * ρ * (Real.sin (Real.pi * (j - i) / n) * Real.sin (Real.pi * (j - i - 1) / n)) := by
    have a1 : Real.cos (Real.pi * (2 * (j - i) - 1) / n) = Real.cos (2 * Real.pi * j / n) * Real.cos (Real.pi * (2 * i + 1) / n)
      + Real.sin (2 * Real.pi * j / n) * Real.sin (Real.pi * (2 * i + 1) / n) := by
      rw [← Real.cos_sub]; congr 1; ring
    have a2 : Real.pi * (2 * ((j : ℝ) - i) - 1) / n = Real.pi * (j - i) / n + Real.pi * (j - i - 1) / n := by ring
    have a3 : Real.pi / (n : ℝ) = Real.pi * (j - i) / n - Real.pi * (j - i - 1) / n := by ring
    rw [a2] at a1
    rw [a3]
    rw [Real.cos_add] at a1
    rw [Real.cos_sub]
    linear_combination ρ * a1
  simp only
  rw [e]
  have key : 0 < Real.sin (Real.pi * (j - i) / n) * Real.sin (Real.pi * (j - i - 1) / n) := by
    have hpos : ∀ x : ℝ, 0 < x → x < n → 0 < Real.sin (Real.pi * x / n) := fun x h0 h1 =>
      Real.sin_pos_of_pos_of_lt_pi (by positivity) (by rw [div_lt_iff₀ hn0]; nlinarith)
    have hji' : i + 1 < j ∨ j < i := by
      rcases Nat.lt_or_ge j i with h | h
      · exact Or.inr h
      · left
        have : j ≠ i + 1 := by
          intro h'
          rw [Nat.mod_eq_of_lt (by omega)] at hj1
          exact hj1 h'
        omega
    have hjn : (j : ℝ) < n := by exact_mod_cast hj
    have hin : (i : ℝ) < n := by exact_mod_cast hi
    rcases hji' with h | h
    · have h' : (i : ℝ) + 1 < j := by exact_mod_cast h
      exact mul_pos (hpos _ (by linarith) (by have : (0 : ℝ) ≤ i := by positivity
                                              linarith))
        (hpos _ (by linarith) (by have : (0 : ℝ) ≤ i := by positivity
                                  linarith))
    · have h' : (j : ℝ) + 1 ≤ i := by exact_mod_cast h
      have hcase : ¬ (j = 0 ∧ i + 1 = n) := by
        rintro ⟨rfl, h2⟩
        apply hj1
        rw [h2, Nat.mod_self]
      have h2 : (i : ℝ) + 1 - j < n := by
        have : i + 1 < n + j := by omega
        have : (i : ℝ) + 1 < n + j := by exact_mod_cast this
        linarith
      have a := hpos (i - j) (by linarith) (by linarith)
      have b := hpos (i + 1 - j) (by linarith) (by linarith)
      have e1 : Real.pi * ((j : ℝ) - i) / n = -(Real.pi * (i - j) / n) := by ring
      have e2 : Real.pi * ((j : ℝ) - i - 1) / n = -(Real.pi * (i + 1 - j) / n) := by ring
      rw [e1, e2, Real.sin_neg, Real.sin_neg, neg_mul_neg]
      exact mul_pos a b
  positivity

/-- A regular polygonal aperture accepts the points on the inner side of every side, and rejects the
points beyond one of them. -/
theorem regular_test {pip : List V3 → V3 → Bool} (hp : PolygonTest pip) {ρ : ℝ} {n : ℕ} (hρ : 0 < ρ) (hn : 3 ≤ n)
    (q : V3) :
    ((∀ i < n, q.x * Real.cos (Real.pi * (2 * i + 1) / n) + q.y * Real.sin (Real.pi * (2 * i + 1) / n)
      < ρ * Real.cos (Real.pi / n)) → pip (regularVertices ρ n) q = true) ∧
    (∀ i < n, ρ * Real.cos (Real.pi / n)
        < q.x * Real.cos (Real.pi * (2 * i + 1) / n) + q.y * Real.sin (Real.pi * (2 * i + 1) / n) →
      pip (regularVertices ρ n) q = false) := by
  have hlen : (regularVertices ρ n).length = n := by simp [regularVertices]
  have hn0 : (0 : ℝ) < n := by positivity
  have hs : 0 < Real.sin (Real.pi / n) := Real.sin_pos_of_pos_of_lt_pi (by positivity) (by
    rw [div_lt_iff₀ hn0]; have : (1 : ℝ) < n := by exact_mod_cast (by omega : 1 < n)
    nlinarith [Real.pi_pos])
  have hc := regular_convex hρ hn
  constructor
  · intro h
    refine hp.inside hc fun i hi => ?_
    rw [hlen] at hi
    rw [one_mul, regular_turn (by omega)]
    have := h i hi
    have h2 : 0 < 2 * ρ * Real.sin (Real.pi / n) := by positivity
    exact mul_pos h2 (by linarith)
  · intro i hi h
    refine hp.outside hc i (by rw [hlen]; exact hi) ?_
    rw [one_mul, regular_turn (by omega)]
    have h2 : 0 < 2 * ρ * Real.sin (Real.pi / n) := by positivity
    exact mul_neg_of_pos_of_neg h2 (by linarith)

/-- The disk inside of a regular polygonal aperture is accepted. -/
theorem regular_inscribed {pip : List V3 → V3 → Bool} (hp : PolygonTest pip) {ρ : ℝ} {n : ℕ} (hρ : 0 < ρ)
    (hn : 3 ≤ n) (q : V3) (hq : Real.sqrt (q.x ^ 2 + q.y ^ 2) < ρ * Real.cos (Real.pi / n)) :
    pip (regularVertices ρ n) q = true := by
  refine (regular_test hp hρ hn q).1 fun i _ => lt_of_le_of_lt ?_ hq
  apply Real.le_sqrt_of_sq_le
  have := Real.sin_sq_add_cos_sq (Real.pi * (2 * i + 1) / n)
  nlinarith [sq_nonneg (q.x * Real.sin (Real.pi * (2 * i + 1) / n) - q.y * Real.cos (Real.pi * (2 * i + 1) / n))]

/-- Nothing outside of the circle through its vertices is accepted. -/
theorem regular_circumscribed {pip : List V3 → V3 → Bool} (hp : PolygonTest pip) {ρ : ℝ} {n : ℕ} (hρ : 0 < ρ)
    (hn : 3 ≤ n) (q : V3) (hq : ρ < Real.sqrt (q.x ^ 2 + q.y ^ 2)) :
    pip (regularVertices ρ n) q = false := by
  have hn0 : (0 : ℝ) < n := by positivity
  have hπ := Real.pi_pos
  set R := Real.sqrt (q.x ^ 2 + q.y ^ 2) with hR
  have hRpos : 0 < R := hρ.trans hq
  -- the direction of the point
  obtain ⟨θ, hx, hy⟩ : ∃ θ, q.x = R * Real.cos θ ∧ q.y = R * Real.sin θ := by
    have e : ‖(⟨q.x, q.y⟩ : ℂ)‖ = R := by
      rw [Complex.norm_def, Complex.normSq_mk, hR]; congr 1; ring
    refine ⟨Complex.arg ⟨q.x, q.y⟩, ?_, ?_⟩
    · have := Complex.norm_mul_cos_arg (⟨q.x, q.y⟩ : ℂ)
      rw [e] at this; exact this.symm
    · have := Complex.norm_mul_sin_arg (⟨q.x, q.y⟩ : ℂ)
      rw [e] at this; exact this.symm
  -- the side it looks at
  set m : ℤ := ⌊(n : ℝ) * θ / (2 * Real.pi)⌋ with hm
  have m1 : (m : ℝ) * (2 * Real.pi) ≤ n * θ := by
    have := Int.floor_le ((n : ℝ) * θ / (2 * Real.pi))
    rwa [le_div_iff₀ (by positivity)] at this
  have m2 : (n : ℝ) * θ < (m + 1) * (2 * Real.pi) := by
    have := Int.lt_floor_add_one ((n : ℝ) * θ / (2 * Real.pi))
    rwa [div_lt_iff₀ (by positivity)] at this
  have hk0 : 0 ≤ m % (n : ℤ) := Int.emod_nonneg _ (by omega)
  have hk1 : m % (n : ℤ) < n := Int.emod_lt_of_pos _ (by omega)
  obtain ⟨k, hk⟩ := Int.eq_ofNat_of_zero_le hk0
  have hkn : k < n := by omega
  refine (regular_test hp hρ hn q).2 k hkn ?_
  have hmk : (m : ℝ) = k + n * ((m / (n : ℤ) : ℤ) : ℝ) := by
    have := Int.emod_add_mul_ediv m n
    rw [hk] at this
    exact_mod_cast this.symm
  have e : q.x * Real.cos (Real.pi * (2 * k + 1) / n) + q.y * Real.sin (Real.pi * (2 * k + 1) / n)
      = R * Real.cos (θ - Real.pi * (2 * m + 1) / n) := by
    have e1 : θ - Real.pi * (2 * m + 1) / n
        = θ - Real.pi * (2 * k + 1) / n - ((m / (n : ℤ) : ℤ) : ℝ) * (2 * Real.pi) := by
      rw [hmk]; field_simp; ring
    rw [e1, Real.cos_sub_int_mul_two_pi, Real.cos_sub, hx, hy]
    ring
  rw [e]
  have hc : Real.cos (Real.pi / n) ≤ Real.cos (θ - Real.pi * (2 * m + 1) / n) := by
    rw [← Real.cos_abs (θ - _)]
    refine Real.cos_le_cos_of_nonneg_of_le_pi (abs_nonneg _) ?_ ?_
    · rw [div_le_iff₀ hn0]
      have : (1 : ℝ) ≤ n := by exact_mod_cast (by omega : 1 ≤ n)
      nlinarith
    · have e2 : θ - Real.pi * (2 * m + 1) / n = (n * θ - Real.pi * (2 * m + 1)) / n := by field_simp
      rw [e2, abs_div, abs_of_pos hn0]
      gcongr
      rw [abs_le]
      constructor <;> linarith
  have hcpos : 0 < Real.cos (Real.pi / n) := by
    apply Real.cos_pos_of_mem_Ioo
    constructor
    · have : 0 < Real.pi / n := by positivity
      linarith
    · have : (2 : ℝ) < n := by exact_mod_cast (by omega : 2 < n)
      gcongr
  nlinarith

/-! ## Apertures -/

/-- **C18**: a trapezoidal aperture to the right of its apex accepts the points between its two bases and its two
legs and rejects the points outside; if it is inverted it is the other way around, and if it is not active it
accepts everything.  (The apex itself, `x_left = 0`, is a quadrilateral with a repeated vertex.) -/
theorem C18_trapezoid {pip : List V3 → V3 → Bool} (hp : PolygonTest pip) {l r α : ℝ} (hl : 0 < l) (hlr : l < r)
    (h0 : 0 < α) (hπ : α < Real.pi) (active inverted : Bool) (g : Option Rigid) (q : V3) :
    ((l < q.x ∧ q.x < r ∧ |q.y| < Real.tan (α / 2) * q.x) →
      (polygonMask pip (trapezoidVertices l r α) active inverted g (toParent g q) = true ↔
        Accepts active inverted True)) ∧
    ((q.x < l ∨ r < q.x ∨ Real.tan (α / 2) * q.x < |q.y|) →
      (polygonMask pip (trapezoidVertices l r α) active inverted g (toParent g q) = true ↔
        Accepts active inverted False)) := by
  obtain ⟨a, b⟩ := trapezoid_test hp hl hlr h0 hπ q
  constructor <;> intro h <;> rw [C18_polygon]
  · simp [a h]
  · simp [b h]

/-- **C18**: a regular polygonal aperture accepts the points on the inner side of all of its sides, and rejects
the points beyond one of them: the sides are `ρ cos (π / n)` away from the centre, and look in the directions
`π (2 i + 1) / n`. -/
theorem C18_regular {pip : List V3 → V3 → Bool} (hp : PolygonTest pip) {ρ : ℝ} {n : ℕ} (hρ : 0 < ρ) (hn : 3 ≤ n)
    (active inverted : Bool) (g : Option Rigid) (q : V3) :
    ((∀ i < n, q.x * Real.cos (Real.pi * (2 * i + 1) / n) + q.y * Real.sin (Real.pi * (2 * i + 1) / n)
        < ρ * Real.cos (Real.pi / n)) →
      (polygonMask pip (regularVertices ρ n) active inverted g (toParent g q) = true ↔
        Accepts active inverted True)) ∧
    ((∃ i < n, ρ * Real.cos (Real.pi / n)
        < q.x * Real.cos (Real.pi * (2 * i + 1) / n) + q.y * Real.sin (Real.pi * (2 * i + 1) / n)) →
      (polygonMask pip (regularVertices ρ n) active inverted g (toParent g q) = true ↔
        Accepts active inverted False)) := by
  obtain ⟨a, b⟩ := regular_test hp hρ hn q
  constructor <;> intro h <;> rw [C18_polygon]
  · simp [a h]
  · obtain ⟨i, hi, h⟩ := h
    simp [b i hi h]

/-- **C18**: whatever the number of its sides, a regular polygonal aperture accepts the disk inside of its sides
and nothing outside of the circle of its radius. -/
theorem C18_regular_circles {pip : List V3 → V3 → Bool} (hp : PolygonTest pip) {ρ : ℝ} {n : ℕ} (hρ : 0 < ρ)
    (hn : 3 ≤ n) (active inverted : Bool) (g : Option Rigid) (q : V3) :
    (Real.sqrt (q.x ^ 2 + q.y ^ 2) < ρ * Real.cos (Real.pi / n) →
      (polygonMask pip (regularVertices ρ n) active inverted g (toParent g q) = true ↔
        Accepts active inverted True)) ∧
    (ρ < Real.sqrt (q.x ^ 2 + q.y ^ 2) →
      (polygonMask pip (regularVertices ρ n) active inverted g (toParent g q) = true ↔
        Accepts active inverted False)) := by
  constructor <;> intro h <;> rw [C18_polygon]
  · simp [regular_inscribed hp hρ hn q h]
  · simp [regular_circumscribed hp hρ hn q h]

/-- The coordinates of a point in the frame of a rolled aperture. -/
theorem rolled_point (R a θ : ℝ) :
    toLocal (some (rotationZ θ)) ⟨R * Real.cos a, R * Real.sin a, 0⟩
      = ⟨R * Real.cos (a - θ), R * Real.sin (a - θ), 0⟩ := by
  apply V3.ext <;>
    simp [toLocal, Rigid.ipoint, rotationZ, M3.transpose, M3.mulVec, V3.dot, Real.cos_sub, Real.sin_sub] <;> ring

/-- **C18**: `n` trapezoidal apertures of the angle `2 π / n`, rolled by the multiples of this angle, divide a
circle into sectors: a point inside of one of them is accepted by this one and by no other. -/
theorem C18_sectors {pip : List V3 → V3 → Bool} (hp : PolygonTest pip) {l r : ℝ} (hl : 0 < l) (hlr : l < r)
    {n : ℕ} (hn : 3 ≤ n) {R φ : ℝ} {j : ℕ} (hj : j < n) (hφ : |φ| < Real.pi / n) (h1 : l < R * Real.cos φ)
    (h2 : R * Real.cos φ < r) {k : ℕ} (hk : k < n) :
    polygonMask pip (trapezoidVertices l r (2 * Real.pi / n)) true false (some (rotationZ (2 * Real.pi * k / n)))
      ⟨R * Real.cos (2 * Real.pi * j / n + φ), R * Real.sin (2 * Real.pi * j / n + φ), 0⟩ = true ↔ k = j := by
  have hn0 : (0 : ℝ) < n := by positivity
  have hπ := Real.pi_pos
  have hn3 : (3 : ℝ) ≤ n := by exact_mod_cast hn
  have hπn : 0 < Real.pi / n := by positivity
  have hπ2 : Real.pi / n < Real.pi / 2 := by gcongr; linarith
  have hπ3 : Real.pi / n * n = Real.pi := by field_simp
  have hφ2 := abs_lt.1 hφ
  have hcφ : 0 < Real.cos φ := Real.cos_pos_of_mem_Ioo ⟨by linarith, by linarith⟩
  have hR : 0 < R := by
    by_contra h
    have := mul_nonpos_of_nonpos_of_nonneg (not_lt.1 h) hcφ.le
    linarith
  have hs : 0 < Real.sin (Real.pi / n) := Real.sin_pos_of_pos_of_lt_pi hπn (by linarith)
  have hc : 0 < Real.cos (Real.pi / n) := Real.cos_pos_of_mem_Ioo ⟨by linarith, by linarith⟩
  have hα : 2 * Real.pi / n / 2 = Real.pi / n := by ring
  have hα0 : 0 < 2 * Real.pi / n := by positivity
  have hαπ : 2 * Real.pi / n < Real.pi := by rw [div_lt_iff₀ hn0]; nlinarith
  have ht : ∀ a, Real.tan (2 * Real.pi / n / 2) * (R * Real.cos a) < |R * Real.sin a| ↔
      Real.sin (Real.pi / n) * Real.cos a < |Real.sin a| * Real.cos (Real.pi / n) := by
    intro a
    rw [hα, Real.tan_eq_sin_div_cos, abs_mul, abs_of_pos hR, div_mul_eq_mul_div, div_lt_iff₀ hc,
      ← mul_lt_mul_iff_of_pos_left hR (b := Real.sin (Real.pi / n) * Real.cos a)]
    ring_nf
  have mask : ∀ v : V3, polygonMask pip (trapezoidVertices l r (2 * Real.pi / n)) true false
      (some (rotationZ (2 * Real.pi * k / n))) v
      = pip (trapezoidVertices l r (2 * Real.pi / n)) (toLocal (some (rotationZ (2 * Real.pi * k / n))) v) := by
    intro v; simp [polygonMask, applyFlags]
  rw [mask, rolled_point]
  constructor
  · intro h
    by_contra hkj
    have := (trapezoid_test hp hl hlr hα0 hαπ ⟨R * Real.cos (2 * Real.pi * j / n + φ - 2 * Real.pi * k / n),
      R * Real.sin (2 * Real.pi * j / n + φ - 2 * Real.pi * k / n), 0⟩).2 (Or.inr (Or.inr ?_))
    · rw [this] at h; exact absurd h (by decide)
    · simp only
      rw [ht]
      set ψ := 2 * Real.pi * j / n + φ - 2 * Real.pi * k / n with hψ
      have hψ' : ψ = 2 * (Real.pi / n) * ((j : ℝ) - k) + φ := by rw [hψ]; ring
      rw [← Real.cos_abs ψ]
      have hsin : |Real.sin ψ| = |Real.sin (|ψ|)| := by
        rcases abs_cases ψ with ⟨h, _⟩ | ⟨h, _⟩ <;> rw [h]
        rw [Real.sin_neg, abs_neg]
      rw [hsin]
      have hd : 1 ≤ |(j : ℝ) - k| := by
        have : (1 : ℤ) ≤ |(j : ℤ) - k| := Int.one_le_abs (by omega)
        exact_mod_cast this
      have hd2 : |(j : ℝ) - k| ≤ n - 1 := by
        rw [abs_le]
        have a1 : (j : ℝ) + 1 ≤ n := by exact_mod_cast hj
        have a2 : (k : ℝ) + 1 ≤ n := by exact_mod_cast hk
        have a3 : (0 : ℝ) ≤ j := by positivity
        have a4 : (0 : ℝ) ≤ k := by positivity
        constructor <;> linarith
      have habs : |2 * (Real.pi / n) * ((j : ℝ) - k)| = 2 * (Real.pi / n) * |(j : ℝ) - k| := by
        rw [abs_mul, abs_of_pos (by positivity)]
      have b1 : Real.pi / n < |ψ| := by
        rw [hψ']
        have := abs_sub_abs_le_abs_add (2 * (Real.pi / n) * ((j : ℝ) - k)) φ
        rw [habs] at this
        nlinarith
      have b2 : |ψ| < 2 * Real.pi - Real.pi / n := by
        rw [hψ']
        have := abs_add_le (2 * (Real.pi / n) * ((j : ℝ) - k)) φ
        rw [habs] at this
        nlinarith
      rcases le_total |ψ| Real.pi with h | h
      · have c := Real.sin_pos_of_pos_of_lt_pi (x := |ψ| - Real.pi / n) (by linarith) (by linarith)
        rw [Real.sin_sub] at c
        have := le_abs_self (Real.sin (|ψ|))
        nlinarith
      · have c := Real.sin_pos_of_pos_of_lt_pi (x := |ψ| + Real.pi / n - Real.pi) (by linarith) (by linarith)
        rw [Real.sin_sub_pi, Real.sin_add] at c
        have := neg_le_abs (Real.sin (|ψ|))
        nlinarith
  · rintro rfl
    have e : 2 * Real.pi * k / n + φ - 2 * Real.pi * k / n = φ := by ring
    rw [e]
    refine (trapezoid_test hp hl hlr hα0 hαπ ⟨R * Real.cos φ, R * Real.sin φ, 0⟩).1 ⟨h1, h2, ?_⟩
    have a1 := Real.sin_pos_of_pos_of_lt_pi (x := Real.pi / n - φ) (by linarith) (by linarith)
    have a2 := Real.sin_pos_of_pos_of_lt_pi (x := Real.pi / n + φ) (by linarith) (by linarith)
    rw [Real.sin_sub] at a1
    rw [Real.sin_add] at a2
    rw [hα, Real.tan_eq_sin_div_cos, div_mul_eq_mul_div, lt_div_iff₀ hc, abs_mul, abs_of_pos hR]
    have : |Real.sin φ| * Real.cos (Real.pi / n) < Real.sin (Real.pi / n) * Real.cos φ := by
      rcases abs_cases (Real.sin φ) with ⟨h, _⟩ | ⟨h, _⟩ <;> rw [h] <;> linarith
    nlinarith

/-- There is a triangle, and points inside and outside of it. -/
example : ∃ pip, PolygonTest pip ∧ pip (regularVertices 2 3) ⟨1 / 2, 1 / 2, 0⟩ = true
    ∧ pip (regularVertices 2 3) ⟨0, 3, 0⟩ = false
    ∧ pip (trapezoidVertices 1 2 (Real.pi / 2)) ⟨3 / 2, 1, 0⟩ = true
    ∧ pip (trapezoidVertices 1 2 (Real.pi / 2)) ⟨3 / 2, 2, 0⟩ = false := by
  obtain ⟨pip, hp⟩ := polygonTest_exists
  have ht : Real.tan (Real.pi / 2 / 2) = 1 := by
    rw [show Real.pi / 2 / 2 = Real.pi / 4 by ring, Real.tan_pi_div_four]
  have hπ := Real.pi_pos
  refine ⟨pip, hp, ?_, ?_, ?_, ?_⟩
  · refine regular_inscribed hp (by norm_num) (by norm_num) _ ?_
    rw [show ((3 : ℕ) : ℝ) = 3 by norm_num, Real.cos_pi_div_three]
    rw [Real.sqrt_lt' (by norm_num)]
    norm_num
  · refine regular_circumscribed hp (by norm_num) (by norm_num) _ ?_
    rw [Real.lt_sqrt (by norm_num)]
    norm_num
  · refine (trapezoid_test hp (by norm_num) (by norm_num) (by linarith) (by linarith) _).1 ?_
    rw [ht]; norm_num
  · refine (trapezoid_test hp (by norm_num) (by norm_num) (by linarith) (by linarith) _).2 ?_
    rw [ht]; norm_num

/-- There are four sectors. -/
example {pip : List V3 → V3 → Bool} (hp : PolygonTest pip) {k : ℕ} (hk : k < 4) :
    polygonMask pip (trapezoidVertices 1 2 (2 * Real.pi / (4 : ℕ))) true false
      (some (rotationZ (2 * Real.pi * k / (4 : ℕ))))
      ⟨3 / 2 * Real.cos (2 * Real.pi * (1 : ℕ) / (4 : ℕ) + 0),
        3 / 2 * Real.sin (2 * Real.pi * (1 : ℕ) / (4 : ℕ) + 0), 0⟩ = true ↔ k = 1 :=
  C18_sectors hp (by norm_num) (by norm_num) (by norm_num) (by norm_num)
    (by rw [abs_zero]; have := Real.pi_pos; positivity) (by norm_num) (by norm_num) hk

end Optika
