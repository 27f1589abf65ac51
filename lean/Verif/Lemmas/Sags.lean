import Verif.Model.Sags
import Verif.Spec.Surface

namespace Optika
open V3

theorem conicHeight_eq_some {R k : ℝ} {p : V3} {z : ℝ} :
    conicHeight R k p = some z ↔
      R ≠ 0 ∧ 0 ≤ 1 - (1 + k) * (1 / R) ^ 2 * (p.x ^ 2 + p.y ^ 2) ∧
      z = (1 / R) * (p.x ^ 2 + p.y ^ 2) /
        (1 + Real.sqrt (1 - (1 + k) * (1 / R) ^ 2 * (p.x ^ 2 + p.y ^ 2))) := by
  unfold conicHeight
  simp only [Option.bind_eq_bind, Option.bind_eq_some_iff, div?_eq_some, sqrt?_eq_some]
  constructor
  · rintro ⟨_, ⟨hR, rfl⟩, _, ⟨hs, rfl⟩, -, rfl⟩
    exact ⟨hR, hs, rfl⟩
  · rintro ⟨hR, hs, rfl⟩
    refine ⟨_, ⟨hR, rfl⟩, _, ⟨hs, rfl⟩, ?_, rfl⟩
    have := Real.sqrt_nonneg (1 - (1 + k) * (1 / R) ^ 2 * (p.x ^ 2 + p.y ^ 2))
    linarith

/-- A point is on a conic sag exactly when it is on the quadric and on the sheet of the
vertex. -/
theorem onGraph_conic {R k : ℝ} {q : V3} :
    OnGraph (conicHeight R k) q ↔
      R ≠ 0 ∧ (1 / R) * (q.x ^ 2 + q.y ^ 2) + (1 + k) * (1 / R) * q.z ^ 2 - 2 * q.z = 0 ∧
      0 ≤ q.z * ((1 / R) * (q.x ^ 2 + q.y ^ 2) - q.z) := by
  unfold OnGraph
  rw [conicHeight_eq_some]
  set c := 1 / R
  set r2 := q.x ^ 2 + q.y ^ 2
  set z := q.z
  constructor
  · rintro ⟨hR, hP, hz⟩
    refine ⟨hR, ?_⟩
    have hs0 := Real.sqrt_nonneg (1 - (1 + k) * c ^ 2 * r2)
    have hss := Real.sq_sqrt hP
    set s := Real.sqrt (1 - (1 + k) * c ^ 2 * r2)
    have h1s : 0 < 1 + s := by linarith
    have hzs : z * (1 + s) = c * r2 := by rw [hz]; field_simp
    have hs : s = 1 - (1 + k) * c * z := by
      have : (1 + s) * (s - (1 - (1 + k) * c * z)) = 0 := by
        linear_combination hss + (1 + k) * c * hzs
      rcases mul_eq_zero.1 this with h | h
      · linarith
      · linarith
    refine ⟨?_, ?_⟩
    · have : c * r2 = z * (2 - (1 + k) * c * z) := by rw [← hzs, hs]; ring
      linear_combination this
    · have : z * (c * r2 - z) = z ^ 2 * s := by rw [← hzs]; ring
      rw [this]; positivity
  · rintro ⟨hR, hq, hsheet⟩
    have hP : 1 - (1 + k) * c ^ 2 * r2 = (1 - (1 + k) * c * z) ^ 2 := by
      linear_combination -(1 + k) * c * hq
    refine ⟨hR, by rw [hP]; positivity, ?_⟩
    rw [hP, Real.sqrt_sq_eq_abs]
    by_cases hz : z = 0
    · have : c * r2 = 0 := by rw [hz] at hq; linarith
      rw [this, hz]; simp
    · have h3 : z * (c * r2 - z) = z ^ 2 * (1 - (1 + k) * c * z) := by linear_combination z * hq
      rw [h3] at hsheet
      have hz2 : 0 < z ^ 2 := by positivity
      have hs := nonneg_of_mul_nonneg_right hsheet hz2
      rw [abs_of_nonneg hs]
      have hne : 1 + (1 - (1 + k) * c * z) ≠ 0 := by linarith
      rw [eq_div_iff hne]
      linear_combination -hq

theorem sphereHeight_eq_conic (R : ℝ) : sphereHeight R = conicHeight R 0 := by
  funext p; unfold sphereHeight conicHeight; simp

theorem onGraph_sphere {r : ℝ} {q : V3} :
    OnGraph (sphereHeight r) q ↔
      r ≠ 0 ∧ q.x ^ 2 + q.y ^ 2 + (q.z - r) ^ 2 = r ^ 2 ∧ r * q.z ≤ r ^ 2 := by
  rw [sphereHeight_eq_conic, onGraph_conic]
  constructor
  · rintro ⟨hr, h1, h2⟩
    have h1' : q.x ^ 2 + q.y ^ 2 = 2 * r * q.z - q.z ^ 2 := by
      field_simp at h1; linarith
    refine ⟨hr, by linarith [h1'], ?_⟩
    rw [h1'] at h2
    have h3 : q.z * (1 / r * (2 * r * q.z - q.z ^ 2) - q.z) = q.z ^ 2 * (r ^ 2 - r * q.z) / r ^ 2 := by
      field_simp; ring
    rw [h3] at h2
    by_cases hz : q.z = 0
    · rw [hz]; nlinarith [sq_nonneg r]
    · have hz2 : 0 < q.z ^ 2 := by positivity
      have hr2 : 0 < r ^ 2 := by positivity
      have := mul_nonneg h2 hr2.le
      rw [div_mul_cancel₀ _ hr2.ne'] at this
      have := nonneg_of_mul_nonneg_right this hz2
      linarith
  · rintro ⟨hr, h1, h2⟩
    have h1' : q.x ^ 2 + q.y ^ 2 = 2 * r * q.z - q.z ^ 2 := by linarith
    refine ⟨hr, ?_, ?_⟩
    · rw [h1']; field_simp; ring
    · rw [h1']
      have h3 : q.z * (1 / r * (2 * r * q.z - q.z ^ 2) - q.z) = q.z ^ 2 * (r ^ 2 - r * q.z) / r ^ 2 := by
        field_simp; ring
      rw [h3]
      have : 0 ≤ r ^ 2 - r * q.z := by linarith
      positivity

theorem onGraph_parabola {f : ℝ} {q : V3} :
    OnGraph (parabolaHeight f) q ↔ f ≠ 0 ∧ q.x ^ 2 + q.y ^ 2 = 4 * f * q.z := by
  have : parabolaHeight f = conicHeight (2 * f) (-1) := rfl
  rw [this, onGraph_conic]
  constructor
  · rintro ⟨h, h1, -⟩
    have hf : f ≠ 0 := by intro h0; apply h; rw [h0]; ring
    refine ⟨hf, ?_⟩
    field_simp at h1; linarith
  · rintro ⟨hf, h1⟩
    refine ⟨by simpa using hf, ?_, ?_⟩
    · rw [h1]; field_simp; ring
    · rw [h1]
      have : q.z * (1 / (2 * f) * (4 * f * q.z) - q.z) = q.z ^ 2 := by field_simp; ring
      rw [this]; positivity

theorem cylinderHeight_eq_sphere (r : ℝ) (p : V3) :
    cylinderHeight r p = sphereHeight r ⟨p.x, 0, p.z⟩ := by
  unfold cylinderHeight sphereHeight; simp

theorem onGraph_cylinder {r : ℝ} {q : V3} :
    OnGraph (cylinderHeight r) q ↔
      r ≠ 0 ∧ q.x ^ 2 + (q.z - r) ^ 2 = r ^ 2 ∧ r * q.z ≤ r ^ 2 := by
  have : OnGraph (cylinderHeight r) q ↔ OnGraph (sphereHeight r) ⟨q.x, 0, q.z⟩ := by
    unfold OnGraph; rw [cylinderHeight_eq_sphere]
  rw [this, onGraph_sphere]; simp

theorem sgn_of_pos {x : ℝ} (h : 0 < x) : sgn x = 1 := by
  unfold sgn; rw [if_neg (by linarith), if_neg h.ne']
theorem sgn_of_neg {x : ℝ} (h : x < 0) : sgn x = -1 := by unfold sgn; rw [if_pos h]
theorem sgn_zero : sgn 0 = 0 := by simp [sgn]
theorem sgn_sq {x : ℝ} (h : x ≠ 0) : sgn x * sgn x = 1 := by
  rcases lt_or_gt_of_ne h with h | h
  · rw [sgn_of_neg h]; ring
  · rw [sgn_of_pos h]; ring
theorem sgn_mul_self (x : ℝ) : sgn x * x = |x| := by
  rcases lt_trichotomy x 0 with h | h | h
  · rw [sgn_of_neg h, abs_of_neg h]; ring
  · rw [h, sgn_zero]; simp
  · rw [sgn_of_pos h, abs_of_pos h]; ring

/-- The quadratic polynomial in the path length solved by `conicRoot`. -/
theorem conic_quadratic (c kp1 : ℝ) (o u : V3) (t : ℝ) :
    c * ((o + t • u).x ^ 2 + (o + t • u).y ^ 2) + kp1 * c * (o + t • u).z ^ 2 - 2 * (o + t • u).z
      = c * (u.x ^ 2 + u.y ^ 2 + kp1 * u.z ^ 2) * t ^ 2
        + 2 * (c * (o.x * u.x + o.y * u.y + kp1 * o.z * u.z) - u.z) * t
        + (c * (o.x ^ 2 + o.y ^ 2 + kp1 * o.z ^ 2) - 2 * o.z) := by
  vsimp; ring

theorem conicRoot_sound {c kp1 : ℝ} {o u : V3} {s t : ℝ} (hs : s * s = 1)
    (hexact : c * (u.x ^ 2 + u.y ^ 2 + kp1 * u.z ^ 2) = 0 ∨
      1e-12 ≤ |c * (u.x ^ 2 + u.y ^ 2 + kp1 * u.z ^ 2)|)
    (h : conicRoot c kp1 o u s = some t) :
    c * ((o + t • u).x ^ 2 + (o + t • u).y ^ 2) + kp1 * c * (o + t • u).z ^ 2
        - 2 * (o + t • u).z = 0 ∧
      0 ≤ (o + t • u).z * (c * ((o + t • u).x ^ 2 + (o + t • u).y ^ 2) - (o + t • u).z) := by
  rw [conic_quadratic]
  unfold conicRoot at h
  simp only at h
  set a := c * (u.x ^ 2 + u.y ^ 2 + kp1 * u.z ^ 2) with ha
  set b := 2 * (c * (o.x * u.x + o.y * u.y + kp1 * o.z * u.z) - u.z) with hb
  set cc := c * (o.x ^ 2 + o.y ^ 2 + kp1 * o.z ^ 2) - 2 * o.z with hcc
  split at h
  · simp at h
  rename_i hdisc
  push Not at hdisc
  have hfin : ∀ t', (if (o.z + u.z * t') * (c * ((o.x + u.x * t') ^ 2 + (o.y + u.y * t') ^ 2)
      - (o.z + u.z * t')) ≥ 0 then some t' else none) = some t → t' = t ∧
      0 ≤ (o + t • u).z * (c * ((o + t • u).x ^ 2 + (o + t • u).y ^ 2) - (o + t • u).z) := by
    intro t' h
    split at h
    · rename_i hsheet
      simp only [Option.some.injEq] at h
      subst h
      refine ⟨rfl, ?_⟩
      vsimp
      have e : ∀ x y : ℝ, x + t' * y = x + y * t' := by intros; ring
      rw [e, e, e]
      exact hsheet
    · simp at h
  rcases hexact with h0 | h0
  · rw [if_pos (by rw [h0]; norm_num)] at h
    simp only [Option.bind_eq_bind, Option.bind_eq_some_iff] at h
    obtain ⟨t', ht', h⟩ := h
    obtain ⟨rfl, hsheet⟩ := hfin t' h
    refine ⟨?_, hsheet⟩
    obtain ⟨hb0, rfl⟩ := div?_eq_some.1 ht'
    rw [h0]; field_simp; ring
  · rw [if_neg (by linarith)] at h
    simp only [Option.bind_eq_bind, Option.bind_eq_some_iff] at h
    obtain ⟨t', ht', h⟩ := h
    obtain ⟨rfl, hsheet⟩ := hfin t' h
    refine ⟨?_, hsheet⟩
    obtain ⟨ha0, rfl⟩ := div?_eq_some.1 ht'
    have ha0' : a ≠ 0 := right_ne_zero_of_mul ha0
    have hq := Real.sq_sqrt hdisc
    clear hfin hsheet h ht'
    generalize Real.sqrt (b ^ 2 - 4 * a * cc) = q at *
    field_simp
    linear_combination hq + q ^ 2 * hs

/-- A quadric of revolution with `c ≠ 0` contains no straight line. -/
theorem conic_no_line {c kp1 : ℝ} {P u : V3} (hu : u ≠ 0)
    (h0 : c * (P.x ^ 2 + P.y ^ 2) + kp1 * c * P.z ^ 2 - 2 * P.z = 0)
    (h1 : u.x ^ 2 + u.y ^ 2 + kp1 * u.z ^ 2 = 0)
    (h2 : c * (P.x * u.x + P.y * u.y) = u.z * (1 - kp1 * c * P.z)) : False := by
  by_cases hz : u.z = 0
  · apply hu
    rw [hz] at h1
    have hx : u.x = 0 := by nlinarith [sq_nonneg u.x, sq_nonneg u.y]
    have hy : u.y = 0 := by nlinarith [sq_nonneg u.x, sq_nonneg u.y]
    ext <;> simp [hx, hy, hz]
  · have hcs : (P.x * u.x + P.y * u.y) ^ 2 ≤ (P.x ^ 2 + P.y ^ 2) * (u.x ^ 2 + u.y ^ 2) := by
      nlinarith [sq_nonneg (P.x * u.y - P.y * u.x)]
    have hcs2 : (u.z * (1 - kp1 * c * P.z)) ^ 2
        ≤ (c * (P.x ^ 2 + P.y ^ 2)) * (c * (u.x ^ 2 + u.y ^ 2)) := by
      rw [← h2]
      have := mul_le_mul_of_nonneg_left hcs (sq_nonneg c)
      calc _ = c ^ 2 * (P.x * u.x + P.y * u.y) ^ 2 := by ring
        _ ≤ _ := this
        _ = _ := by ring
    have h3 : c * (P.x ^ 2 + P.y ^ 2) = 2 * P.z - kp1 * c * P.z ^ 2 := by linarith
    have h4 : c * (u.x ^ 2 + u.y ^ 2) = -(kp1 * c * u.z ^ 2) := by
      linear_combination c * h1
    rw [h3, h4] at hcs2
    have hz2 : 0 < u.z ^ 2 := by positivity
    have : (u.z * (1 - kp1 * c * P.z)) ^ 2
      - (2 * P.z - kp1 * c * P.z ^ 2) * -(kp1 * c * u.z ^ 2) = u.z ^ 2 := by ring
    linarith

theorem conicRoot_complete {c kp1 : ℝ} {o u : V3} {t : ℝ} (hu : u ≠ 0)
    (hexact : c * (u.x ^ 2 + u.y ^ 2 + kp1 * u.z ^ 2) = 0 ∨
      1e-12 ≤ |c * (u.x ^ 2 + u.y ^ 2 + kp1 * u.z ^ 2)|) (hc : c ≠ 0)
    (hq : c * ((o + t • u).x ^ 2 + (o + t • u).y ^ 2) + kp1 * c * (o + t • u).z ^ 2
        - 2 * (o + t • u).z = 0)
    (hsheet : 0 ≤ (o + t • u).z * (c * ((o + t • u).x ^ 2 + (o + t • u).y ^ 2) - (o + t • u).z)) :
    conicRoot c kp1 o u (-1) = some t ∨ conicRoot c kp1 o u 1 = some t := by
  have hq' := hq
  rw [conic_quadratic] at hq
  have hsheet' : (o.z + u.z * t) * (c * ((o.x + u.x * t) ^ 2 + (o.y + u.y * t) ^ 2)
      - (o.z + u.z * t)) ≥ 0 := by
    vsimp at hsheet
    have e : ∀ x y : ℝ, x + t * y = x + y * t := by intros; ring
    rw [e, e, e] at hsheet
    exact hsheet
  unfold conicRoot
  simp only
  set a := c * (u.x ^ 2 + u.y ^ 2 + kp1 * u.z ^ 2) with ha
  set b := 2 * (c * (o.x * u.x + o.y * u.y + kp1 * o.z * u.z) - u.z) with hb
  set cc := c * (o.x ^ 2 + o.y ^ 2 + kp1 * o.z ^ 2) - 2 * o.z with hcc
  have hdisc : b ^ 2 - 4 * a * cc = (2 * a * t + b) ^ 2 := by linear_combination -4 * a * hq
  have hdisc0 : ¬ b ^ 2 - 4 * a * cc < 0 := by rw [hdisc]; push Not; positivity
  rw [if_neg hdisc0, if_neg hdisc0]
  rcases hexact with h0 | h0
  · left
    rw [if_pos (by rw [h0]; norm_num)]
    have hb0 : b ≠ 0 := by
      intro hb0
      -- the whole line would lie on the quadric
      have h1 : u.x ^ 2 + u.y ^ 2 + kp1 * u.z ^ 2 = 0 := by
        rcases mul_eq_zero.1 h0 with h | h
        · exact absurd h hc
        · exact h
      refine conic_no_line hu hq' h1 ?_
      vsimp
      have hb1 : c * (o.x * u.x + o.y * u.y + kp1 * o.z * u.z) - u.z = 0 := by linarith
      linear_combination hb1 + c * t * h1
    rw [div?_of_ne hb0]
    simp only [Option.bind_eq_bind, Option.bind_some]
    have ht : -cc / b = t := by rw [h0] at hq; field_simp; linarith
    rw [ht, if_pos hsheet']
  · rw [if_neg (by linarith), if_neg (by linarith)]
    have ha0 : a ≠ 0 := by intro h; rw [h] at h0; norm_num at h0
    rw [div?_of_ne (by simpa using ha0), div?_of_ne (by simpa using ha0)]
    simp only [Option.bind_eq_bind, Option.bind_some]
    rw [hdisc, Real.sqrt_sq_eq_abs]
    rcases le_total 0 (2 * a * t + b) with h | h
    · right
      rw [abs_of_nonneg h]
      have ht : (-b + 1 * (2 * a * t + b)) / (2 * a) = t := by field_simp; ring
      rw [ht, if_pos hsheet']
    · left
      rw [abs_of_nonpos h]
      have ht : (-b + -1 * -(2 * a * t + b)) / (2 * a) = t := by field_simp; ring
      rw [ht, if_pos hsheet']

end Optika
