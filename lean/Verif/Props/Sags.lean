import Verif.Lemmas.Sags

/-!
# C08: intercepts of rays with sags
-/

namespace Optika
open V3

/-- **C08**, flat: a line that is not parallel to the plane meets it in exactly the returned
point; otherwise the result is not finite. -/
theorem C08_flat (o u : V3) :
    (u.z ≠ 0 → ∃ q, flatIntercept o u = some q ∧ OnLine o u q ∧ OnGraph flatHeight q ∧
      ∀ q', OnLine o u q' → OnGraph flatHeight q' → q' = q) ∧
    (u.z = 0 → flatIntercept o u = none) := by
  constructor
  · intro hz
    refine ⟨o + (-o.z / u.z) • u, ?_, ⟨_, rfl⟩, ?_, ?_⟩
    · unfold flatIntercept
      rw [div?_of_ne hz]
      simp only [Option.bind_eq_bind, Option.bind_some, Option.pure_def, Option.some.injEq]
      vring
    · unfold OnGraph flatHeight
      simp only [Option.some.injEq]; vsimp; field_simp; ring
    · rintro q' ⟨t, rfl⟩ h
      unfold OnGraph flatHeight at h
      simp only [Option.some.injEq] at h
      vsimp at h
      have : t = -o.z / u.z := by field_simp; linarith
      rw [this]
  · intro hz
    unfold flatIntercept
    have : div? (-o.z) u.z = none := div?_eq_none.2 hz
    rw [this]; rfl

/-- Non-vacuity of `C08_flat`. -/
example : flatIntercept ⟨1, 2, -4⟩ ⟨3 / 5, 0, 4 / 5⟩ = some ⟨4, 2, 0⟩ := by
  unfold flatIntercept
  rw [div?_of_ne (by norm_num)]
  simp only [Option.bind_eq_bind, Option.bind_some, Option.pure_def, Option.some.injEq]
  ext <;> norm_num

/-- **C08**, sphere: if the line (unit direction, not perpendicular to the axis) meets the sag
surface at all, the result is a point of the line on the surface, and among the points of the
line on the surface it is the one nearest to the vertex side (smallest `radius * z`). -/
theorem C08_sphere {r : ℝ} {o u : V3} (hu : u.dot u = 1) (hz : u.z ≠ 0)
    (hmeet : ∃ q, OnLine o u q ∧ OnGraph (sphereHeight r) q) :
    ∃ q, sphereIntercept r o u = some q ∧ OnLine o u q ∧ OnGraph (sphereHeight r) q ∧
      ∀ q', OnLine o u q' → OnGraph (sphereHeight r) q' → r * q.z ≤ r * q'.z := by
  have hu' : u.x * u.x + u.y * u.y + u.z * u.z = 1 := hu
  set b := u.x * o.x + u.y * o.y + u.z * (o.z - r) with hb
  set D := b ^ 2 - (o.x ^ 2 + o.y ^ 2 + (o.z - r) ^ 2 - r ^ 2) with hD
  have key : ∀ t : ℝ, (o + t • u).x ^ 2 + (o + t • u).y ^ 2 + ((o + t • u).z - r) ^ 2 = r ^ 2 ↔
      (t + b) ^ 2 = D := by
    intro t
    vsimp
    constructor
    · intro h; linear_combination h - t ^ 2 * hu'
    · intro h; linear_combination h + t ^ 2 * hu'
  obtain ⟨q0, ⟨t0, rfl⟩, h0⟩ := hmeet
  obtain ⟨hr, hs0, hsheet0⟩ := onGraph_sphere.1 h0
  have hD0 : 0 ≤ D := by rw [← (key t0).1 hs0]; positivity
  set s := Real.sqrt D with hs
  have hss : s ^ 2 = D := Real.sq_sqrt hD0
  have hspos : 0 ≤ s := Real.sqrt_nonneg _
  set σ := sgn (r * u.z) with hσ
  have hσσ : σ * σ = 1 := sgn_sq (mul_ne_zero hr hz)
  have hσm : σ * (r * u.z) = |r * u.z| := sgn_mul_self _
  set t := -b - σ * s with ht
  have hmin : ∀ t', (t' + b) ^ 2 = D → r * (o + t • u).z ≤ r * (o + t' • u).z := by
    intro t' h'
    have habs : |t' + b| = s := by rw [hs, ← h', Real.sqrt_sq_eq_abs]
    have h1 : -(r * u.z * (t' + b)) ≤ |r * u.z| * s := by
      rw [← habs, ← abs_mul]; exact neg_le_abs _
    vsimp
    have : r * (o.z + t * u.z) - r * (o.z + t' * u.z) = -(r * u.z * (t' + b)) - |r * u.z| * s := by
      rw [ht, ← hσm]; ring
    linarith
  refine ⟨o + t • u, ?_, ⟨t, rfl⟩, ?_, ?_⟩
  · unfold sphereIntercept
    have h1 : sqrt? ((u.x * o.x + u.y * o.y + u.z * (o.z - r)) ^ 2
        - (o.x ^ 2 + o.y ^ 2 + (o.z - r) ^ 2 - r ^ 2)) = some s := sqrt?_of_nonneg hD0
    simp only [h1, Option.bind_eq_bind, Option.bind_some, Option.pure_def, Option.some.injEq]
    rw [ht]
    vring
  · refine onGraph_sphere.2 ⟨hr, (key t).2 ?_, ?_⟩
    · rw [ht]; linear_combination s ^ 2 * hσσ + hss
    · have := hmin t0 ((key t0).1 hs0); linarith
  · rintro q' ⟨t', rfl⟩ h'
    exact hmin t' ((key t').1 (onGraph_sphere.1 h').2.1)

/-- Non-vacuity of `C08_sphere`: the line `x = 3` meets a sphere of radius 5 at height 1. -/
example : OnLine ⟨3, 0, -7⟩ ⟨0, 0, 1⟩ ⟨3, 0, 1⟩ ∧ OnGraph (sphereHeight 5) ⟨3, 0, 1⟩ := by
  refine ⟨⟨8, by ext <;> simp; norm_num⟩, onGraph_sphere.2 ?_⟩
  norm_num

/-- **C08**, sphere: a line that misses the whole sphere gives no finite result. -/
theorem C08_sphere_miss {r : ℝ} {o u : V3} (hu : u.dot u = 1)
    (hmiss : ∀ q, OnLine o u q → q.x ^ 2 + q.y ^ 2 + (q.z - r) ^ 2 ≠ r ^ 2) :
    sphereIntercept r o u = none := by
  have hu' : u.x * u.x + u.y * u.y + u.z * u.z = 1 := hu
  set b := u.x * o.x + u.y * o.y + u.z * (o.z - r) with hb
  set D := b ^ 2 - (o.x ^ 2 + o.y ^ 2 + (o.z - r) ^ 2 - r ^ 2) with hD
  have hD0 : D < 0 := by
    by_contra hcon
    push Not at hcon
    apply hmiss (o + (-b + Real.sqrt D) • u) ⟨_, rfl⟩
    have := Real.sq_sqrt hcon
    vsimp
    linear_combination this + (-b + Real.sqrt D) ^ 2 * hu'
  unfold sphereIntercept
  have h1 : sqrt? ((u.x * o.x + u.y * o.y + u.z * (o.z - r)) ^ 2
      - (o.x ^ 2 + o.y ^ 2 + (o.z - r) ^ 2 - r ^ 2)) = none := sqrt?_eq_none.2 hD0
  simp only [h1]
  rfl

/-- Disagreement with C08: a ray travelling perpendicular to the axis towards the sphere gets a
finite intercept that is not on the surface (`sign(0) = 0`). -/
theorem C08_sphere_perpendicular_counterexample :
    ∃ q, sphereIntercept 5 ⟨-9, 0, 1⟩ ⟨1, 0, 0⟩ = some q ∧ ¬ OnGraph (sphereHeight 5) q ∧
      OnGraph (sphereHeight 5) ⟨-3, 0, 1⟩ ∧ OnLine ⟨-9, 0, 1⟩ ⟨1, 0, 0⟩ ⟨-3, 0, 1⟩ := by
  refine ⟨⟨0, 0, 1⟩, ?_, ?_, ?_, ⟨6, by ext <;> simp; norm_num⟩⟩
  · unfold sphereIntercept
    simp only [mul_zero, sgn_zero]
    rw [sqrt?_of_nonneg (by norm_num)]
    simp only [Option.bind_eq_bind, Option.bind_some, Option.pure_def, Option.some.injEq]
    ext <;> norm_num
  · rw [onGraph_sphere]; norm_num
  · rw [onGraph_sphere]; norm_num

/-- Disagreement with C08: a line which crosses only the far half of the sphere, hence misses
the sag surface, gets a finite intercept that is not on the surface. -/
theorem C08_sphere_far_half_counterexample :
    ∃ q, sphereIntercept 5 ⟨-12, 0, 0⟩ ⟨4 / 5, 0, 3 / 5⟩ = some q ∧ ¬ OnGraph (sphereHeight 5) q := by
  have h : sqrt? (((4 / 5 : ℝ) * (-12) + 0 * 0 + 3 / 5 * (0 - 5)) ^ 2
        - ((-12) ^ 2 + 0 ^ 2 + (0 - 5) ^ 2 - 5 ^ 2)) = some (Real.sqrt (369 / 25)) := by
    rw [sqrt?_of_nonneg (by norm_num)]; norm_num
  unfold sphereIntercept
  simp only [h, sgn_of_pos (show (0 : ℝ) < 5 * (3 / 5) by norm_num), Option.bind_eq_bind,
    Option.bind_some, Option.pure_def, Option.some.injEq, exists_eq_left']
  rw [onGraph_sphere]
  rintro ⟨-, -, h3⟩
  have hs : Real.sqrt (369 / 25) < 4 := by
    rw [Real.sqrt_lt' (by norm_num)]; norm_num
  simp only at h3
  nlinarith

/-- **C08**, conic, soundness: a finite result lies on the line and on the surface, and is the
point of the line on the surface that is nearest to the starting point of the ray.  The guard
excludes the rays for which the quadratic coefficient is non-zero but smaller than `1e-12` in
magnitude, for which the code solves the linear equation instead. -/
theorem C08_conic_sound {R k : ℝ} {o u q : V3}
    (hexact : (1 / R) * (u.x ^ 2 + u.y ^ 2 + (1 + k) * u.z ^ 2) = 0 ∨
      1e-12 ≤ |(1 / R) * (u.x ^ 2 + u.y ^ 2 + (1 + k) * u.z ^ 2)|) (hu : u ≠ 0)
    (h : conicIntercept R k o u = some q) :
    OnGraph (conicHeight R k) q ∧
      ∃ t : ℝ, q = o + t • u ∧ ∀ t' : ℝ, OnGraph (conicHeight R k) (o + t' • u) → |t| ≤ |t'| := by
  unfold conicIntercept at h
  simp only [Option.bind_eq_bind, Option.bind_eq_some_iff, Option.pure_def,
    Option.some.injEq] at h
  obtain ⟨c, hc, t, ht, rfl⟩ := h
  obtain ⟨hR, rfl⟩ := div?_eq_some.1 hc
  have hc0 : (1 / R) ≠ 0 := by positivity
  have e : (⟨o.x + u.x * t, o.y + u.y * t, o.z + u.z * t⟩ : V3) = o + t • u := by vring
  rw [e]
  have sound : ∀ s : ℝ, s * s = 1 → ∀ t : ℝ, conicRoot (1 / R) (1 + k) o u s = some t →
      OnGraph (conicHeight R k) (o + t • u) := by
    intro s hs t ht
    obtain ⟨h1, h2⟩ := conicRoot_sound hs hexact ht
    exact onGraph_conic.2 ⟨hR, h1, h2⟩
  have complete : ∀ t' : ℝ, OnGraph (conicHeight R k) (o + t' • u) →
      conicRoot (1 / R) (1 + k) o u (-1) = some t' ∨ conicRoot (1 / R) (1 + k) o u 1 = some t' := by
    intro t' ht'
    obtain ⟨-, h1, h2⟩ := onGraph_conic.1 ht'
    exact conicRoot_complete hu hexact hc0 h1 h2
  unfold conicPath at ht
  cases hm : conicRoot (1 / R) (1 + k) o u (-1) with
  | none =>
    cases hp : conicRoot (1 / R) (1 + k) o u 1 with
    | none => simp only [hm, hp] at ht; exact absurd ht (by simp)
    | some tb =>
      simp only [hm, hp, Option.some.injEq] at ht
      subst ht
      refine ⟨sound 1 (by norm_num) _ hp, tb, rfl, ?_⟩
      intro t' ht'
      rcases complete t' ht' with h | h
      · rw [hm] at h; simp at h
      · rw [hp] at h; simp only [Option.some.injEq] at h; rw [h]
  | some ta =>
    cases hp : conicRoot (1 / R) (1 + k) o u 1 with
    | none =>
      simp only [hm, hp, Option.some.injEq] at ht
      subst ht
      refine ⟨sound (-1) (by norm_num) _ hm, ta, rfl, ?_⟩
      intro t' ht'
      rcases complete t' ht' with h | h
      · rw [hm] at h; simp only [Option.some.injEq] at h; rw [h]
      · rw [hp] at h; simp at h
    | some tb =>
      simp only [hm, hp] at ht
      split at ht
      · rename_i hle
        simp only [Option.some.injEq] at ht
        subst ht
        refine ⟨sound (-1) (by norm_num) _ hm, ta, rfl, ?_⟩
        intro t' ht'
        rcases complete t' ht' with h | h
        · rw [hm] at h; simp only [Option.some.injEq] at h; rw [h]
        · rw [hp] at h; simp only [Option.some.injEq] at h; rw [← h]; exact hle
      · rename_i hle
        push Not at hle
        simp only [Option.some.injEq] at ht
        subst ht
        refine ⟨sound 1 (by norm_num) _ hp, tb, rfl, ?_⟩
        intro t' ht'
        rcases complete t' ht' with h | h
        · rw [hm] at h; simp only [Option.some.injEq] at h; rw [← h]; exact hle.le
        · rw [hp] at h; simp only [Option.some.injEq] at h; rw [h]

/-- **C08**, conic, completeness: if the line meets the surface, the result is finite. -/
theorem C08_conic_complete {R k : ℝ} {o u : V3}
    (hexact : (1 / R) * (u.x ^ 2 + u.y ^ 2 + (1 + k) * u.z ^ 2) = 0 ∨
      1e-12 ≤ |(1 / R) * (u.x ^ 2 + u.y ^ 2 + (1 + k) * u.z ^ 2)|) (hu : u ≠ 0)
    (hmeet : ∃ q, OnLine o u q ∧ OnGraph (conicHeight R k) q) :
    ∃ q, conicIntercept R k o u = some q := by
  obtain ⟨q0, ⟨t0, rfl⟩, h0⟩ := hmeet
  obtain ⟨hR, h1, h2⟩ := onGraph_conic.1 h0
  have hc0 : (1 / R) ≠ 0 := by positivity
  have hroot := conicRoot_complete hu hexact hc0 h1 h2
  unfold conicIntercept
  rw [div?_of_ne hR]
  simp only [Option.bind_eq_bind, Option.bind_some]
  unfold conicPath
  cases hm : conicRoot (1 / R) (1 + k) o u (-1) with
  | none =>
    cases hp : conicRoot (1 / R) (1 + k) o u 1 with
    | none => rw [hm, hp] at hroot; simp at hroot
    | some tb => exact ⟨_, rfl⟩
  | some ta =>
    cases hp : conicRoot (1 / R) (1 + k) o u 1 with
    | none => exact ⟨_, rfl⟩
    | some tb => simp only; split <;> exact ⟨_, rfl⟩

/-- Non-vacuity of the conic theorems: an ellipsoid (`k = -1/2`), axial ray. -/
example : (1 / (5 : ℝ)) * ((⟨0, 0, 1⟩ : V3).x ^ 2 + (⟨0, 0, 1⟩ : V3).y ^ 2
      + (1 + -1 / 2) * (⟨0, 0, 1⟩ : V3).z ^ 2) = 1 / 10 ∧
    OnLine ⟨0, 0, -7⟩ ⟨0, 0, 1⟩ ⟨0, 0, 0⟩ ∧ OnGraph (conicHeight 5 (-1 / 2)) ⟨0, 0, 0⟩ := by
  refine ⟨by norm_num, ⟨7, by ext <;> simp⟩, onGraph_conic.2 ?_⟩
  norm_num

/-- **C08**, parabola: rays that are exactly parallel to the axis, or inclined enough for the
quadratic branch, and not perpendicular to the axis. -/
theorem C08_parabola_partial {f : ℝ} {o u : V3} (hz : u.z ≠ 0)
    (hexact : u.x ^ 2 + u.y ^ 2 = 0 ∨ 1e-10 < u.x ^ 2 + u.y ^ 2)
    (hmeet : ∃ q, OnLine o u q ∧ OnGraph (parabolaHeight f) q) :
    ∃ q, parabolaIntercept f o u = some q ∧ OnLine o u q ∧ OnGraph (parabolaHeight f) q := by
  obtain ⟨q0, ⟨t0, rfl⟩, h0⟩ := hmeet
  obtain ⟨hf, h0⟩ := onGraph_parabola.1 h0
  set A := u.x ^ 2 + u.y ^ 2 with hA
  rcases hexact with h | h
  · have hx : u.x = 0 := by nlinarith [sq_nonneg u.x, sq_nonneg u.y]
    have hy : u.y = 0 := by nlinarith [sq_nonneg u.x, sq_nonneg u.y]
    refine ⟨o + ((o.x ^ 2 + o.y ^ 2 - 4 * f * o.z) / (4 * f * u.z)) • u, ?_, ⟨_, rfl⟩,
      onGraph_parabola.2 ⟨hf, ?_⟩⟩
    · unfold parabolaIntercept
      rw [if_neg (by rw [← hA, h]; norm_num), div?_of_ne (by positivity)]
      simp only [Option.bind_eq_bind, Option.bind_some, Option.pure_def, Option.some.injEq]
      vring
    · vsimp; rw [hx, hy]; field_simp; ring
  · have hApos : 0 < A := lt_trans (by norm_num) h
    set L := o.x * u.x + o.y * u.y - 2 * f * u.z with hL
    set C := o.x ^ 2 + o.y ^ 2 - 4 * f * o.z with hC
    have hquad : ∀ t : ℝ, (o + t • u).x ^ 2 + (o + t • u).y ^ 2 = 4 * f * (o + t • u).z ↔
        A * t ^ 2 + 2 * L * t + C = 0 := by
      intro t; vsimp
      constructor
      · intro h; linear_combination h
      · intro h; linear_combination h
    have hdisc : -(o.y * u.x) ^ 2 - (o.x * u.y) ^ 2 + 2 * o.y * u.y * (o.x * u.x - 2 * f * u.z)
        + 4 * f * (o.z * (u.x ^ 2 + u.y ^ 2) - o.x * u.x * u.z + f * u.z ^ 2) = L ^ 2 - A * C := by
      rw [hL, hA, hC]; ring
    have hd0 : 0 ≤ L ^ 2 - A * C := by
      have : L ^ 2 - A * C = (A * t0 + L) ^ 2 := by
        linear_combination -A * (hquad t0).1 h0
      rw [this]; positivity
    have hσ := sgn_sq (mul_ne_zero hf hz)
    refine ⟨o + ((-o.x * u.x - o.y * u.y + 2 * f * u.z - sgn (f * u.z) *
      Real.sqrt (L ^ 2 - A * C)) / A) • u, ?_, ⟨_, rfl⟩, onGraph_parabola.2 ⟨hf, (hquad _).2 ?_⟩⟩
    · unfold parabolaIntercept
      rw [if_pos h, hdisc, sqrt?_of_nonneg hd0]
      simp only [Option.bind_eq_bind, Option.bind_some]
      rw [div?_of_ne hApos.ne']
      simp only [Option.bind_some, Option.pure_def, Option.some.injEq]
      vring
    · have e : -o.x * u.x - o.y * u.y + 2 * f * u.z = -L := by rw [hL]; ring
      rw [e]
      have hss := Real.sq_sqrt hd0
      generalize Real.sqrt (L ^ 2 - A * C) = s at *
      field_simp
      linear_combination hss + s ^ 2 * hσ

/-- Non-vacuity of `C08_parabola_partial`. -/
example : OnLine ⟨4, 0, -7⟩ ⟨0, 0, 1⟩ ⟨4, 0, 1⟩ ∧ OnGraph (parabolaHeight 4) ⟨4, 0, 1⟩ := by
  refine ⟨⟨8, by ext <;> simp; norm_num⟩, onGraph_parabola.2 ?_⟩
  norm_num

/-- Nearly axial rays: the parabola code solves the linear equation, and the returned point
misses the surface by exactly `(2 t (o·u)_⊥ + t² |u_⊥|²) / (4 f)` in height. -/
theorem C08_parabola_near_axial_error {f : ℝ} {o u : V3} (hf : f ≠ 0) (hz : u.z ≠ 0)
    (hsmall : u.x ^ 2 + u.y ^ 2 ≤ 1e-10) :
    let t := (o.x ^ 2 + o.y ^ 2 - 4 * f * o.z) / (4 * f * u.z)
    parabolaIntercept f o u = some (o + t • u) ∧
    ((o + t • u).x ^ 2 + (o + t • u).y ^ 2) / (4 * f) - (o + t • u).z
      = (2 * t * (o.x * u.x + o.y * u.y) + t ^ 2 * (u.x ^ 2 + u.y ^ 2)) / (4 * f) := by
  intro t
  constructor
  · unfold parabolaIntercept
    rw [if_neg (by push Not; exact hsmall), div?_of_ne (by positivity)]
    simp only [Option.bind_eq_bind, Option.bind_some, Option.pure_def, Option.some.injEq]
    vring
  · have ht : 4 * f * u.z * t = o.x ^ 2 + o.y ^ 2 - 4 * f * o.z := by
      simp only [t]; field_simp
    vsimp
    field_simp
    linear_combination -ht

/-- Disagreement with C08: a ray inclined by `1e-5` gets an intercept off the paraboloid. -/
theorem C08_parabola_near_axial_counterexample :
    ∃ q, parabolaIntercept 1000 ⟨100, 0, 1000⟩ ⟨1e-5, 0, 1⟩ = some q ∧
      ¬ OnGraph (parabolaHeight 1000) q := by
  obtain ⟨h1, h2⟩ := C08_parabola_near_axial_error (f := 1000) (o := ⟨100, 0, 1000⟩)
    (u := ⟨1e-5, 0, 1⟩) (by norm_num) (by norm_num) (by norm_num)
  refine ⟨_, h1, ?_⟩
  rw [onGraph_parabola]
  rintro ⟨-, h⟩
  rw [h] at h2
  norm_num at h2

/-- Disagreement with C08: perpendicular rays and the parabola (`sign(0) = 0`). -/
theorem C08_parabola_perpendicular_counterexample :
    ∃ q, parabolaIntercept 1 ⟨-9, 0, 1⟩ ⟨1, 0, 0⟩ = some q ∧ ¬ OnGraph (parabolaHeight 1) q ∧
      OnGraph (parabolaHeight 1) ⟨-2, 0, 1⟩ ∧ OnLine ⟨-9, 0, 1⟩ ⟨1, 0, 0⟩ ⟨-2, 0, 1⟩ := by
  refine ⟨⟨0, 0, 1⟩, ?_, ?_, ?_, ⟨7, by ext <;> simp; norm_num⟩⟩
  · unfold parabolaIntercept
    simp only [mul_zero, sgn_zero]
    rw [if_pos (by norm_num), sqrt?_of_nonneg (by norm_num)]
    simp only [Option.bind_eq_bind, Option.bind_some]
    rw [div?_of_ne (by norm_num)]
    simp only [Option.bind_some, Option.pure_def, Option.some.injEq]
    ext <;> norm_num
  · rw [onGraph_parabola]; norm_num
  · rw [onGraph_parabola]; norm_num

/-- **C08**, cylinder: if the line (not perpendicular to `z`) crosses the cylinder (is not
tangent) and meets the sag surface, the result lies on the line and on the surface and is the
point nearest to the vertex side. -/
theorem C08_cylinder {r : ℝ} {o u : V3} (hz : u.z ≠ 0)
    (hcross : ((o.z - r) * u.x - o.x * u.z) ^ 2 < r ^ 2 * (u.x ^ 2 + u.z ^ 2))
    (hmeet : ∃ q, OnLine o u q ∧ OnGraph (cylinderHeight r) q) :
    ∃ q, cylinderIntercept r o u = some q ∧ OnLine o u q ∧ OnGraph (cylinderHeight r) q ∧
      ∀ q', OnLine o u q' → OnGraph (cylinderHeight r) q' → r * q.z ≤ r * q'.z := by
  obtain ⟨q0, ⟨t0, rfl⟩, h0⟩ := hmeet
  obtain ⟨hr, hs0, hsheet0⟩ := onGraph_cylinder.1 h0
  set A := u.x ^ 2 + u.z ^ 2 with hA
  have hApos : 0 < A := by positivity
  set L := o.x * u.x + (o.z - r) * u.z with hL
  set D := r ^ 2 * A - ((o.z - r) * u.x - o.x * u.z) ^ 2 with hD
  have hDpos : 0 < D := by linarith
  have key : ∀ t : ℝ, (o + t • u).x ^ 2 + ((o + t • u).z - r) ^ 2 = r ^ 2 ↔
      (A * t + L) ^ 2 = D := by
    intro t
    have : A * ((o + t • u).x ^ 2 + ((o + t • u).z - r) ^ 2 - r ^ 2) = (A * t + L) ^ 2 - D := by
      rw [hA, hL, hD]; vsimp; ring
    constructor
    · intro h; rw [h] at this; linarith
    · intro h
      rw [h, sub_self] at this
      rcases mul_eq_zero.1 this with h' | h'
      · exact absurd h' hApos.ne'
      · linarith
  set s := Real.sqrt D with hs
  have hss : s ^ 2 = D := Real.sq_sqrt hDpos.le
  set σ := sgn (r * u.z) with hσ
  have hσσ : σ * σ = 1 := sgn_sq (mul_ne_zero hr hz)
  have hσm : σ * (r * u.z) = |r * u.z| := sgn_mul_self _
  set t := (-L - σ * s) / A with ht
  have htA : A * t + L = -(σ * s) := by rw [ht]; field_simp; ring
  have hmin : ∀ t' : ℝ, (A * t' + L) ^ 2 = D → r * (o + t • u).z ≤ r * (o + t' • u).z := by
    intro t' h'
    have habs : |A * t' + L| = s := by rw [hs, ← h', Real.sqrt_sq_eq_abs]
    have h1 : -(r * u.z * (A * t' + L)) ≤ |r * u.z| * s := by
      rw [← habs, ← abs_mul]; exact neg_le_abs _
    vsimp
    have : A * (r * (o.z + t * u.z) - r * (o.z + t' * u.z))
        = -(r * u.z * (A * t' + L)) - |r * u.z| * s := by
      have : A * (r * (o.z + t * u.z) - r * (o.z + t' * u.z))
          = r * u.z * ((A * t + L) - (A * t' + L)) := by ring
      rw [this, htA, ← hσm]; ring
    nlinarith
  refine ⟨o + t • u, ?_, ⟨t, rfl⟩, ?_, ?_⟩
  · unfold cylinderIntercept
    have e1 : (u.cross ⟨0, 1, 0⟩).dot (u.cross ⟨0, 1, 0⟩) = A := by
      rw [hA]; simp only [dot]; vsimp; ring
    have e2 : (((⟨0, 0, r⟩ : V3) - o).dot (u.cross ⟨0, 1, 0⟩)) ^ 2
        = ((o.z - r) * u.x - o.x * u.z) ^ 2 := by
      simp only [dot]; vsimp; ring
    have e3 : (u.cross ⟨0, 1, 0⟩).dot (((⟨0, 0, r⟩ : V3) - o).cross ⟨0, 1, 0⟩) = -L := by
      rw [hL]; simp only [dot]; vsimp; ring
    have e4 : A * r ^ 2 - ((o.z - r) * u.x - o.x * u.z) ^ 2 = D := by rw [hD]; ring
    simp only [e1, e2, e3, e4]
    rw [if_pos hDpos, div?_of_ne hApos.ne']
    simp only [Option.bind_eq_bind, Option.bind_some, Option.pure_def, Option.some.injEq]
    rw [ht, hs]
    vring
  · refine onGraph_cylinder.2 ⟨hr, (key t).2 ?_, ?_⟩
    · rw [htA]; linear_combination s ^ 2 * hσσ + hss
    · have := hmin t0 ((key t0).1 hs0); linarith
  · rintro q' ⟨t', rfl⟩ h'
    exact hmin t' ((key t').1 (onGraph_cylinder.1 h').2.1)

/-- Non-vacuity of `C08_cylinder`. -/
example : OnLine ⟨3, 0, -7⟩ ⟨0, 0, 1⟩ ⟨3, 0, 1⟩ ∧ OnGraph (cylinderHeight 5) ⟨3, 0, 1⟩ ∧
    (((-7 : ℝ) - 5) * 0 - 3 * 1) ^ 2 < 5 ^ 2 * (0 ^ 2 + 1 ^ 2) := by
  refine ⟨⟨8, by ext <;> simp; norm_num⟩, onGraph_cylinder.2 ?_, ?_⟩ <;> norm_num

/-- Disagreement with C08: a line that misses the cylinder is intersected with the plane
`z = 0` instead of giving a result that is not finite. -/
theorem C08_cylinder_miss_counterexample :
    ∃ q, cylinderIntercept 5 ⟨9, 0, -7⟩ ⟨0, 0, 1⟩ = some q ∧ ¬ OnGraph (cylinderHeight 5) q := by
  refine ⟨⟨9, 0, 0⟩, ?_, ?_⟩
  · unfold cylinderIntercept
    have e1 : ¬ ((⟨0, 0, 1⟩ : V3).cross ⟨0, 1, 0⟩).dot ((⟨0, 0, 1⟩ : V3).cross ⟨0, 1, 0⟩) * 5 ^ 2
        - (((⟨0, 0, 5⟩ : V3) - ⟨9, 0, -7⟩).dot ((⟨0, 0, 1⟩ : V3).cross ⟨0, 1, 0⟩)) ^ 2 > 0 := by
      simp [dot]; norm_num
    simp only [if_neg e1]
    rw [div?_of_ne (by norm_num)]
    simp only [Option.bind_eq_bind, Option.bind_some, Option.pure_def, Option.some.injEq]
    ext <;> norm_num
  · rw [onGraph_cylinder]; norm_num

/-- Disagreement with C08: with a transformation, `__call__` is evaluated in the local frame of
the sag and not mapped back, so that intercept and height disagree (a sag shifted by one unit
along `z`). -/
theorem C08_transformed_counterexample :
    ∃ q, ((sphereSag 5).withTransformation (.translation ⟨0, 0, 1⟩)).intercept
        ⟨0, 0, -3⟩ ⟨0, 0, 1⟩ = some q ∧
      ¬ OnGraph ((sphereSag 5).withTransformation (.translation ⟨0, 0, 1⟩)).height q := by
  set g : Rigid := .translation ⟨0, 0, 1⟩ with hg
  have hip : g.ipoint ⟨0, 0, -3⟩ = ⟨0, 0, -4⟩ := by
    apply V3.ext <;> simp [hg, Rigid.ipoint, Rigid.translation, Rigid.id, M3.one, M3.mulVec,
      M3.transpose, dot]; norm_num
  have hiv : g.ivec ⟨0, 0, 1⟩ = ⟨0, 0, 1⟩ := by
    apply V3.ext <;> simp [hg, Rigid.ivec, Rigid.translation, Rigid.id, M3.one, M3.mulVec,
      M3.transpose, dot]
  have hp : g.point ⟨0, 0, 0⟩ = ⟨0, 0, 1⟩ := by
    apply V3.ext <;> simp [hg, Rigid.point, Rigid.translation, Rigid.id, M3.one, M3.mulVec, dot]
  have hi : sphereIntercept 5 ⟨0, 0, -4⟩ ⟨0, 0, 1⟩ = some ⟨0, 0, 0⟩ := by
    unfold sphereIntercept
    have h1 : sgn ((5 : ℝ) * 1) = 1 := sgn_of_pos (by norm_num)
    simp only [h1]
    rw [sqrt?_of_nonneg (by norm_num)]
    have : Real.sqrt ((0 * 0 + 0 * 0 + 1 * ((-4 : ℝ) - 5)) ^ 2
        - (0 ^ 2 + 0 ^ 2 + ((-4 : ℝ) - 5) ^ 2 - 5 ^ 2)) = 5 := by
      rw [show ((0 * 0 + 0 * 0 + 1 * ((-4 : ℝ) - 5)) ^ 2
        - (0 ^ 2 + 0 ^ 2 + ((-4 : ℝ) - 5) ^ 2 - 5 ^ 2)) = 5 ^ 2 by norm_num]
      exact Real.sqrt_sq (by norm_num)
    rw [this]
    simp only [Option.bind_eq_bind, Option.bind_some, Option.pure_def, Option.some.injEq]
    ext <;> norm_num
  refine ⟨⟨0, 0, 1⟩, ?_, ?_⟩
  · show (sphereIntercept 5 (g.ipoint _) (g.ivec _)).map g.point = _
    rw [hip, hiv, hi]; simp [hp]
  · intro h
    have h : sphereHeight 5 (g.ipoint ⟨0, 0, 1⟩) = some 1 := h
    rw [← hp, Rigid.ipoint_point, sphereHeight_eq_conic, conicHeight_eq_some] at h
    norm_num at h

/-- **C08**, transformed sags: what does hold is that the intercept is the image of the local
intercept, so it lies on the ray and, mapped to the local frame, on the local surface. -/
theorem C08_transformed (s : Sag) (g : Rigid) {o u q : V3}
    (hs : ∀ q, s.intercept (g.ipoint o) (g.ivec u) = some q →
      OnLine (g.ipoint o) (g.ivec u) q ∧ OnGraph s.height q)
    (h : (s.withTransformation g).intercept o u = some q) :
    OnLine o u q ∧ OnGraph s.height (g.ipoint q) := by
  have h : (s.intercept (g.ipoint o) (g.ivec u)).map g.point = some q := h
  simp only [Option.map_eq_some_iff] at h
  obtain ⟨q', h1, rfl⟩ := h
  obtain ⟨⟨t, rfl⟩, h3⟩ := hs _ h1
  refine ⟨⟨t, ?_⟩, by rw [Rigid.ipoint_point]; exact h3⟩
  rw [Rigid.point_add_smul]; simp

end Optika
