import Verif.Lemmas.SagNormals

/-!
# C09 and C10: normal vectors of the sags and relations between the sag families
-/

namespace Optika
open V3 Filter Topology

/-! ## C09 -/

/-- **C09**, conic: strictly inside its domain the normal is the downward unit vector orthogonal
to the tangent plane of the graph. -/
theorem C09_conic {R k : ℝ} {p : V3} (hR : R ≠ 0)
    (hin : (1 + k) * (p.x ^ 2 + p.y ^ 2) < R ^ 2) :
    ∃ n, conicNormal R k p = some n ∧ IsGraphNormal (conicHeight R k) p n := by
  have hG : 0 < 1 - (1 + k) * (1 / R) ^ 2 * (p.x ^ 2 + p.y ^ 2) := by
    have : 1 - (1 + k) * (1 / R) ^ 2 * (p.x ^ 2 + p.y ^ 2)
        = (R ^ 2 - (1 + k) * (p.x ^ 2 + p.y ^ 2)) / R ^ 2 := by field_simp
    rw [this]
    have : 0 < R ^ 2 := by positivity
    have : 0 < R ^ 2 - (1 + k) * (p.x ^ 2 + p.y ^ 2) := by linarith
    positivity
  have hs := (Real.sqrt_pos.2 hG).ne'
  refine ⟨_, ?_, isGraphNormal_of_slopes (conic_slopeX hR hG) (conic_slopeY hR hG) rfl⟩
  unfold conicNormal
  rw [div?_of_ne hR]
  simp only [Option.bind_eq_bind, Option.bind_some]
  rw [sqrt?_of_nonneg hG.le]
  simp only [Option.bind_some]
  rw [div?_of_ne hs, div?_of_ne hs]
  simp only [Option.bind_some]
  have hl := (len_slope_pos ((1 / R) * p.x /
      Real.sqrt (1 - (1 + k) * (1 / R) ^ 2 * (p.x ^ 2 + p.y ^ 2))) ((1 / R) * p.y /
      Real.sqrt (1 - (1 + k) * (1 / R) ^ 2 * (p.x ^ 2 + p.y ^ 2)))).ne'
  rw [div?_of_ne hl, div?_of_ne hl, div?_of_ne hl]
  simp only [Option.bind_some, Option.pure_def, Option.some.injEq]
  vring

/-- Non-vacuity: a prolate ellipsoid, a point off the axis. -/
example : (5 : ℝ) ≠ 0 ∧
    (1 + (-1 / 2 : ℝ)) * ((⟨3, 1, 0⟩ : V3).x ^ 2 + (⟨3, 1, 0⟩ : V3).y ^ 2) < 5 ^ 2 := by
  norm_num

/-- **C09**, sphere. -/
theorem C09_sphere {R : ℝ} {p : V3} (hR : R ≠ 0) (hin : p.x ^ 2 + p.y ^ 2 < R ^ 2) :
    ∃ n, sphereNormal R p = some n ∧ IsGraphNormal (sphereHeight R) p n := by
  have hG : 0 < 1 - (1 + 0) * (1 / R) ^ 2 * (p.x ^ 2 + p.y ^ 2) := by
    have : 1 - (1 + 0) * (1 / R) ^ 2 * (p.x ^ 2 + p.y ^ 2)
        = (R ^ 2 - (p.x ^ 2 + p.y ^ 2)) / R ^ 2 := by field_simp; ring
    rw [this]
    have : 0 < R ^ 2 := by positivity
    have : 0 < R ^ 2 - (p.x ^ 2 + p.y ^ 2) := by linarith
    positivity
  rw [sphereHeight_eq_conic]
  have e : 1 - (1 / R * p.x) ^ 2 - (1 / R * p.y) ^ 2
      = 1 - (1 + 0) * (1 / R) ^ 2 * (p.x ^ 2 + p.y ^ 2) := by ring
  refine ⟨⟨1 / R * p.x, 1 / R * p.y,
    -Real.sqrt (1 - (1 + 0) * (1 / R) ^ 2 * (p.x ^ 2 + p.y ^ 2))⟩, ?_,
    ?_, ?_, _, _, conic_slopeX hR hG, conic_slopeY hR hG, ?_, ?_⟩
  · unfold sphereNormal
    rw [div?_of_ne hR]
    simp only [Option.bind_eq_bind, Option.bind_some]
    rw [e, sqrt?_of_nonneg hG.le]
    simp
  · have := Real.sq_sqrt hG.le
    simp only [dot]
    linear_combination this
  · have := Real.sqrt_pos.2 hG
    simpa using this
  · have := (Real.sqrt_pos.2 hG).ne'
    simp only [dot]
    generalize Real.sqrt (1 - (1 + 0) * (1 / R) ^ 2 * (p.x ^ 2 + p.y ^ 2)) = s at *
    field_simp; ring
  · have := (Real.sqrt_pos.2 hG).ne'
    simp only [dot]
    generalize Real.sqrt (1 - (1 + 0) * (1 / R) ^ 2 * (p.x ^ 2 + p.y ^ 2)) = s at *
    field_simp; ring

/-- Non-vacuity. -/
example : (⟨3, 1, 0⟩ : V3).x ^ 2 + (⟨3, 1, 0⟩ : V3).y ^ 2 < (-5) ^ 2 := by norm_num

/-- **C09**, parabola, at every position. -/
theorem C09_parabola {f : ℝ} (hf : f ≠ 0) (p : V3) :
    ∃ n, parabolaNormal f p = some n ∧ IsGraphNormal (parabolaHeight f) p n := by
  have hG : (0 : ℝ) < 1 - (1 + -1) * (1 / (2 * f)) ^ 2 * (p.x ^ 2 + p.y ^ 2) := by norm_num
  have h2f : 2 * f ≠ 0 := by simpa using hf
  have hsx : HasSlopeX (parabolaHeight f) p (p.x / (2 * f)) := by
    have := conic_slopeX h2f hG
    have e : 1 - (1 + -1) * (1 / (2 * f)) ^ 2 * (p.x ^ 2 + p.y ^ 2) = 1 := by ring
    rw [e, Real.sqrt_one, div_one, one_div_mul_eq_div] at this
    exact this
  have hsy : HasSlopeY (parabolaHeight f) p (p.y / (2 * f)) := by
    have := conic_slopeY h2f hG
    have e : 1 - (1 + -1) * (1 / (2 * f)) ^ 2 * (p.x ^ 2 + p.y ^ 2) = 1 := by ring
    rw [e, Real.sqrt_one, div_one, one_div_mul_eq_div] at this
    exact this
  refine ⟨_, ?_, isGraphNormal_of_slopes hsx hsy rfl⟩
  have hpos : (0 : ℝ) < (p.x / (2 * f)) ^ 2 + (p.y / (2 * f)) ^ 2 + 1 := by positivity
  unfold parabolaNormal
  simp only []
  rw [div?_of_ne h2f, div?_of_ne h2f]
  simp only [Option.bind_eq_bind, Option.bind_some]
  rw [sqrt?_of_nonneg hpos.le]
  simp only [Option.bind_some]
  rw [div?_of_ne h2f, div?_of_ne h2f, div?_of_ne h2f]
  simp only [Option.bind_some, Option.pure_def, Option.some.injEq]
  have hl : (⟨p.x / (2 * f), p.y / (2 * f), -1⟩ : V3).len
      = Real.sqrt ((p.x / (2 * f)) ^ 2 + (p.y / (2 * f)) ^ 2 + 1) := by
    unfold len; simp only [dot]; congr 1; ring
  rw [hl]
  have := Real.sqrt_pos.2 hpos
  generalize Real.sqrt ((p.x / (2 * f)) ^ 2 + (p.y / (2 * f)) ^ 2 + 1) = s at *
  ext <;> vsimp <;> field_simp

/-- **C09**, cylinder. -/
theorem C09_cylinder {r : ℝ} {p : V3} (hr : r ≠ 0) (hin : p.x ^ 2 < r ^ 2) :
    ∃ n, cylinderNormal r p = some n ∧ IsGraphNormal (cylinderHeight r) p n := by
  have hG : 0 < 1 - (1 + 0) * (1 / r) ^ 2 * (p.x ^ 2 + 0 ^ 2) := by
    have : 1 - (1 + 0) * (1 / r) ^ 2 * (p.x ^ 2 + 0 ^ 2) = (r ^ 2 - p.x ^ 2) / r ^ 2 := by
      field_simp; ring
    rw [this]
    have : 0 < r ^ 2 := by positivity
    have : 0 < r ^ 2 - p.x ^ 2 := by linarith
    positivity
  have hx : HasSlopeX (cylinderHeight r) p ((1 / r) * p.x /
      Real.sqrt (1 - (1 + 0) * (1 / r) ^ 2 * (p.x ^ 2 + 0 ^ 2))) := by
    obtain ⟨h, h1, h2⟩ := conic_slopeX (p := ⟨p.x, 0, 0⟩) hr hG
    refine ⟨h, ?_, h2⟩
    filter_upwards [h1] with s hs
    rw [cylinderHeight_eq_sphere, sphereHeight_eq_conic]
    exact hs
  have hy : HasSlopeY (cylinderHeight r) p 0 := by
    refine ⟨fun _ => (1 / r) * (p.x ^ 2 + 0 ^ 2) /
      (1 + Real.sqrt (1 - (1 + 0) * (1 / r) ^ 2 * (p.x ^ 2 + 0 ^ 2))), ?_, hasDerivAt_const _ _⟩
    filter_upwards with s
    rw [cylinderHeight_eq_sphere, sphereHeight_eq_conic]
    exact conicHeight_of_pos (p := ⟨p.x, 0, 0⟩) hr hG.le
  have e : 1 - (p.x / r) ^ 2 = 1 - (1 + 0) * (1 / r) ^ 2 * (p.x ^ 2 + 0 ^ 2) := by
    field_simp; ring
  have hpos := Real.sqrt_pos.2 hG
  have hsq := Real.sq_sqrt hG.le
  refine ⟨⟨p.x / r, 0, -Real.sqrt (1 - (1 + 0) * (1 / r) ^ 2 * (p.x ^ 2 + 0 ^ 2))⟩, ?_,
    ?_, ?_, _, _, hx, hy, ?_, ?_⟩
  · unfold cylinderNormal
    rw [div?_of_ne hr]
    simp only [Option.bind_eq_bind, Option.bind_some]
    rw [e, sqrt?_of_nonneg hG.le]
    simp
  · simp only [dot]
    linear_combination hsq - e
  · simpa using hpos
  · simp only [dot]
    generalize Real.sqrt (1 - (1 + 0) * (1 / r) ^ 2 * (p.x ^ 2 + 0 ^ 2)) = s at *
    field_simp; ring
  · simp [dot]

/-- Non-vacuity. -/
example : (⟨3, 100, 0⟩ : V3).x ^ 2 < (-5) ^ 2 := by norm_num

/-- **C09**, torus: `zy` is the height of the generating circle at `y`. -/
theorem C09_torus {radius r zy : ℝ} {p : V3} (hR : radius ≠ 0) (hy : p.y ^ 2 < radius ^ 2)
    (hzy : sphereHeight radius ⟨0, p.y, 0⟩ = some zy) (hx : p.x ^ 2 < (r - zy) ^ 2) :
    ∃ n, torusNormal radius r p = some n ∧ IsGraphNormal (torusHeight radius r) p n := by
  have hin : ∀ y : ℝ, y ^ 2 < radius ^ 2 → 0 < 1 - (1 / radius) ^ 2 * y ^ 2 := by
    intro y hy
    have : 1 - (1 / radius) ^ 2 * y ^ 2 = (radius ^ 2 - y ^ 2) / radius ^ 2 := by field_simp
    rw [this]
    have : 0 < radius ^ 2 := by positivity
    have : 0 < radius ^ 2 - y ^ 2 := by linarith
    positivity
  have hG := hin _ hy
  set c := 1 / radius with hc
  set z : ℝ → ℝ := fun y => c * y ^ 2 / (1 + Real.sqrt (1 - c ^ 2 * y ^ 2)) with hz
  have hpos1 : ∀ w : ℝ, (0 : ℝ) < 1 + Real.sqrt w := fun w => by positivity
  have hzz : zy = z p.y := by
    rw [sphereHeight_eq_conic, conicHeight_of_pos hR (by
      have : 1 - (1 + 0) * (1 / radius) ^ 2 * ((⟨0, p.y, 0⟩ : V3).x ^ 2 + p.y ^ 2)
        = 1 - c ^ 2 * p.y ^ 2 := by rw [hc]; vsimp; ring
      show 0 ≤ 1 - (1 + 0) * (1 / radius) ^ 2 * ((⟨0, p.y, 0⟩ : V3).x ^ 2 + p.y ^ 2)
      rw [this]; exact hG.le)] at hzy
    simp only [Option.some.injEq] at hzy
    rw [← hzy, hz]
    have e : (0 : ℝ) ^ 2 + p.y ^ 2 = p.y ^ 2 := by ring
    simp only [e, ← hc, add_zero, one_mul]
  rw [hzz] at hx
  set g := Real.sqrt (1 - c ^ 2 * p.y ^ 2) with hg
  have hgpos : 0 < g := Real.sqrt_pos.2 hG
  have hF : 0 < (r - z p.y) ^ 2 - p.x ^ 2 := by linarith
  set f := Real.sqrt ((r - z p.y) ^ 2 - p.x ^ 2) with hf
  have hfpos : 0 < f := Real.sqrt_pos.2 hF
  -- value of the height function
  have hval : ∀ x y w : ℝ, 0 ≤ 1 - c ^ 2 * y ^ 2 → 0 ≤ (r - z y) ^ 2 - x ^ 2 →
      torusHeight radius r ⟨x, y, w⟩ = some (r - Real.sqrt ((r - z y) ^ 2 - x ^ 2)) := by
    intro x y w h1 h2
    unfold torusHeight
    rw [div?_of_ne hR]
    simp only [Option.bind_eq_bind, Option.bind_some]
    rw [← hc, sqrt?_of_nonneg h1]
    simp only [Option.bind_some]
    rw [div?_of_ne (hpos1 _).ne']
    simp only [Option.bind_some]
    have h2' : 0 ≤ (r - c * y ^ 2 / (1 + Real.sqrt (1 - c ^ 2 * y ^ 2))) ^ 2 - x ^ 2 := h2
    rw [sqrt?_of_nonneg h2']
    simp [hz]
  -- derivative of the generating circle
  have hzd : HasDerivAt z (c * p.y / g) p.y := by
    have h1 : HasDerivAt (fun s : ℝ => s ^ 2) (2 * p.y) p.y := by
      simpa using hasDerivAt_pow 2 p.y
    have h2 := HasDerivAt.comp (h := fun s : ℝ => s ^ 2)
      (h₂ := fun ρ => c * ρ / (1 + Real.sqrt (1 - c ^ 2 * ρ))) p.y
      (conic_profile_hasDerivAt (c := c) (κ := c ^ 2) (ρ := p.y ^ 2) hG) h1
    refine h2.congr_deriv ?_
    rw [← hg]
    field_simp
  have hsx : HasSlopeX (torusHeight radius r) p (p.x / f) := by
    refine ⟨fun s => r - Real.sqrt ((r - z p.y) ^ 2 - s ^ 2), ?_, ?_⟩
    · have hcont : ContinuousAt (fun s : ℝ => (r - z p.y) ^ 2 - s ^ 2) p.x := by fun_prop
      filter_upwards [hcont.eventually (lt_mem_nhds hF)] with s hs
      exact hval _ _ _ hG.le hs.le
    · have h1 : HasDerivAt (fun s : ℝ => (r - z p.y) ^ 2 - s ^ 2) (-(2 * p.x)) p.x := by
        simpa using (hasDerivAt_pow 2 p.x).const_sub ((r - z p.y) ^ 2)
      refine ((h1.sqrt hF.ne').const_sub r).congr_deriv ?_
      rw [← hf]; field_simp
  have hsy : HasSlopeY (torusHeight radius r) p ((r - z p.y) * (c * p.y / g) / f) := by
    refine ⟨fun s => r - Real.sqrt ((r - z s) ^ 2 - p.x ^ 2), ?_, ?_⟩
    · have hcont : ContinuousAt (fun s : ℝ => (r - z s) ^ 2 - p.x ^ 2) p.y := by
        have := hzd.continuousAt
        fun_prop
      have hcont2 : ContinuousAt (fun s : ℝ => 1 - c ^ 2 * s ^ 2) p.y := by fun_prop
      filter_upwards [hcont.eventually (lt_mem_nhds hF), hcont2.eventually (lt_mem_nhds hG)]
        with s hs hs2
      exact hval _ _ _ hs2.le hs.le
    · have h1 : HasDerivAt (fun s : ℝ => (r - z s) ^ 2 - p.x ^ 2)
          (-(2 * (r - z p.y) * (c * p.y / g))) p.y := by
        have := ((hzd.const_sub r).pow 2).sub_const (p.x ^ 2)
        refine this.congr_deriv ?_
        simp
      refine ((h1.sqrt hF.ne').const_sub r).congr_deriv ?_
      rw [← hf]; field_simp
  refine ⟨_, ?_, isGraphNormal_of_slopes hsx hsy rfl⟩
  have hl := (len_slope_pos (p.x / f) ((r - z p.y) * (c * p.y / g) / f)).ne'
  unfold torusNormal
  rw [div?_of_ne hR]
  simp only [Option.bind_eq_bind, Option.bind_some]
  rw [← hc, sqrt?_of_nonneg hG.le]
  simp only [Option.bind_some]
  rw [div?_of_ne (hpos1 _).ne']
  simp only [Option.bind_some]
  have hF' : 0 ≤ (r - c * p.y ^ 2 / (1 + Real.sqrt (1 - c ^ 2 * p.y ^ 2))) ^ 2 - p.x ^ 2 := hF.le
  rw [sqrt?_of_nonneg hF']
  simp only [Option.bind_some]
  change (div? p.x f).bind _ = _
  rw [div?_of_ne hfpos.ne', ← hg, div?_of_ne hgpos.ne']
  simp only [Option.bind_some]
  change (div? ((r - z p.y) * (c * p.y / g)) f).bind _ = _
  rw [div?_of_ne hfpos.ne']
  simp only [Option.bind_some]
  rw [div?_of_ne hl, div?_of_ne hl, div?_of_ne hl]
  simp only [Option.bind_some, Option.pure_def, Option.some.injEq]
  vring

/-- Non-vacuity of `C09_torus`: radii 5 and 10, at `y = 3` the generating circle has height 1. -/
example : sphereHeight 5 ⟨0, 3, 0⟩ = some 1 ∧ (2 : ℝ) ^ 2 < (10 - 1) ^ 2 := by
  refine ⟨?_, by norm_num⟩
  show OnGraph (sphereHeight 5) ⟨0, 3, 1⟩
  rw [onGraph_sphere]
  norm_num

/-! ## C10 -/

/-- **C10**: a conic constant of zero is the sphere (heights, for every radius and position). -/
theorem C10_conic_zero_height (R : ℝ) (p : V3) : conicHeight R 0 p = sphereHeight R p := by
  rw [sphereHeight_eq_conic]

/-- **C10**: a conic constant of zero is the sphere (normals). -/
theorem C10_conic_zero_normal {R : ℝ} {p : V3} (hR : R ≠ 0) (hin : p.x ^ 2 + p.y ^ 2 < R ^ 2) :
    conicNormal R 0 p = sphereNormal R p := by
  obtain ⟨n, h1, h2⟩ := C09_conic (k := 0) (p := p) hR (by simpa using hin)
  obtain ⟨m, h3, h4⟩ := C09_sphere (p := p) hR hin
  rw [h1, h3, (h2.unique (by rw [← sphereHeight_eq_conic]; exact h4))]

/-- **C10**: a conic constant of minus one is the paraboloid with half the radius as its focal
length; its height is `(x² + y²) / (4 f)`. -/
theorem C10_parabola_height {f : ℝ} (hf : f ≠ 0) (p : V3) :
    conicHeight (2 * f) (-1) p = parabolaHeight f p ∧
      parabolaHeight f p = some ((p.x ^ 2 + p.y ^ 2) / (4 * f)) := by
  refine ⟨rfl, ?_⟩
  show OnGraph (parabolaHeight f) ⟨p.x, p.y, (p.x ^ 2 + p.y ^ 2) / (4 * f)⟩
  rw [onGraph_parabola]
  refine ⟨hf, ?_⟩
  simp only
  field_simp

/-- **C10**: same for the normals, although the two classes compute them differently. -/
theorem C10_parabola_normal {f : ℝ} (hf : f ≠ 0) (p : V3) :
    conicNormal (2 * f) (-1) p = parabolaNormal f p := by
  have h2f : 2 * f ≠ 0 := by simpa using hf
  obtain ⟨n, h1, h2⟩ := C09_conic (R := 2 * f) (k := -1) (p := p) h2f (by
    have : 0 < (2 * f) ^ 2 := by positivity
    simpa using this)
  obtain ⟨m, h3, h4⟩ := C09_parabola hf p
  rw [h1, h3, h2.unique h4]

/-- **C10**: the cylinder is the sphere on the line `y = 0` (heights and normals), and does not
depend on `y`. -/
theorem C10_cylinder {r : ℝ} (p : V3) :
    cylinderHeight r p = sphereHeight r ⟨p.x, 0, p.z⟩ ∧
      (cylinderNormal r p = sphereNormal r ⟨p.x, 0, p.z⟩) := by
  refine ⟨cylinderHeight_eq_sphere r p, ?_⟩
  unfold cylinderNormal sphereNormal
  by_cases hr : r = 0
  · subst hr; simp [div?]
  · rw [div?_of_ne hr, div?_of_ne hr]
    have e : 1 - (p.x / r) ^ 2 - 0 ^ 2 = 1 - (p.x / r) ^ 2 := by ring
    have e2 : 1 / r * p.x = p.x / r := by ring
    simp only [Option.bind_eq_bind, Option.bind_some, e2, mul_zero, e]

/-- **C10**: a torus whose two radii are equal and positive is the sphere. -/
theorem C10_torus_sphere {r : ℝ} (hr : 0 < r) {p : V3} (hin : p.x ^ 2 + p.y ^ 2 ≤ r ^ 2) :
    torusHeight r r p = sphereHeight r p := by
  have hx2 : 0 ≤ p.x ^ 2 := sq_nonneg _
  have hy2 : 0 ≤ p.y ^ 2 := sq_nonneg _
  have key : ∀ w : ℝ, 0 ≤ w → w ≤ r ^ 2 → 0 ≤ 1 - (1 / r) ^ 2 * w ∧
      r - (1 / r) * w / (1 + Real.sqrt (1 - (1 / r) ^ 2 * w)) = Real.sqrt (r ^ 2 - w) := by
    intro w h0 h1
    have e : 1 - (1 / r) ^ 2 * w = (r ^ 2 - w) / r ^ 2 := by field_simp
    have hw : 0 ≤ r ^ 2 - w := by linarith
    have h2 : 0 ≤ 1 - (1 / r) ^ 2 * w := by rw [e]; positivity
    refine ⟨h2, ?_⟩
    have h3 : Real.sqrt (1 - (1 / r) ^ 2 * w) = Real.sqrt (r ^ 2 - w) / r := by
      rw [e, Real.sqrt_div hw, Real.sqrt_sq hr.le]
    rw [h3]
    have hsq := Real.sq_sqrt hw
    have hs0 := Real.sqrt_nonneg (r ^ 2 - w)
    generalize Real.sqrt (r ^ 2 - w) = s at *
    field_simp
    linear_combination -hsq
  obtain ⟨hy1, hy3⟩ := key (p.y ^ 2) hy2 (by linarith)
  obtain ⟨hr1, hr3⟩ := key (p.x ^ 2 + p.y ^ 2) (by positivity) hin
  have hpos : ∀ w : ℝ, (1 : ℝ) + Real.sqrt w ≠ 0 := fun w => by positivity
  have e : Real.sqrt (r ^ 2 - p.y ^ 2) ^ 2 - p.x ^ 2 = r ^ 2 - (p.x ^ 2 + p.y ^ 2) := by
    rw [Real.sq_sqrt (by linarith)]; ring
  unfold torusHeight sphereHeight
  rw [div?_of_ne hr.ne']
  simp only [Option.bind_eq_bind, Option.bind_some]
  rw [sqrt?_of_nonneg hy1, sqrt?_of_nonneg hr1]
  simp only [Option.bind_some]
  rw [div?_of_ne (hpos _), div?_of_ne (hpos _)]
  simp only [Option.bind_some]
  rw [hy3, e, sqrt?_of_nonneg (by linarith)]
  simp only [Option.bind_some, Option.pure_def, Option.some.injEq]
  linarith

/-- Non-vacuity of `C10_torus_sphere`. -/
example : (3 : ℝ) ^ 2 + 1 ^ 2 ≤ 5 ^ 2 := by norm_num

/-- **C10**: the sags pass through the origin, for radii and focal lengths of either sign. -/
theorem C10_vertex {r k : ℝ} (hr : r ≠ 0) :
    OnGraph flatHeight 0 ∧ OnGraph (sphereHeight r) 0 ∧ OnGraph (conicHeight r k) 0 ∧
      OnGraph (parabolaHeight r) 0 ∧ OnGraph (cylinderHeight r) 0 := by
  refine ⟨rfl, ?_, ?_, ?_, ?_⟩
  · rw [onGraph_sphere]; simp [hr, sq_nonneg]
  · rw [onGraph_conic]; simp [hr]
  · rw [onGraph_parabola]; simp [hr]
  · rw [onGraph_cylinder]; simp [hr, sq_nonneg]

/-- **C10**: the torus has height zero at the origin exactly when the radius of rotation is not
negative. -/
theorem C10_torus_vertex_partial {radius r : ℝ} (hR : radius ≠ 0) :
    OnGraph (torusHeight radius r) 0 ↔ 0 ≤ r := by
  have : torusHeight radius r 0 = some (r - |r|) := by
    unfold torusHeight
    rw [div?_of_ne hR]
    have h0 : ¬ r ^ 2 < 0 := not_lt.2 (sq_nonneg r)
    have h1 : ¬ (1 : ℝ) < 0 := by norm_num
    have h2 : ¬ (1 + 1 : ℝ) = 0 := by norm_num
    simp [Real.sqrt_sq_eq_abs, sqrt?, div?, h0, h1, h2]
  unfold OnGraph
  rw [this]
  simp only [zero_z, Option.some.injEq, sub_eq_zero]
  rw [eq_comm, abs_eq_self]

/-- Disagreement with C10: a torus whose two radii are equal and negative is not the sphere of
that radius; its vertex is not at the origin. -/
theorem C10_torus_negative_counterexample :
    torusHeight (-5) (-5) 0 ≠ sphereHeight (-5) 0 := by
  have h1 := (C10_vertex (r := -5) (k := 0) (by norm_num)).2.1
  intro h
  have h2 : OnGraph (torusHeight (-5) (-5)) 0 := by unfold OnGraph; rw [h]; exact h1
  rw [C10_torus_vertex_partial (by norm_num)] at h2
  norm_num at h2

end Optika
