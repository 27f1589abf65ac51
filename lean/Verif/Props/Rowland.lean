import Verif.Model.Surface
import Mathlib.Analysis.SpecialFunctions.Trigonometric.Bounds

/-!
# C119: concave gratings focus on the Rowland circle
-/

namespace Optika

open Real V3

/-! ### Specification -/

/-- The point of the Rowland circle of a concave grating of radius `R` that is seen from the vertex of the grating at the
angle `γ` from its axis. -/
noncomputable def rowlandPoint (R γ : ℝ) : V3 := ⟨R * cos γ * sin γ, 0, R * cos γ * cos γ⟩

/-- The point of a concave grating of radius `R` on the radius that makes the angle `θ` with the axis, in the plane
across the rulings. -/
noncomputable def gratingPoint (R θ : ℝ) : V3 := ⟨R * sin θ, 0, R - R * cos θ⟩

/-- A concave mechanically ruled grating. -/
noncomputable def concaveGrating (R d m : ℝ) : Surface :=
  ⟨sphereSag R, mirror, none, some (idealRulings d m), none⟩

/-- The Rowland circle has the radius of curvature of the grating as a diameter, and touches the grating at its vertex. -/
example (R γ : ℝ) : (rowlandPoint R γ).x ^ 2 + ((rowlandPoint R γ).z - R / 2) ^ 2 = (R / 2) ^ 2 ∧
    rowlandPoint R (π / 2) = gratingPoint R 0 := by
  constructor
  · have h := sin_sq_add_cos_sq γ
    simp only [rowlandPoint]
    have : (R * cos γ * sin γ) ^ 2 + (R * cos γ * cos γ - R / 2) ^ 2 =
      R ^ 2 * cos γ ^ 2 * (sin γ ^ 2 + cos γ ^ 2 - 1) + (R / 2) ^ 2 := by ring
    rw [this, h]; ring
  · simp [rowlandPoint, gratingPoint]

/-! ### Geometry -/

section
variable (R γ θ : ℝ)

/-- The component along the grating of the vector from a point of the grating to a point of the circle. -/
noncomputable def alongGrating : ℝ := R * (sin γ * cos (γ + θ))

/-- The component perpendicular to the grating. -/
noncomputable def acrossGrating : ℝ := R * (1 - sin γ * sin (γ + θ))

/-- Their distance, in units of the radius, squared. -/
noncomputable def gap : ℝ := 1 + sin γ ^ 2 - 2 * sin γ * sin (γ + θ)

theorem rowland_sub : rowlandPoint R γ - gratingPoint R θ =
    ⟨alongGrating R γ θ * cos θ - acrossGrating R γ θ * sin θ, 0, alongGrating R γ θ * sin θ + acrossGrating R γ θ * cos θ⟩ := by
  have h1 := sin_sq_add_cos_sq γ
  have h2 := sin_sq_add_cos_sq θ
  apply V3.ext
  · simp only [rowlandPoint, gratingPoint, alongGrating, acrossGrating, V3.sub_x, cos_add, sin_add]
    linear_combination (-(R * cos γ * sin γ)) * h2
  · simp [rowlandPoint, gratingPoint]
  · simp only [rowlandPoint, gratingPoint, alongGrating, acrossGrating, V3.sub_z, cos_add, sin_add]
    linear_combination R * h1 + (R * sin γ ^ 2) * h2

theorem gap_eq : alongGrating R γ θ ^ 2 + acrossGrating R γ θ ^ 2 = R ^ 2 * gap γ θ := by
  have h := sin_sq_add_cos_sq (γ + θ)
  unfold alongGrating acrossGrating gap
  linear_combination (R ^ 2 * sin γ ^ 2) * h

theorem gap_lower : (1 - |sin γ|) ^ 2 ≤ gap γ θ := by
  have h1 : sin γ * sin (γ + θ) ≤ |sin γ| := by
    calc sin γ * sin (γ + θ) ≤ |sin γ * sin (γ + θ)| := le_abs_self _
      _ = |sin γ| * |sin (γ + θ)| := abs_mul _ _
      _ ≤ |sin γ| * 1 := by gcongr; exact abs_sin_le_one _
      _ = |sin γ| := mul_one _
  have h2 := sq_abs (sin γ)
  unfold gap
  nlinarith

theorem gap_upper : gap γ θ ≤ 4 := by
  have h1 : -(sin γ * sin (γ + θ)) ≤ 1 := by
    have := neg_abs_le (sin γ * sin (γ + θ))
    rw [abs_mul] at this
    have h2 : |sin γ| * |sin (γ + θ)| ≤ 1 * 1 := mul_le_mul (abs_sin_le_one _) (abs_sin_le_one _) (abs_nonneg _) zero_le_one
    linarith
  have := sin_sq_le_one γ
  unfold gap
  nlinarith

theorem across_lower : 1 - |sin γ| ≤ 1 - sin γ * sin (γ + θ) := by
  have : sin γ * sin (γ + θ) ≤ |sin γ| := by
    calc sin γ * sin (γ + θ) ≤ |sin γ * sin (γ + θ)| := le_abs_self _
      _ = |sin γ| * |sin (γ + θ)| := abs_mul _ _
      _ ≤ |sin γ| * 1 := by gcongr; exact abs_sin_le_one _
      _ = |sin γ| := mul_one _
  linarith

/-- Seen from a point of the grating, a point of the Rowland circle has the same sine along the rulings as from the vertex,
up to the third power of the aperture. -/
theorem sine_near (hs : |sin γ| < 1) (h1 : |θ| ≤ 1) (hc : 0 ≤ cos (γ + θ)) :
    |sin γ * cos (γ + θ) / √(gap γ θ) - sin γ * cos θ| ≤ 5 / (1 - |sin γ|) ^ 2 * |θ| ^ 3 := by
  have hq := gap_lower γ θ
  have hp : 0 < (1 - |sin γ|) ^ 2 := by
    have : 0 < 1 - |sin γ| := by linarith
    positivity
  have hq0 : 0 < gap γ θ := lt_of_lt_of_le hp hq
  have hcq := one_sub_sq_div_two_le_cos (x := θ)
  have hθ2 : θ ^ 2 ≤ |θ| := by
    rw [← sq_abs]; nlinarith [abs_nonneg θ]
  have hcθ : 1 / 2 ≤ cos θ := by
    have h2 : θ ^ 2 ≤ 1 := by rw [← sq_abs]; exact pow_le_one₀ (abs_nonneg _) h1
    linarith
  set T := cos (γ + θ) / √(gap γ θ) with hT
  have hT0 : 0 ≤ T := div_nonneg hc (sqrt_nonneg _)
  have hTsq : T ^ 2 * gap γ θ = cos (γ + θ) ^ 2 := by
    rw [hT, div_pow, sq_sqrt hq0.le]; field_simp
  have key : (T ^ 2 - cos θ ^ 2) * gap γ θ = (1 - cos θ) *
      (sin γ ^ 2 * (1 - cos θ) * (1 + 2 * cos θ) - 2 * sin γ * cos γ * sin θ * cos θ) := by
    rw [sub_mul, hTsq]
    have e1 := sin_sq_add_cos_sq γ
    have e2 := sin_sq_add_cos_sq θ
    unfold gap
    rw [cos_add, sin_add]
    linear_combination (cos θ ^ 2) * e1 + (sin γ ^ 2) * e2
  have hb : |sin γ ^ 2 * (1 - cos θ) * (1 + 2 * cos θ) - 2 * sin γ * cos γ * sin θ * cos θ| ≤ 5 * |θ| := by
    have a1 : |sin γ ^ 2 * (1 - cos θ) * (1 + 2 * cos θ)| ≤ 1 * (|θ| / 2) * 3 := by
      rw [abs_mul, abs_mul]
      have b1 : |sin γ ^ 2| ≤ 1 := by rw [abs_of_nonneg (sq_nonneg _)]; exact sin_sq_le_one γ
      have b2 : |1 - cos θ| ≤ |θ| / 2 := by rw [abs_of_nonneg (by linarith [cos_le_one θ])]; linarith
      have b3 : |1 + 2 * cos θ| ≤ 3 := by rw [abs_of_nonneg (by linarith)]; linarith [cos_le_one θ]
      gcongr
    have a2 : |2 * sin γ * cos γ * sin θ * cos θ| ≤ 2 * 1 * 1 * |θ| * 1 := by
      rw [abs_mul, abs_mul, abs_mul, abs_mul, abs_two]
      have c1 := abs_sin_le_one γ
      have c2 := abs_cos_le_one γ
      have c3 : |sin θ| ≤ |θ| := abs_sin_le_abs
      have c4 := abs_cos_le_one θ
      exact mul_le_mul (mul_le_mul (mul_le_mul (mul_le_mul le_rfl c1 (abs_nonneg _) (by norm_num)) c2 (abs_nonneg _)
        (by norm_num)) c3 (abs_nonneg _) (by norm_num)) c4 (abs_nonneg _) (by positivity)
    have := abs_sub (sin γ ^ 2 * (1 - cos θ) * (1 + 2 * cos θ)) (2 * sin γ * cos γ * sin θ * cos θ)
    have := abs_nonneg θ
    linarith
  have hTc : |T - cos θ| * ((1 - |sin γ|) ^ 2 / 2) ≤ |θ| ^ 2 / 2 * (5 * |θ|) := by
    have e : (T - cos θ) * ((T + cos θ) * gap γ θ) = (1 - cos θ) *
      (sin γ ^ 2 * (1 - cos θ) * (1 + 2 * cos θ) - 2 * sin γ * cos γ * sin θ * cos θ) := by
      rw [← key]; ring
    have e' := congrArg abs e
    rw [abs_mul, abs_mul (1 - cos θ), abs_of_nonneg (by positivity : 0 ≤ (T + cos θ) * gap γ θ)] at e'
    have h3 : (1 - |sin γ|) ^ 2 / 2 ≤ (T + cos θ) * gap γ θ := by
      have : 1 / 2 * (1 - |sin γ|) ^ 2 ≤ (T + cos θ) * gap γ θ := by
        apply mul_le_mul _ hq hp.le (by linarith)
        linarith
      linarith
    calc |T - cos θ| * ((1 - |sin γ|) ^ 2 / 2) ≤ |T - cos θ| * ((T + cos θ) * gap γ θ) := by gcongr
      _ = _ := e'
      _ ≤ |θ| ^ 2 / 2 * (5 * |θ|) := by
        gcongr
        rw [abs_of_nonneg (by linarith [cos_le_one θ]), sq_abs]; linarith
  have hS : sin γ * cos (γ + θ) / √(gap γ θ) - sin γ * cos θ = sin γ * (T - cos θ) := by
    rw [hT]; ring
  rw [hS, abs_mul]
  have h4 : |T - cos θ| ≤ 5 / (1 - |sin γ|) ^ 2 * |θ| ^ 3 := by
    rw [div_mul_eq_mul_div, le_div_iff₀ hp]; linarith
  calc |sin γ| * |T - cos θ| ≤ 1 * |T - cos θ| := by gcongr
    _ ≤ _ := by linarith

/-- Two directions with nearly the same sine differ little: the distance of the point `(X, Z)` from the ray with the
sine `τ`. -/
theorem miss_le {X Z τ K : ℝ} (hZ : 0 < Z) (hL : √(X ^ 2 + Z ^ 2) ≤ K) (hτ : τ ^ 2 ≤ 1) :
    √((√(X ^ 2 + Z ^ 2) * τ - X) ^ 2 + (√(X ^ 2 + Z ^ 2) * √(1 - τ ^ 2) - Z) ^ 2) ≤
      (K + 2 * K ^ 2 / Z) * |X / √(X ^ 2 + Z ^ 2) - τ| := by
  set L := √(X ^ 2 + Z ^ 2) with hLd
  have hL2 : L ^ 2 = X ^ 2 + Z ^ 2 := sq_sqrt (by positivity)
  have hL0 : 0 < L := sqrt_pos.2 (by positivity)
  set σ := X / L with hσ
  have hX : X = L * σ := by rw [hσ]; field_simp
  set κ := √(1 - τ ^ 2) with hκ
  have hκ0 : 0 ≤ κ := sqrt_nonneg _
  have hκ2 : κ ^ 2 = 1 - τ ^ 2 := sq_sqrt (by linarith)
  have hκ1 : κ ≤ 1 := by nlinarith [sq_nonneg τ]
  have hτ1 : |τ| ≤ 1 := abs_le_one_iff_mul_self_le_one.2 (by nlinarith)
  have hσ1 : |σ| ≤ 1 := by
    apply abs_le_one_iff_mul_self_le_one.2
    have : L ^ 2 * (σ * σ) ≤ L ^ 2 * 1 := by
      have : L ^ 2 * (σ * σ) = X ^ 2 := by rw [hX]; ring
      nlinarith [sq_nonneg Z]
    exact le_of_mul_le_mul_left this (by positivity)
  have hd : (L * κ - Z) * (L * κ + Z) = L ^ 2 * ((σ - τ) * (σ + τ)) := by
    have : X ^ 2 = L ^ 2 * σ ^ 2 := by rw [hX]; ring
    nlinarith
  have hd' : |L * κ - Z| * Z ≤ L ^ 2 * (|σ - τ| * 2) := by
    have e := congrArg abs hd
    rw [abs_mul, abs_mul, abs_mul, abs_of_nonneg (by positivity : 0 ≤ L * κ + Z), abs_of_nonneg (sq_nonneg L)] at e
    calc |L * κ - Z| * Z ≤ |L * κ - Z| * (L * κ + Z) := by
          gcongr; nlinarith
      _ = _ := e
      _ ≤ L ^ 2 * (|σ - τ| * 2) := by
        gcongr
        linarith [abs_add_le σ τ]
  have hd'' : |L * κ - Z| ≤ 2 * L ^ 2 / Z * |σ - τ| := by
    rw [div_mul_eq_mul_div, le_div_iff₀ hZ]; linarith
  have hK : 0 < K := lt_of_lt_of_le hL0 hL
  have hs : |L * τ - X| = L * |σ - τ| := by
    rw [hX, ← mul_sub, abs_mul, abs_of_pos hL0, abs_sub_comm]
  calc √((L * τ - X) ^ 2 + (L * κ - Z) ^ 2) ≤ √((|L * τ - X| + |L * κ - Z|) ^ 2) := by
        apply sqrt_le_sqrt
        nlinarith [sq_abs (L * τ - X), sq_abs (L * κ - Z), mul_nonneg (abs_nonneg (L * τ - X)) (abs_nonneg (L * κ - Z))]
    _ = |L * τ - X| + |L * κ - Z| := sqrt_sq (by positivity)
    _ ≤ K * |σ - τ| + 2 * K ^ 2 / Z * |σ - τ| := by
      rw [hs]
      gcongr
      exact hd''.trans (by gcongr)
    _ = _ := by ring

theorem len_turn (p q : ℝ) : V3.len ⟨p * cos θ - q * sin θ, 0, p * sin θ + q * cos θ⟩ = √(p ^ 2 + q ^ 2) := by
  have e2 := sin_sq_add_cos_sq θ
  unfold V3.len V3.dot
  congr 1
  linear_combination (p ^ 2 + q ^ 2) * e2

/-! ### The model -/

variable {R θ}

/-- Light that comes from inside the sphere strikes the grating at the point at which it was aimed. -/
theorem strike_intercept (hR : 0 < R) {L σ ζ : ℝ} (h1 : σ ^ 2 + ζ ^ 2 = 1) (hζ : 0 < ζ)
    (hz : 0 < σ * sin θ + ζ * cos θ) :
    sphereIntercept R (gratingPoint R θ + L • (⟨σ * cos θ - ζ * sin θ, 0, σ * sin θ + ζ * cos θ⟩ : V3))
      (⟨-(σ * cos θ - ζ * sin θ), 0, -(σ * sin θ + ζ * cos θ)⟩) = some (gratingPoint R θ) := by
  have e2 := sin_sq_add_cos_sq θ
  have hsg : sgn (R * -(σ * sin θ + ζ * cos θ)) = -1 := by
    unfold sgn; rw [if_pos (by nlinarith)]
  have hb : -(σ * cos θ - ζ * sin θ) * (R * sin θ + L * (σ * cos θ - ζ * sin θ)) + 0 * (0 + L * 0)
      + -(σ * sin θ + ζ * cos θ) * (R - R * cos θ + L * (σ * sin θ + ζ * cos θ) - R) = R * ζ - L := by
    linear_combination (R * ζ - L * (σ ^ 2 + ζ ^ 2)) * e2 - L * h1
  have hd : (R * ζ - L) ^ 2 - ((R * sin θ + L * (σ * cos θ - ζ * sin θ)) ^ 2 + (0 + L * 0) ^ 2
      + (R - R * cos θ + L * (σ * sin θ + ζ * cos θ) - R) ^ 2 - R ^ 2) = (R * ζ) ^ 2 := by
    linear_combination (-R ^ 2 + 2 * R * L * ζ - L ^ 2 * (σ ^ 2 + ζ ^ 2)) * e2 - L ^ 2 * h1
  unfold sphereIntercept gratingPoint
  simp only [V3.add_x, V3.add_y, V3.add_z, V3.smul_x, V3.smul_y, V3.smul_z, hsg, hb, hd]
  have hsq : sqrt? ((R * ζ) ^ 2) = some (R * ζ) := by
    rw [sqrt?_eq_some]; exact ⟨sq_nonneg _, (sqrt_sq (by positivity)).symm⟩
  rw [hsq]
  simp only [Option.bind_eq_bind, Option.bind_some, Option.pure_def, Option.some.injEq]
  apply V3.ext <;> simp <;> ring

theorem strike_normal (hR : 0 < R) (hc : 0 ≤ cos θ) :
    sphereNormal R (gratingPoint R θ) = some ⟨sin θ, 0, -cos θ⟩ := by
  have e2 := sin_sq_add_cos_sq θ
  unfold sphereNormal gratingPoint div?
  rw [if_neg hR.ne']
  have h1 : 1 / R * (R * sin θ) = sin θ := by field_simp
  have hsq : sqrt? (1 - sin θ ^ 2 - 0 ^ 2) = some (cos θ) := by
    rw [sqrt?_eq_some]
    have : 1 - sin θ ^ 2 - 0 ^ 2 = cos θ ^ 2 := by linarith
    rw [this]
    exact ⟨sq_nonneg _, (sqrt_sq hc).symm⟩
  simp only [Option.bind_eq_bind, Option.bind_some, h1, mul_zero, hsq, Option.pure_def]

theorem strike_effective {d m w n σ ζ : ℝ} (hd : d ≠ 0) (hn : 0 < n) (hζ : 0 < ζ) :
    rulingsIncidentEffective (constantSpacing d ⟨1, 0, 0⟩ (gratingPoint R θ) ⟨sin θ, 0, -cos θ⟩) m w
      ⟨-(σ * cos θ - ζ * sin θ), 0, -(σ * sin θ + ζ * cos θ)⟩ n ⟨sin θ, 0, -cos θ⟩ =
    some ⟨-(σ * cos θ - ζ * sin θ) + m * w / (n * d), 0, -(σ * sin θ + ζ * cos θ)⟩ := by
  have e2 := sin_sq_add_cos_sq θ
  have hlen : (d • (⟨1, 0, 0⟩ : V3)).len = |d| := by
    unfold V3.len V3.dot
    simp only [V3.smul_x, V3.smul_y, V3.smul_z, mul_one, mul_zero, _root_.add_zero]
    exact sqrt_mul_self_eq_abs d
  have hau : -(σ * cos θ - ζ * sin θ) * sin θ + 0 * 0 + -(σ * sin θ + ζ * cos θ) * -cos θ = ζ := by
    linear_combination ζ * e2
  have hau' : -(σ * cos θ - ζ * sin θ) * sin θ + -(σ * sin θ + ζ * cos θ) * -cos θ = ζ := by
    linear_combination ζ * e2
  have hs : sgn ζ = 1 := by unfold sgn; rw [if_neg (by linarith), if_neg hζ.ne']
  have hd' : |d| ≠ 0 := abs_ne_zero.2 hd
  have hq : 1 * m * w * (d / |d|) / (n * |d|) = m * w / (n * d) := by
    have : |d| * |d| = d * d := abs_mul_abs_self d
    field_simp
    rw [sq_abs]
  unfold rulingsIncidentEffective constantSpacing incidentEffective div?
  simp only [Option.bind_eq_bind, Option.bind_some, hlen, V3.smul_x, V3.smul_y, V3.smul_z, if_neg hd', hau', hs,
    if_neg (mul_ne_zero hn.ne' hd'), Option.pure_def, mul_zero, mul_one, zero_div, _root_.add_zero, hq]

theorem strike_snell {n κ σ ζ : ℝ} (hn : 0 < n) (h1 : 0 < ζ + κ * sin θ) (hτ : (κ * cos θ - σ) ^ 2 ≤ 1) :
    snellsLaw ⟨-(σ * cos θ - ζ * sin θ) + κ, 0, -(σ * sin θ + ζ * cos θ)⟩ n n true ⟨sin θ, 0, -cos θ⟩ =
    some ⟨(κ * cos θ - σ) * cos θ - √(1 - (κ * cos θ - σ) ^ 2) * sin θ, 0,
      (κ * cos θ - σ) * sin θ + √(1 - (κ * cos θ - σ) ^ 2) * cos θ⟩ := by
  have e2 := sin_sq_add_cos_sq θ
  have hau : (-(σ * cos θ - ζ * sin θ) + κ) * sin θ + 0 * 0 + -(σ * sin θ + ζ * cos θ) * -cos θ = ζ + κ * sin θ := by
    linear_combination ζ * e2
  have hcs : copysign1 (ζ + κ * sin θ) = 1 := by unfold copysign1; rw [if_neg (by linarith)]
  have hr : div? n n = some 1 := by unfold div?; rw [if_neg hn.ne', div_self hn.ne']
  have hq : div? 1 (1 * 1) = some 1 := by unfold div?; norm_num
  have hdisc : 1 + (ζ + κ * sin θ) * (ζ + κ * sin θ) - ((-(σ * cos θ - ζ * sin θ) + κ) * (-(σ * cos θ - ζ * sin θ) + κ)
      + 0 * 0 + -(σ * sin θ + ζ * cos θ) * -(σ * sin θ + ζ * cos θ)) = 1 - (κ * cos θ - σ) ^ 2 := by
    linear_combination (-(σ ^ 2 + ζ ^ 2) + κ ^ 2) * e2
  have hs : sqrt? (1 - (κ * cos θ - σ) ^ 2) = some (√(1 - (κ * cos θ - σ) ^ 2)) := by
    rw [sqrt?_eq_some]; exact ⟨by linarith, rfl⟩
  unfold snellsLaw
  simp only [hau, hr, hcs, Option.bind_eq_bind, Option.bind_some, hq, hdisc, hs, Option.pure_def, Option.some.injEq, if_true]
  apply V3.ext
  · simp only
    linear_combination (-κ) * e2
  · simp
  · simp only
    ring

end

/-- The ray from the source to the point of the grating. -/
theorem strike {R α θ κ d m : ℝ} (hR : 0 < R) (hs : |sin α| < 1) (hc : 0 < cos θ) (hz : sin α ^ 2 < cos θ) (hd : d ≠ 0)
    {r : Ray} (hn : 0 < r.index) (hp : r.position = rowlandPoint R α)
    (ha : r.direction = (1 / (gratingPoint R θ - rowlandPoint R α).len) • (gratingPoint R θ - rowlandPoint R α))
    (hκ : m * r.wavelength / (r.index * d) = κ)
    (h1 : 0 < (1 - sin α * sin (α + θ)) / √(gap α θ) + κ * sin θ)
    (hτ : (κ * cos θ - sin α * cos (α + θ) / √(gap α θ)) ^ 2 ≤ 1) :
    ∃ out, (concaveGrating R d m).propagate r = some out ∧ out.position = gratingPoint R θ ∧
      out.direction = ⟨(κ * cos θ - sin α * cos (α + θ) / √(gap α θ)) * cos θ
        - √(1 - (κ * cos θ - sin α * cos (α + θ) / √(gap α θ)) ^ 2) * sin θ, 0,
      (κ * cos θ - sin α * cos (α + θ) / √(gap α θ)) * sin θ
        + √(1 - (κ * cos θ - sin α * cos (α + θ) / √(gap α θ)) ^ 2) * cos θ⟩ := by
  have hg : 0 < gap α θ := lt_of_lt_of_le (by have : 0 < 1 - |sin α| := by linarith
                                              positivity) (gap_lower α θ)
  set G := √(gap α θ) with hG
  have hG0 : 0 < G := sqrt_pos.2 hg
  have hG2 : G ^ 2 = gap α θ := sq_sqrt hg.le
  set σ := sin α * cos (α + θ) / G with hσ
  set ζ := (1 - sin α * sin (α + θ)) / G with hζ
  have hζ0 : 0 < ζ := div_pos (by linarith [across_lower α θ]) hG0
  have hX : alongGrating R α θ = R * G * σ := by unfold alongGrating; rw [hσ]; field_simp
  have hZ : acrossGrating R α θ = R * G * ζ := by unfold acrossGrating; rw [hζ]; field_simp
  have hu : σ ^ 2 + ζ ^ 2 = 1 := by
    have e := gap_eq R α θ
    rw [hX, hZ, ← hG2] at e
    have : (R * G) ^ 2 * (σ ^ 2 + ζ ^ 2) = (R * G) ^ 2 * 1 := by linarith
    exact mul_left_cancel₀ (by positivity) this
  have hA : rowlandPoint R α = gratingPoint R θ + (R * G) • (⟨σ * cos θ - ζ * sin θ, 0, σ * sin θ + ζ * cos θ⟩ : V3) := by
    have e := rowland_sub R α θ
    rw [hX, hZ] at e
    have ex := congrArg V3.x e
    have ey := congrArg V3.y e
    have ez := congrArg V3.z e
    simp only [V3.sub_x, V3.sub_y, V3.sub_z] at ex ey ez
    apply V3.ext <;> simp only [V3.add_x, V3.add_y, V3.add_z, V3.smul_x, V3.smul_y, V3.smul_z] <;> linarith
  have hPA : gratingPoint R θ - rowlandPoint R α = (R * G) • (⟨-(σ * cos θ - ζ * sin θ), 0, -(σ * sin θ + ζ * cos θ)⟩ : V3) := by
    rw [hA]; apply V3.ext <;> simp <;> ring
  have hlen : (gratingPoint R θ - rowlandPoint R α).len = R * G := by
    rw [hPA]
    have e := len_turn (θ := θ) (R * G * -σ) (R * G * -ζ)
    have e2 : √((R * G * -σ) ^ 2 + (R * G * -ζ) ^ 2) = R * G := by
      have : (R * G * -σ) ^ 2 + (R * G * -ζ) ^ 2 = (R * G) ^ 2 := by linear_combination (R * G) ^ 2 * hu
      rw [this]; exact sqrt_sq (by positivity)
    rw [e2] at e
    refine Eq.trans ?_ e
    congr 1
    apply V3.ext <;> simp <;> ring
  have hdir : r.direction = ⟨-(σ * cos θ - ζ * sin θ), 0, -(σ * sin θ + ζ * cos θ)⟩ := by
    rw [ha, hlen, hPA]
    have : R * G ≠ 0 := by positivity
    apply V3.ext <;> simp only [V3.smul_x, V3.smul_y, V3.smul_z] <;> field_simp
  have hdown : 0 < σ * sin θ + ζ * cos θ := by
    have ez := congrArg V3.z hA
    simp only [V3.add_z, V3.smul_z, rowlandPoint, gratingPoint] at ez
    have e1 := sin_sq_add_cos_sq α
    have : 0 < R * G * (σ * sin θ + ζ * cos θ) := by
      have : R * G * (σ * sin θ + ζ * cos θ) = R * (cos θ - sin α ^ 2) := by linear_combination -ez + R * e1
      rw [this]; exact mul_pos hR (by linarith)
    exact (mul_pos_iff_of_pos_left (by positivity)).1 this
  have hI := strike_intercept (θ := θ) hR (L := R * G) hu hζ0 hdown
  rw [← hA] at hI
  have hN := strike_normal (θ := θ) hR hc.le
  have hE := strike_effective (R := R) (θ := θ) (d := d) (m := m) (w := r.wavelength) (n := r.index) (σ := σ) (ζ := ζ) hd hn hζ0
  rw [hκ] at hE
  have hS := strike_snell (θ := θ) (n := r.index) (κ := κ) (σ := σ) (ζ := ζ) hn h1 hτ
  have hdv : div? r.index r.index = some 1 := by unfold div?; rw [if_neg hn.ne', div_self hn.ne']
  have hdw : div? r.wavelength 1 = some r.wavelength := by unfold div?; norm_num
  unfold Surface.propagate concaveGrating
  simp only [Surface.propagateLocal, Sag.propagate, sphereSag, hp, hdir, hI, Option.bind_eq_bind, Option.bind_some,
    Option.pure_def, Surface.interact, hN, Surface.effectiveRay, idealRulings, hE, Option.map_some, mirror, hdv, hdw, hS,
    Surface.rulingFactor, Surface.clip, Option.some.injEq, exists_eq_left', and_self]

/-! ### The property -/

/-- **C119.**  A concave mechanically ruled grating focuses the light of a source on its Rowland circle on the Rowland
circle.  Let the source and the image be any points of the circle, seen from the vertex at the angles `α` and `β`.  Then
light from the source of every wavelength, in every order and for every spacing of the rulings that meet the equation
of the grating for these angles, that strikes the grating at the angle `θ` from its axis is diffracted, and when it has
travelled as far as the image it is closer to the image than a constant times the third power of `θ`: there is
neither defocus nor coma of the second order. -/
theorem C119_rowland {R α β : ℝ} (hR : 0 < R) (hα : |α| < π / 2) (hβ : |β| < π / 2) :
    ∃ C δ : ℝ, 0 < δ ∧ ∀ θ, |θ| < δ → ∀ (d m : ℝ) (r : Ray), d ≠ 0 → 0 < r.index →
      r.position = rowlandPoint R α →
      r.direction = (1 / (gratingPoint R θ - rowlandPoint R α).len) • (gratingPoint R θ - rowlandPoint R α) →
      m * r.wavelength / d = r.index * (sin α + sin β) →
      ∃ out, (concaveGrating R d m).propagate r = some out ∧ out.position = gratingPoint R θ ∧ out.direction.len = 1 ∧
        (out.position + (rowlandPoint R β - out.position).len • out.direction - rowlandPoint R β).len ≤ C * |θ| ^ 3 := by
  have sin_lt : ∀ γ : ℝ, |γ| < π / 2 → |sin γ| < 1 := by
    intro γ h
    have hc : 0 < cos γ := cos_pos_of_mem_Ioo (abs_lt.1 h)
    have := sin_sq_add_cos_sq γ
    rw [← sq_lt_one_iff_abs_lt_one]; nlinarith
  have hsα := sin_lt α hα
  have hsβ := sin_lt β hβ
  set A := 1 - |sin α| with hA
  set B := 1 - |sin β| with hB
  have hA0 : 0 < A := by linarith
  have hB0 : 0 < B := by linarith
  have hA1 : A ≤ 1 := by linarith [abs_nonneg (sin α)]
  refine ⟨(2 * R + 2 * (2 * R) ^ 2 / (R * B)) * (5 / A ^ 2 + 5 / B ^ 2),
    min (min (π / 2 - |α|) (π / 2 - |β|)) (min (A / 4) (B * A ^ 2 / 5)), ?_, ?_⟩
  · have : 0 < π / 2 - |α| := by linarith
    have : 0 < π / 2 - |β| := by linarith
    positivity
  intro θ hθ d m r hd hn hp ha hm
  simp only [lt_min_iff] at hθ
  obtain ⟨⟨hθα, hθβ⟩, hθA, hθB⟩ := hθ
  have hθ1 : |θ| ≤ 1 := by linarith
  have hcos : ∀ γ : ℝ, |θ| < π / 2 - |γ| → 0 ≤ cos (γ + θ) := by
    intro γ h
    apply cos_nonneg_of_mem_Icc
    have := abs_add_le γ θ
    exact abs_le.1 (by linarith)
  have hcq := one_sub_sq_div_two_le_cos (x := θ)
  have hθ2 : θ ^ 2 ≤ |θ| := by rw [← sq_abs]; nlinarith [abs_nonneg θ]
  have hθ3 : |θ| ^ 3 ≤ |θ| := by
    have := abs_nonneg θ
    nlinarith [mul_nonneg this this]
  have hc0 : 0 < cos θ := by linarith
  have nα := sine_near α θ hsα hθ1 (hcos α hθα)
  have nβ := sine_near β θ hsβ hθ1 (hcos β hθβ)
  set κ := sin α + sin β with hκd
  have hκ : m * r.wavelength / (r.index * d) = κ := by
    rw [div_eq_iff (mul_ne_zero hn.ne' hd)]
    rw [div_eq_iff hd] at hm
    linarith
  have hκ2 : |κ| ≤ 2 := by
    have := abs_add_le (sin α) (sin β)
    linarith
  set G := √(gap α θ) with hG
  have hg : 0 < gap α θ := lt_of_lt_of_le (by positivity) (gap_lower α θ)
  have hG0 : 0 < G := sqrt_pos.2 hg
  have hG2 : G ≤ 2 := by
    rw [hG, sqrt_le_left (by norm_num)]; linarith [gap_upper α θ]
  set τ := κ * cos θ - sin α * cos (α + θ) / G with hτd
  have hτs : |τ - sin β * cos θ| ≤ 5 / A ^ 2 * |θ| ^ 3 := by
    have : τ - sin β * cos θ = -(sin α * cos (α + θ) / G - sin α * cos θ) := by rw [hτd, hκd]; ring
    rw [this, abs_neg]; exact nα
  have hτ1 : |τ| ≤ 1 := by
    have t1 : 5 / A ^ 2 * |θ| ^ 3 ≤ B := by
      calc 5 / A ^ 2 * |θ| ^ 3 ≤ 5 / A ^ 2 * (B * A ^ 2 / 5) := by gcongr; linarith
        _ = B := by field_simp
    have t2 : |sin β * cos θ| ≤ |sin β| := by
      rw [abs_mul]; exact mul_le_of_le_one_right (abs_nonneg _) (abs_cos_le_one _)
    have t3 : |τ| ≤ |τ - sin β * cos θ| + |sin β * cos θ| := by
      have := abs_add_le (τ - sin β * cos θ) (sin β * cos θ); rwa [sub_add_cancel] at this
    linarith
  have hτ2 : τ ^ 2 ≤ 1 := by rw [← sq_abs]; exact pow_le_one₀ (abs_nonneg _) hτ1
  have h1 : 0 < (1 - sin α * sin (α + θ)) / G + κ * sin θ := by
    have a1 : A / 2 ≤ (1 - sin α * sin (α + θ)) / G := by
      have := across_lower α θ
      exact div_le_div₀ (by linarith) this hG0 hG2
    have a2 : |κ * sin θ| ≤ 2 * |θ| := by
      rw [abs_mul]; exact mul_le_mul hκ2 abs_sin_le_abs (abs_nonneg _) (by norm_num)
    have := neg_abs_le (κ * sin θ)
    linarith
  have hz : sin α ^ 2 < cos θ := by
    have : sin α ^ 2 ≤ |sin α| := by rw [← sq_abs]; nlinarith [abs_nonneg (sin α)]
    linarith
  obtain ⟨out, ho, hpo, hdo⟩ := strike hR hsα hc0 hz hd hn hp ha hκ h1 hτ2
  refine ⟨out, ho, hpo, ?_, ?_⟩
  · rw [hdo, len_turn, sq_sqrt (by linarith)]
    norm_num
  rw [hpo, hdo]
  set X := alongGrating R β θ with hX
  set Z := acrossGrating R β θ with hZ
  have hgβ : 0 < gap β θ := lt_of_lt_of_le (by positivity) (gap_lower β θ)
  have hZB : R * B ≤ Z := by
    rw [hZ]; unfold acrossGrating; gcongr; exact across_lower β θ
  have hZ0 : 0 < Z := lt_of_lt_of_le (by positivity) hZB
  have hL : √(X ^ 2 + Z ^ 2) = R * √(gap β θ) := by
    rw [gap_eq, sqrt_mul (by positivity), sqrt_sq hR.le]
  have hL2 : √(X ^ 2 + Z ^ 2) ≤ 2 * R := by
    rw [hL]
    have : √(gap β θ) ≤ 2 := by rw [sqrt_le_left (by norm_num)]; linarith [gap_upper β θ]
    rw [mul_comm 2 R]
    exact mul_le_mul_of_nonneg_left this hR.le
  have hlen : (rowlandPoint R β - gratingPoint R θ).len = √(X ^ 2 + Z ^ 2) := by
    rw [rowland_sub, len_turn]
  have hσ : X / √(X ^ 2 + Z ^ 2) = sin β * cos (β + θ) / √(gap β θ) := by
    rw [hL, hX]; unfold alongGrating
    rw [mul_div_mul_left _ _ hR.ne']
  have hv : gratingPoint R θ + √(X ^ 2 + Z ^ 2) • (⟨τ * cos θ - √(1 - τ ^ 2) * sin θ, 0, τ * sin θ + √(1 - τ ^ 2) * cos θ⟩ : V3)
      - rowlandPoint R β = ⟨(√(X ^ 2 + Z ^ 2) * τ - X) * cos θ - (√(X ^ 2 + Z ^ 2) * √(1 - τ ^ 2) - Z) * sin θ, 0,
        (√(X ^ 2 + Z ^ 2) * τ - X) * sin θ + (√(X ^ 2 + Z ^ 2) * √(1 - τ ^ 2) - Z) * cos θ⟩ := by
    have e := rowland_sub R β θ
    have ex := congrArg V3.x e
    have ey := congrArg V3.y e
    have ez := congrArg V3.z e
    simp only [V3.sub_x, V3.sub_y, V3.sub_z] at ex ey ez
    apply V3.ext <;> simp only [V3.sub_x, V3.sub_y, V3.sub_z, V3.add_x, V3.add_y, V3.add_z, V3.smul_x, V3.smul_y, V3.smul_z] <;> linarith
  rw [hlen, hv, len_turn]
  refine (miss_le hZ0 hL2 hτ2).trans ?_
  rw [hσ, mul_assoc]
  have t4 : |sin β * cos (β + θ) / √(gap β θ) - τ| ≤ (5 / A ^ 2 + 5 / B ^ 2) * |θ| ^ 3 := by
    have : sin β * cos (β + θ) / √(gap β θ) - τ = (sin β * cos (β + θ) / √(gap β θ) - sin β * cos θ) - (τ - sin β * cos θ) := by ring
    rw [this]
    refine (abs_sub _ _).trans ?_
    linarith
  gcongr

/-- Clipping changes neither position nor direction. -/
theorem clipped_grating {R d m : ℝ} {ap : Option Aperture} (hap : ∀ a, ap = some a → a.unit ≠ .other) {frame : Option Rigid}
    {r out : Ray} (h : (concaveGrating R d m).propagate r = some out) :
    ∃ out', Surface.propagateLocal ⟨sphereSag R, mirror, ap, some (idealRulings d m), frame⟩ r = some out' ∧
      out'.position = out.position ∧ out'.direction = out.direction := by
  have h0 : ((sphereSag R).propagate r).bind
      (Surface.interact ⟨sphereSag R, mirror, ap, some (idealRulings d m), frame⟩) = some out := by
    have : ((sphereSag R).propagate r).bind (fun r0 => ((concaveGrating R d m).interact r0).bind some) = some out := h
    simp only [Option.bind_fun_some] at this
    exact this
  have h1 : Surface.propagateLocal ⟨sphereSag R, mirror, ap, some (idealRulings d m), frame⟩ r =
      (((sphereSag R).propagate r).bind
        (Surface.interact ⟨sphereSag R, mirror, ap, some (idealRulings d m), frame⟩)).bind
        (Surface.clip ⟨sphereSag R, mirror, ap, some (idealRulings d m), frame⟩) := by
    rw [Option.bind_assoc]; rfl
  rw [h1, h0, Option.bind_some]
  cases ap with
  | none => exact ⟨out, rfl, rfl, rfl⟩
  | some a =>
    have ha := hap a rfl
    simp only [Surface.clip, Aperture.clip]
    cases hu : a.unit with
    | length => exact ⟨_, rfl, rfl, rfl⟩
    | dimensionless => exact ⟨_, rfl, rfl, rfl⟩
    | other => exact absurd hu ha

/-- **C119.**  The same wherever the grating is placed, however it is oriented and whatever aperture it has: its Rowland
circle moves along. -/
theorem C119_placed {R α β : ℝ} (hR : 0 < R) (hα : |α| < π / 2) (hβ : |β| < π / 2) :
    ∃ C δ : ℝ, 0 < δ ∧ ∀ θ, |θ| < δ → ∀ (d m : ℝ) (g : Rigid) (ap : Option Aperture) (r : Ray),
      d ≠ 0 → 0 < r.index → (∀ a, ap = some a → a.unit ≠ .other) →
      r.position = g.point (rowlandPoint R α) →
      r.direction = (1 / (g.point (gratingPoint R θ) - r.position).len) • (g.point (gratingPoint R θ) - r.position) →
      m * r.wavelength / d = r.index * (sin α + sin β) →
      ∃ out, Surface.propagate ⟨sphereSag R, mirror, ap, some (idealRulings d m), some g⟩ r = some out ∧
        out.position = g.point (gratingPoint R θ) ∧ out.direction.len = 1 ∧
        (out.position + (g.point (rowlandPoint R β) - out.position).len • out.direction
          - g.point (rowlandPoint R β)).len ≤ C * |θ| ^ 3 := by
  obtain ⟨C, δ, hδ, h⟩ := C119_rowland hR hα hβ
  refine ⟨C, δ, hδ, fun θ hθ d m g ap r hd hn hap hp ha hm => ?_⟩
  have hp' : (r.unmove g).position = rowlandPoint R α := by
    simp only [Ray.unmove, hp, Rigid.ipoint_point]
  have ha' : (r.unmove g).direction = (1 / (gratingPoint R θ - rowlandPoint R α).len) •
      (gratingPoint R θ - rowlandPoint R α) := by
    have hs : ∀ (c : ℝ) (v : V3), g.ivec (c • v) = c • g.ivec v := by
      intro c v
      simp only [Rigid.ivec, M3.mulVec]
      apply V3.ext <;> simp [V3.dot] <;> ring
    simp only [Ray.unmove, ha, hp, Rigid.point_sub_point, Rigid.vec_len, hs, Rigid.ivec_vec]
  obtain ⟨o, ho, h1, hl, h2⟩ := h θ hθ d m (r.unmove g) hd hn hp' ha' hm
  obtain ⟨o', ho', e1, e2⟩ := clipped_grating hap (frame := some g) ho
  refine ⟨o'.move g, ?_, ?_, ?_, ?_⟩
  · simp only [Surface.propagate, ho', Option.map_some]
  · simp only [Ray.move, e1, h1]
  · simp only [Ray.move, e2, Rigid.vec_len, hl]
  · simp only [Ray.move, e1, e2]
    rw [Rigid.point_sub_point, Rigid.vec_len]
    have : g.point o.position + (rowlandPoint R β - o.position).len • g.vec o.direction - g.point (rowlandPoint R β)
        = g.vec (o.position + (rowlandPoint R β - o.position).len • o.direction - rowlandPoint R β) := by
      rw [← Rigid.point_sub_point]
      congr 1
      simp only [Rigid.point, Rigid.vec, M3.mulVec]
      apply V3.ext <;> simp [V3.dot] <;> ring
    rw [this, Rigid.vec_len]
    exact h2

theorem turn_le (u v : V3) : |u.z * v.x - u.x * v.z| ≤ u.len * v.len := by
  unfold V3.len
  rw [← sqrt_mul (by unfold V3.dot; nlinarith [sq_nonneg u.x, sq_nonneg u.y, sq_nonneg u.z])]
  apply abs_le_sqrt
  unfold V3.dot
  nlinarith [sq_nonneg (u.x * v.x + u.z * v.z), sq_nonneg (u.y * v.x), sq_nonneg (u.y * v.y), sq_nonneg (u.y * v.z),
    sq_nonneg (u.x * v.y), sq_nonneg (u.z * v.y)]

/-- **C119.**  The focus is on the circle and nowhere else: at any other distance in the direction of the image the rays
pass by at a distance that is only of the first order in the aperture, because the beam is out of focus there. -/
theorem C119_only {R α β ρ : ℝ} (hR : 0 < R) (hα : |α| < π / 2) (hβ : |β| < π / 2) (hρ : ρ ≠ R * cos β) :
    ∃ c δ : ℝ, 0 < c ∧ 0 < δ ∧ ∀ θ, |θ| < δ → ∀ (d m : ℝ) (r out : Ray), d ≠ 0 → 0 < r.index →
      r.position = rowlandPoint R α →
      r.direction = (1 / (gratingPoint R θ - rowlandPoint R α).len) • (gratingPoint R θ - rowlandPoint R α) →
      m * r.wavelength / d = r.index * (sin α + sin β) → (concaveGrating R d m).propagate r = some out →
      ∀ t : ℝ, c * |θ| ≤ (out.position + t • out.direction - ⟨ρ * sin β, 0, ρ * cos β⟩).len := by
  obtain ⟨C, δ, hδ, h⟩ := C119_rowland hR hα hβ
  have hcβ : 0 < cos β := cos_pos_of_mem_Ioo (abs_lt.1 hβ)
  set D := |ρ - R * cos β| with hD
  have hD0 : 0 < D := abs_pos.2 (sub_ne_zero.2 hρ)
  set M := D * R / 2 + (D + 2 * R) * |C| + 1 with hM
  have hM0 : 0 < M := by positivity
  refine ⟨D * cos β / 8, min (min δ 1) (D * R * cos β / 4 / M), by positivity, by positivity, ?_⟩
  intro θ hθ d m r out hd hn hp ha hm ho t
  simp only [lt_min_iff] at hθ
  obtain ⟨⟨hθδ, hθ1⟩, hθM⟩ := hθ
  rw [lt_div_iff₀ hM0] at hθM
  obtain ⟨out', ho', hpo, hl, hw⟩ := h θ hθδ d m r hd hn hp ha hm
  obtain rfl : out' = out := Option.some.inj (ho'.symm.trans ho)
  clear h ho'
  rw [hpo] at hw ⊢
  set b := out'.direction with hb
  set P := gratingPoint R θ with hP
  set B := rowlandPoint R β with hB
  set L := (B - P).len with hL
  set w := P + L • b - B with hwd
  set y := P + t • b - (⟨ρ * sin β, 0, ρ * cos β⟩ : V3) with hy
  have hL2 : L ≤ 2 * R := by
    rw [hL, hB, hP, rowland_sub, len_turn, gap_eq, sqrt_mul (by positivity), sqrt_sq hR.le, mul_comm 2 R]
    have : √(gap β θ) ≤ 2 := by rw [sqrt_le_left (by norm_num)]; linarith [gap_upper β θ]
    exact mul_le_mul_of_nonneg_left this hR.le
  have hL0 : 0 ≤ L := sqrt_nonneg _
  have hwθ : w.len ≤ |C| * |θ| ^ 2 := by
    refine hw.trans ?_
    have h3 : |θ| ^ 3 ≤ |θ| ^ 2 := pow_le_pow_of_le_one (abs_nonneg _) hθ1.le (by norm_num)
    calc C * |θ| ^ 3 ≤ |C| * |θ| ^ 3 := by gcongr; exact le_abs_self C
      _ ≤ _ := by gcongr
  have hw0 : 0 ≤ w.len := sqrt_nonneg _
  have e : L * (y.z * b.x - y.x * b.z) = -((B - P).z * w.x - (B - P).x * w.z)
      + (ρ - R * cos β) * (cos β * P.x - sin β * P.z) - (ρ - R * cos β) * (cos β * w.x - sin β * w.z) := by
    have h1 : w.x = P.x + L * b.x - B.x := rfl
    have h2 : w.z = P.z + L * b.z - B.z := rfl
    have h3 : y.x = P.x + t * b.x - ρ * sin β := rfl
    have h4 : y.z = P.z + t * b.z - ρ * cos β := rfl
    have h5 : B.x = R * cos β * sin β := rfl
    have h6 : B.z = R * cos β * cos β := rfl
    simp only [V3.sub_x, V3.sub_z, h1, h2, h3, h4, h5, h6]
    ring
  have t1 := turn_le y b
  rw [hl, mul_one] at t1
  have t2 := turn_le (B - P) w
  rw [← hL] at t2
  have t3 : |cos β * w.x - sin β * w.z| ≤ w.len := by
    have := turn_le ⟨sin β, 0, cos β⟩ w
    have hu : V3.len ⟨sin β, 0, cos β⟩ = 1 := by
      unfold V3.len V3.dot
      have := sin_sq_add_cos_sq β
      rw [sqrt_eq_one]; linarith
    rwa [hu, one_mul] at this
  have t4 : R * |θ| * (1 / 2 * cos β - |θ| / 2) ≤ |cos β * P.x - sin β * P.z| := by
    have hPx : P.x = R * sin θ := rfl
    have hPz : P.z = R - R * cos θ := rfl
    have s1 : 1 / 2 * |θ| ≤ |sin θ| := by
      have h2 : |θ| ≤ π / 2 := by linarith [two_le_pi]
      have h3 : 1 / 2 ≤ 2 / π := by rw [div_le_div_iff₀ (by norm_num) pi_pos]; linarith [pi_le_four]
      calc 1 / 2 * |θ| ≤ 2 / π * |θ| := by gcongr
        _ ≤ |sin θ| := mul_abs_le_abs_sin h2
    have s2 : |sin β * (1 - cos θ)| ≤ |θ| ^ 2 / 2 := by
      rw [abs_mul, sq_abs]
      have := one_sub_sq_div_two_le_cos (x := θ)
      have h1 : |1 - cos θ| ≤ θ ^ 2 / 2 := by rw [abs_of_nonneg (by linarith [cos_le_one θ])]; linarith
      calc |sin β| * |1 - cos θ| ≤ 1 * (θ ^ 2 / 2) := by gcongr; exact abs_sin_le_one β
        _ = _ := by ring
    have s3 : cos β * P.x - sin β * P.z = R * (cos β * sin θ - sin β * (1 - cos θ)) := by rw [hPx, hPz]; ring
    rw [s3, abs_mul, abs_of_pos hR, mul_assoc]
    gcongr
    have s4 : |cos β * sin θ| = cos β * |sin θ| := by rw [abs_mul, abs_of_pos hcβ]
    have s5 := abs_sub_abs_le_abs_sub (cos β * sin θ) (sin β * (1 - cos θ))
    have s6 : cos β * (1 / 2 * |θ|) ≤ cos β * |sin θ| := by gcongr
    linarith
  have e' : D * |cos β * P.x - sin β * P.z| ≤ L * y.len + L * w.len + D * w.len := by
    have e1 : (ρ - R * cos β) * (cos β * P.x - sin β * P.z) = L * (y.z * b.x - y.x * b.z)
      + ((B - P).z * w.x - (B - P).x * w.z) + (ρ - R * cos β) * (cos β * w.x - sin β * w.z) := by linarith
    have e2 := congrArg abs e1
    rw [abs_mul, ← hD] at e2
    rw [e2]
    refine (abs_add_three _ _ _).trans ?_
    rw [abs_mul, abs_of_nonneg hL0, abs_mul, ← hD]
    gcongr
  have f1 : D * (R * |θ| * (1 / 2 * cos β - |θ| / 2)) ≤ 2 * R * y.len + (D + 2 * R) * (|C| * |θ| ^ 2) := by
    have hy0 : 0 ≤ y.len := sqrt_nonneg _
    calc D * (R * |θ| * (1 / 2 * cos β - |θ| / 2)) ≤ D * |cos β * P.x - sin β * P.z| := by gcongr
      _ ≤ L * y.len + L * w.len + D * w.len := e'
      _ = L * y.len + (D + L) * w.len := by ring
      _ ≤ _ := by gcongr
  have f2 : |θ| * (|θ| * M) ≤ |θ| * (D * R * cos β / 4) := mul_le_mul_of_nonneg_left hθM.le (abs_nonneg θ)
  have f3 : R * (D * cos β / 8 * |θ|) ≤ R * y.len := by
    have : 0 ≤ |θ| ^ 2 := by positivity
    rw [hM] at f2
    linarith
  exact le_of_mul_le_mul_left f3 hR

/-- Light of the wavelength half the spacing of the rulings that is incident at thirty degrees leaves along the axis. -/
example : ∃ C δ : ℝ, 0 < δ ∧ ∀ θ, |θ| < δ → ∃ out, (concaveGrating 1000 (1 / 1200) 1).propagate
      ⟨1 / 2400, rowlandPoint 1000 (π / 6), (1 / (gratingPoint 1000 θ - rowlandPoint 1000 (π / 6)).len) •
        (gratingPoint 1000 θ - rowlandPoint 1000 (π / 6)), 1, 0, 1, true⟩ = some out ∧
      (out.position + (rowlandPoint 1000 0 - out.position).len • out.direction - rowlandPoint 1000 0).len ≤ C * |θ| ^ 3 := by
  have h := C119_rowland (R := 1000) (α := π / 6) (β := 0) (by norm_num)
    (by rw [abs_of_pos (by positivity)]; linarith [pi_pos]) (by simp; positivity)
  obtain ⟨C, δ, hδ, h⟩ := h
  refine ⟨C, δ, hδ, fun θ hθ => ?_⟩
  obtain ⟨out, h1, -, -, h2⟩ := h θ hθ (1 / 1200) 1
    ⟨1 / 2400, rowlandPoint 1000 (π / 6), (1 / (gratingPoint 1000 θ - rowlandPoint 1000 (π / 6)).len) •
        (gratingPoint 1000 θ - rowlandPoint 1000 (π / 6)), 1, 0, 1, true⟩ (by norm_num) (by norm_num) rfl rfl
    (by simp only [sin_pi_div_six, sin_zero]; norm_num)
  exact ⟨out, h1, h2⟩

end Optika
