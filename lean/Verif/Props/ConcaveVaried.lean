import Verif.Props.VariedSpacing
import Mathlib.Analysis.Calculus.ContDiff.Operations
import Mathlib.Analysis.Calculus.ContDiff.Polynomial
import Mathlib.Analysis.Calculus.Deriv.Polynomial
import Mathlib.Analysis.Calculus.MeanValue
import Mathlib.Analysis.SpecialFunctions.Sqrt
import Mathlib.Analysis.SpecialFunctions.Trigonometric.Deriv

/-!
# C121: the focus of concave gratings
-/

namespace Optika

open Real V3 Filter Topology

/-! ### Calculus -/

/-- A function with a continuous second derivative, to first order. -/
theorem first_order {g : ℝ → ℝ} {g' : ℝ} (h : ContDiffAt ℝ 2 g 0) (hd : HasDerivAt g g' 0) :
    ∃ E, 0 ≤ E ∧ ∀ᶠ θ in 𝓝 (0 : ℝ), |g θ - g 0 - g' * θ| ≤ E * |θ| ^ 2 := by
  have h1 : ContDiffAt ℝ 1 (deriv g) 0 := by
    have h2 : ContDiffAt ℝ 1 (fun t => fderiv ℝ g t 1) 0 :=
      (h.fderiv_right (m := 1) (by norm_num)).clm_apply contDiffAt_const
    have e : deriv g = fun t => fderiv ℝ g t 1 := funext fun t => (fderiv_apply_one_eq_deriv).symm
    rw [e]; exact h2
  have hb := (h1.differentiableAt (by norm_num)).hasDerivAt.isBigO_sub
  obtain ⟨E, hE⟩ := hb.bound
  have hev : ∀ᶠ θ in 𝓝 (0 : ℝ), DifferentiableAt ℝ g θ := by
    have := h.eventually (by simp)
    exact this.mono fun θ h => h.differentiableAt (by norm_num)
  obtain ⟨δ, hδ, hball⟩ := Metric.eventually_nhds_iff.1 (hE.and hev)
  refine ⟨|E|, abs_nonneg _, ?_⟩
  refine Metric.eventually_nhds_iff.2 ⟨δ, hδ, fun θ hθ => ?_⟩
  rw [Real.dist_eq, _root_.sub_zero] at hθ
  have key := Convex.norm_image_sub_le_of_norm_hasDerivWithin_le (f := fun t => g t - g' * t)
    (f' := fun t => deriv g t - g') (s := Set.Icc (-|θ|) |θ|) (C := |E| * |θ|) (x := 0) (y := θ)
    (fun t ht => by
      have ht' : |t| < δ := lt_of_le_of_lt (abs_le.2 ht) hθ
      have := (hball (y := t) (by rwa [Real.dist_eq, _root_.sub_zero])).2.hasDerivAt
      have h2 : HasDerivAt (fun t => g t - g' * t) (deriv g t - g') t := by
        have h3 := this.fun_sub ((hasDerivAt_id' t).const_mul g')
        rwa [mul_one] at h3
      exact h2.hasDerivWithinAt)
    (fun t ht => by
      have ht' : |t| < δ := lt_of_le_of_lt (abs_le.2 ht) hθ
      have h2 := (hball (y := t) (by rwa [Real.dist_eq, _root_.sub_zero])).1
      rw [hd.deriv, _root_.sub_zero] at h2
      refine h2.trans ?_
      rw [Real.norm_eq_abs]
      have := abs_le.2 ht
      gcongr
      exact le_abs_self E)
    (convex_Icc _ _) ⟨by simp, by simp⟩ (abs_le.1 le_rfl)
  simp only [mul_zero, _root_.sub_zero, Real.norm_eq_abs] at key
  have e : g θ - g 0 - g' * θ = g θ - g' * θ - g 0 := by ring
  rw [e]
  calc _ ≤ _ := key
    _ = _ := by ring

/-! ### Geometry -/

/-- The component along the grating of the vector from a point of the grating to a point in space. -/
noncomputable def sideways (R r γ θ : ℝ) : ℝ := r * sin (γ + θ) - R * sin θ

/-- The component perpendicular to the grating. -/
noncomputable def upward (R r γ θ : ℝ) : ℝ := r * cos (γ + θ) + R * (1 - cos θ)

/-- The sine of the angle at which the point is seen. -/
noncomputable def seenSine (R r γ θ : ℝ) : ℝ :=
  sideways R r γ θ / √(sideways R r γ θ ^ 2 + upward R r γ θ ^ 2)

theorem polar_sub (R r γ θ : ℝ) : polarPoint r γ - gratingPoint R θ =
    ⟨sideways R r γ θ * cos θ - upward R r γ θ * sin θ, 0, sideways R r γ θ * sin θ + upward R r γ θ * cos θ⟩ := by
  have h2 := sin_sq_add_cos_sq θ
  apply V3.ext
  · simp only [polarPoint, gratingPoint, sideways, upward, V3.sub_x, cos_add, sin_add]
    linear_combination (-(r * sin γ)) * h2
  · simp [polarPoint, gratingPoint]
  · simp only [polarPoint, gratingPoint, sideways, upward, V3.sub_z, cos_add, sin_add]
    linear_combination (R - r * cos γ) * h2

theorem sideways_deriv (R r γ : ℝ) : HasDerivAt (sideways R r γ) (r * cos γ - R) 0 := by
  have h1 : HasDerivAt (fun θ => sin (γ + θ)) (cos (γ + 0) * 1) 0 :=
    (hasDerivAt_sin (γ + 0)).comp 0 ((hasDerivAt_id' (0 : ℝ)).const_add γ)
  have h2 := (h1.const_mul r).fun_sub ((hasDerivAt_sin 0).const_mul R)
  exact h2.congr_deriv (by simp)

theorem upward_deriv (R r γ : ℝ) : HasDerivAt (upward R r γ) (-(r * sin γ)) 0 := by
  have h1 : HasDerivAt (fun θ => cos (γ + θ)) (-sin (γ + 0) * 1) 0 :=
    (hasDerivAt_cos (γ + 0)).comp 0 ((hasDerivAt_id' (0 : ℝ)).const_add γ)
  have h2 := (h1.const_mul r).fun_add (((hasDerivAt_cos 0).const_sub 1).const_mul R)
  exact h2.congr_deriv (by simp)

theorem sideways_zero (R r γ : ℝ) : sideways R r γ 0 = r * sin γ := by simp [sideways]
theorem upward_zero (R r γ : ℝ) : upward R r γ 0 = r * cos γ := by simp [upward]

theorem squares_zero (R : ℝ) {r : ℝ} (γ : ℝ) : sideways R r γ 0 ^ 2 + upward R r γ 0 ^ 2 = r ^ 2 := by
  rw [sideways_zero, upward_zero]; linear_combination r ^ 2 * sin_sq_add_cos_sq γ

theorem seenSine_smooth (R : ℝ) {r : ℝ} (hr : 0 < r) (γ : ℝ) : ContDiffAt ℝ 2 (seenSine R r γ) 0 := by
  have h1 : ContDiffAt ℝ 2 (sideways R r γ) 0 := by
    unfold sideways; fun_prop
  have h2 : ContDiffAt ℝ 2 (upward R r γ) 0 := by
    unfold upward; fun_prop
  have h3 : sideways R r γ 0 ^ 2 + upward R r γ 0 ^ 2 ≠ 0 := by rw [squares_zero]; positivity
  have h4 : ContDiffAt ℝ 2 (fun θ => √(sideways R r γ θ ^ 2 + upward R r γ θ ^ 2)) 0 :=
    ContDiffAt.sqrt ((h1.pow 2).add (h2.pow 2)) h3
  exact h1.div h4 (by rw [squares_zero, sqrt_sq hr.le]; exact hr.ne')

theorem seenSine_zero (R : ℝ) {r : ℝ} (hr : 0 < r) (γ : ℝ) : seenSine R r γ 0 = sin γ := by
  unfold seenSine
  rw [squares_zero, sqrt_sq hr.le, sideways_zero]; field_simp

theorem seenSine_deriv (R : ℝ) {r : ℝ} (hr : 0 < r) (γ : ℝ) :
    HasDerivAt (seenSine R r γ) (cos γ - R / r * cos γ ^ 2) 0 := by
  have h1 := sideways_deriv R r γ
  have h2 := upward_deriv R r γ
  have h3 : sideways R r γ 0 ^ 2 + upward R r γ 0 ^ 2 ≠ 0 := by rw [squares_zero]; positivity
  have h4 := ((h1.fun_pow 2).fun_add (h2.fun_pow 2)).sqrt h3
  have h5 := h1.fun_div h4 (by rw [squares_zero, sqrt_sq hr.le]; exact hr.ne')
  refine h5.congr_deriv ?_
  rw [squares_zero, sqrt_sq hr.le, sideways_zero, upward_zero]
  have := sin_sq_add_cos_sq γ
  field_simp
  simp only [show (2 - 1 : ℕ) = 1 from rfl, pow_one, Nat.cast_ofNat]
  linear_combination (2 * r * R) * this

/-! ### The model -/

/-- A spherical mirror with straight rulings the spacing of which is a polynomial. -/
noncomputable def variedConcave (R : ℝ) (coefficients : List (ℕ × ℝ)) (m : ℝ) : Surface :=
  ⟨sphereSag R, mirror, none, some ⟨polynomialSpacing coefficients ⟨1, 0, 0⟩ none, m, fun _ _ => some 1⟩, none⟩

theorem strike_concave {coefficients : List (ℕ × ℝ)} {R r α θ κ m : ℝ} (hR : 0 < R) (hc : 0 < cos θ)
    (hZ : 0 < upward R r α θ) (hz : 0 < r * cos α - (R - R * cos θ)) {ray : Ray} (hn : 0 < ray.index)
    (hp : ray.position = polarPoint r α)
    (ha : ray.direction = (1 / (gratingPoint R θ - polarPoint r α).len) • (gratingPoint R θ - polarPoint r α))
    (hd : (spacingPolynomial coefficients).eval (R * sin θ) ≠ 0)
    (hκ : m * ray.wavelength / (ray.index * (spacingPolynomial coefficients).eval (R * sin θ)) = κ)
    (h1 : 0 < upward R r α θ / √(sideways R r α θ ^ 2 + upward R r α θ ^ 2) + κ * sin θ)
    (hτ : (κ * cos θ - seenSine R r α θ) ^ 2 ≤ 1) :
    ∃ out, (variedConcave R coefficients m).propagate ray = some out ∧ out.position = gratingPoint R θ ∧
      out.direction = ⟨(κ * cos θ - seenSine R r α θ) * cos θ - √(1 - (κ * cos θ - seenSine R r α θ) ^ 2) * sin θ, 0,
        (κ * cos θ - seenSine R r α θ) * sin θ + √(1 - (κ * cos θ - seenSine R r α θ) ^ 2) * cos θ⟩ := by
  have hsub := polar_sub R r α θ
  have hσ : seenSine R r α θ = sideways R r α θ / √(sideways R r α θ ^ 2 + upward R r α θ ^ 2) := rfl
  set X := sideways R r α θ with hX
  set Z := upward R r α θ with hZd
  set L := √(X ^ 2 + Z ^ 2) with hL
  have hL0 : 0 < L := sqrt_pos.2 (by positivity)
  have hL2 : L ^ 2 = X ^ 2 + Z ^ 2 := sq_sqrt (by positivity)
  set σ := seenSine R r α θ with hσd
  set ζ := Z / L with hζ
  have hζ0 : 0 < ζ := by positivity
  have eX : X = L * σ := by rw [hσ]; field_simp
  have eZ : Z = L * ζ := by rw [hζ]; field_simp
  have hu : σ ^ 2 + ζ ^ 2 = 1 := by
    rw [hσ, hζ, div_pow, div_pow, ← add_div, ← hL2]; field_simp
  have hA : polarPoint r α = gratingPoint R θ + L • (⟨σ * cos θ - ζ * sin θ, 0, σ * sin θ + ζ * cos θ⟩ : V3) := by
    have ex := congrArg V3.x hsub
    have ey := congrArg V3.y hsub
    have ez := congrArg V3.z hsub
    simp only [V3.sub_x, V3.sub_y, V3.sub_z] at ex ey ez
    rw [eX, eZ] at ex ez
    apply V3.ext <;> simp only [V3.add_x, V3.add_y, V3.add_z, V3.smul_x, V3.smul_y, V3.smul_z] <;> linarith
  have hPA : gratingPoint R θ - polarPoint r α = L • (⟨-(σ * cos θ - ζ * sin θ), 0, -(σ * sin θ + ζ * cos θ)⟩ : V3) := by
    rw [hA]; apply V3.ext <;> simp <;> ring
  have hlen : (gratingPoint R θ - polarPoint r α).len = L := by
    have e := len_turn (θ := θ) (-X) (-Z)
    have e2 : √((-X) ^ 2 + (-Z) ^ 2) = L := by rw [neg_sq, neg_sq]
    rw [e2] at e
    refine Eq.trans ?_ e
    rw [hPA, eX, eZ]
    congr 1
    apply V3.ext <;> simp <;> ring
  have hdir : ray.direction = ⟨-(σ * cos θ - ζ * sin θ), 0, -(σ * sin θ + ζ * cos θ)⟩ := by
    rw [ha, hlen, hPA]
    apply V3.ext <;> simp only [V3.smul_x, V3.smul_y, V3.smul_z] <;> field_simp
  have hdown : 0 < σ * sin θ + ζ * cos θ := by
    have ez := congrArg V3.z hA
    simp only [V3.add_z, V3.smul_z, polarPoint, gratingPoint] at ez
    have : 0 < L * (σ * sin θ + ζ * cos θ) := by linarith
    exact (mul_pos_iff_of_pos_left hL0).1 this
  have hI := strike_intercept (θ := θ) hR (L := L) hu hζ0 hdown
  rw [← hA] at hI
  have hN := strike_normal (θ := θ) hR hc.le
  have hE := strike_effective (R := R) (θ := θ) (d := (spacingPolynomial coefficients).eval (R * sin θ)) (m := m)
    (w := ray.wavelength) (n := ray.index) (σ := σ) (ζ := ζ) hd hn hζ0
  rw [hκ] at hE
  have hsp : polynomialSpacing coefficients ⟨1, 0, 0⟩ none (gratingPoint R θ) ⟨sin θ, 0, -cos θ⟩ =
      constantSpacing ((spacingPolynomial coefficients).eval (R * sin θ)) ⟨1, 0, 0⟩ (gratingPoint R θ) ⟨sin θ, 0, -cos θ⟩ := by
    unfold polynomialSpacing constantSpacing gratingPoint
    simp only [polyEval_eq, V3.dot, mul_one, mul_zero, _root_.add_zero]
  have hS := strike_snell (θ := θ) (n := ray.index) (κ := κ) (σ := σ) (ζ := ζ) hn h1 hτ
  have hdv : div? ray.index ray.index = some 1 := by unfold div?; rw [if_neg hn.ne', div_self hn.ne']
  have hdw : div? ray.wavelength 1 = some ray.wavelength := by unfold div?; norm_num
  unfold Surface.propagate variedConcave
  simp only [Surface.propagateLocal, Sag.propagate, sphereSag, hp, hdir, hI, Option.bind_eq_bind, Option.bind_some,
    Option.pure_def, Surface.interact, hN, Surface.effectiveRay, hsp, hE, Option.map_some, mirror, hdv, hdw, hS,
    Surface.rulingFactor, Surface.clip, Option.some.injEq, exists_eq_left', and_self]

/-- The defocus of the image at the distance `r'`. -/
noncomputable def concaveDefocus (coefficients : List (ℕ × ℝ)) (R r r' α β : ℝ) : ℝ :=
  (spacingPolynomial coefficients).derivative.eval 0 / (spacingPolynomial coefficients).eval 0 * (sin α + sin β)
    - (cos α ^ 2 / r - cos α / R + (cos β ^ 2 / r' - cos β / R))

/-- The sine of the diffracted ray. -/
noncomputable def leavingSine (p : Polynomial ℝ) (R r α β θ : ℝ) : ℝ :=
  (sin α + sin β) * (p.eval 0 / p.eval (R * sin θ)) * cos θ - seenSine R r α θ

/-- The diffracted rays to first order. -/
theorem concave_ray {coefficients : List (ℕ × ℝ)} {R r r' α β : ℝ} (hR : 0 < R) (hr : 0 < r) (hr' : 0 < r')
    (hα : |α| < π / 2) (hβ : |β| < π / 2) (h0 : (spacingPolynomial coefficients).eval 0 ≠ 0) :
    ∃ E δ : ℝ, 0 ≤ E ∧ 0 < δ ∧ ∀ θ, |θ| < δ → 0 < cos θ ∧ r' * cos β / 2 ≤ upward R r' β θ ∧
      √(sideways R r' β θ ^ 2 + upward R r' β θ ^ 2) ≤ r' + 1 ∧
      leavingSine (spacingPolynomial coefficients) R r α β θ ^ 2 ≤ 1 ∧
      |seenSine R r' β θ - leavingSine (spacingPolynomial coefficients) R r α β θ
        - R * concaveDefocus coefficients R r r' α β * θ| ≤ E * |θ| ^ 2 ∧
      ∀ (m : ℝ) (ray : Ray), 0 < ray.index → ray.position = polarPoint r α →
      ray.direction = (1 / (gratingPoint R θ - polarPoint r α).len) • (gratingPoint R θ - polarPoint r α) →
      m * ray.wavelength / (spacingPolynomial coefficients).eval 0 = ray.index * (sin α + sin β) →
      ∃ out, (variedConcave R coefficients m).propagate ray = some out ∧ out.position = gratingPoint R θ ∧
        out.direction = ⟨leavingSine (spacingPolynomial coefficients) R r α β θ * cos θ
            - √(1 - leavingSine (spacingPolynomial coefficients) R r α β θ ^ 2) * sin θ, 0,
          leavingSine (spacingPolynomial coefficients) R r α β θ * sin θ
            + √(1 - leavingSine (spacingPolynomial coefficients) R r α β θ ^ 2) * cos θ⟩ := by
  have hcα : 0 < cos α := cos_pos_of_mem_Ioo (abs_lt.1 hα)
  have hcβ : 0 < cos β := cos_pos_of_mem_Ioo (abs_lt.1 hβ)
  have hsβ : |sin β| < 1 := by
    rw [← sq_lt_one_iff_abs_lt_one]; nlinarith [sin_sq_add_cos_sq β]
  set p := spacingPolynomial coefficients with hp
  set κ0 := sin α + sin β with hκ0
  have hden0 : p.eval (R * sin 0) ≠ 0 := by simpa using h0
  have hpoly : ContDiffAt ℝ 2 (fun θ => p.eval (R * sin θ)) 0 := by
    have h1 : ContDiff ℝ 2 (fun y => p.eval y) := by
      simpa using Polynomial.contDiff_aeval (R := ℝ) (𝕜 := ℝ) p 2
    have h2 : ContDiff ℝ 2 (fun θ => R * sin θ) := by fun_prop
    exact (h1.comp h2).contDiffAt
  have hleave : ContDiffAt ℝ 2 (leavingSine p R r α β) 0 := by
    refine ContDiffAt.sub ?_ (seenSine_smooth R hr α)
    exact (contDiffAt_const.mul (contDiffAt_const.div hpoly hden0)).mul contDiff_cos.contDiffAt
  have hleave0 : leavingSine p R r α β 0 = sin β := by
    unfold leavingSine
    rw [seenSine_zero R hr, sin_zero, mul_zero, div_self h0, cos_zero]; ring
  have hdleave : HasDerivAt (leavingSine p R r α β)
      (-(κ0 * (p.derivative.eval 0 * R / p.eval 0)) - (cos α - R / r * cos α ^ 2)) 0 := by
    have h1 : HasDerivAt (fun θ => p.eval (R * sin θ)) (p.derivative.eval (R * sin 0) * (R * cos 0)) 0 :=
      HasDerivAt.comp (h₂ := fun y => p.eval y) 0 (p.hasDerivAt (R * sin 0)) ((hasDerivAt_sin 0).const_mul R)
    have h2 := (((hasDerivAt_const (0 : ℝ) (p.eval 0)).fun_div h1 hden0).const_mul κ0).fun_mul (hasDerivAt_cos 0)
    have h3 := h2.fun_sub (seenSine_deriv R hr α)
    refine h3.congr_deriv ?_
    simp only [sin_zero, cos_zero, mul_zero, mul_one, zero_mul, neg_zero, _root_.add_zero]
    field_simp
    ring
  obtain ⟨E, hE, hlin⟩ := first_order ((seenSine_smooth R hr' β).sub hleave) ((seenSine_deriv R hr' β).sub hdleave)
  -- what holds near the vertex
  have c1 : ∀ᶠ θ in 𝓝 (0 : ℝ), 0 < cos θ :=
    continuous_cos.continuousAt.eventually (lt_mem_nhds (by rw [cos_zero]; norm_num))
  have cup : ∀ ρ γ : ℝ, Continuous (upward R ρ γ) := fun ρ γ => by unfold upward; fun_prop
  have csd : ∀ ρ γ : ℝ, Continuous (sideways R ρ γ) := fun ρ γ => by unfold sideways; fun_prop
  have c2 : ∀ᶠ θ in 𝓝 (0 : ℝ), r' * cos β / 2 < upward R r' β θ :=
    (cup r' β).continuousAt.eventually (lt_mem_nhds (by rw [upward_zero]; nlinarith [mul_pos hr' hcβ]))
  have c3 : ∀ᶠ θ in 𝓝 (0 : ℝ), √(sideways R r' β θ ^ 2 + upward R r' β θ ^ 2) < r' + 1 := by
    have : Continuous fun θ => √(sideways R r' β θ ^ 2 + upward R r' β θ ^ 2) :=
      (((csd r' β).pow 2).add ((cup r' β).pow 2)).sqrt
    refine this.continuousAt.eventually (gt_mem_nhds ?_)
    beta_reduce
    rw [squares_zero, sqrt_sq hr'.le]; linarith
  have c4 : ∀ᶠ θ in 𝓝 (0 : ℝ), |leavingSine p R r α β θ| < 1 :=
    hleave.continuousAt.abs.eventually (gt_mem_nhds (by beta_reduce; rw [hleave0]; exact hsβ))
  have c5 : ∀ᶠ θ in 𝓝 (0 : ℝ), 0 < upward R r α θ :=
    (cup r α).continuousAt.eventually (lt_mem_nhds (by rw [upward_zero]; positivity))
  have c6 : ∀ᶠ θ in 𝓝 (0 : ℝ), 0 < r * cos α - (R - R * cos θ) := by
    have : Continuous fun θ => r * cos α - (R - R * cos θ) := by fun_prop
    refine this.continuousAt.eventually (lt_mem_nhds ?_)
    beta_reduce
    rw [cos_zero]; nlinarith [mul_pos hr hcα]
  have c7 : ∀ᶠ θ in 𝓝 (0 : ℝ), p.eval (R * sin θ) ≠ 0 :=
    hpoly.continuousAt.eventually_ne hden0
  have c8 : ∀ᶠ θ in 𝓝 (0 : ℝ), 0 < upward R r α θ / √(sideways R r α θ ^ 2 + upward R r α θ ^ 2)
      + κ0 * (p.eval 0 / p.eval (R * sin θ)) * sin θ := by
    have k1 : ContinuousAt (fun θ => √(sideways R r α θ ^ 2 + upward R r α θ ^ 2)) 0 :=
      ((((csd r α).pow 2).add ((cup r α).pow 2)).sqrt).continuousAt
    have k2 : ContinuousAt (fun θ => upward R r α θ / √(sideways R r α θ ^ 2 + upward R r α θ ^ 2)
        + κ0 * (p.eval 0 / p.eval (R * sin θ)) * sin θ) 0 :=
      ((cup r α).continuousAt.div k1 (by rw [squares_zero, sqrt_sq hr.le]; exact hr.ne')).add
        ((continuousAt_const.mul (continuousAt_const.div hpoly.continuousAt hden0)).mul continuous_sin.continuousAt)
    refine k2.eventually (lt_mem_nhds ?_)
    simp only [sin_zero, mul_zero, _root_.add_zero]
    rw [squares_zero, sqrt_sq hr.le, upward_zero]
    positivity
  obtain ⟨δ, hδ, hball⟩ := Metric.eventually_nhds_iff.1
    (c1.and (c2.and (c3.and (c4.and (c5.and (c6.and (c7.and (c8.and hlin))))))))
  refine ⟨E, δ, hE, hδ, fun θ hθ => ?_⟩
  obtain ⟨k1, k2, k3, k4, k5, k6, k7, k8, k9⟩ := hball (y := θ) (by rwa [Real.dist_eq, _root_.sub_zero])
  have hτ2 : leavingSine p R r α β θ ^ 2 ≤ 1 := by rw [← sq_abs]; exact pow_le_one₀ (abs_nonneg _) k4.le
  refine ⟨k1, k2.le, k3.le, hτ2, ?_, ?_⟩
  · simp only [seenSine_zero R hr', hleave0, sub_self, _root_.sub_zero] at k9
    have e : R * concaveDefocus coefficients R r r' α β = cos β - R / r' * cos β ^ 2
        - (-(κ0 * (p.derivative.eval 0 * R / p.eval 0)) - (cos α - R / r * cos α ^ 2)) := by
      unfold concaveDefocus
      rw [← hp, ← hκ0]
      field_simp
      ring
    rw [e]
    exact k9
  · intro m ray hn hpos ha hm
    have hκ : m * ray.wavelength / (ray.index * p.eval (R * sin θ)) = κ0 * (p.eval 0 / p.eval (R * sin θ)) := by
      rw [div_eq_iff h0] at hm
      rw [hm]; field_simp
    exact strike_concave hR k1 k5 k6 hn hpos ha k7 hκ k8 hτ2

/-- How far a ray that has travelled to the distance of the image is from it. -/
theorem concave_miss (R r γ θ τ : ℝ) :
    (gratingPoint R θ + (polarPoint r γ - gratingPoint R θ).len •
      (⟨τ * cos θ - √(1 - τ ^ 2) * sin θ, 0, τ * sin θ + √(1 - τ ^ 2) * cos θ⟩ : V3) - polarPoint r γ).len =
      √((√(sideways R r γ θ ^ 2 + upward R r γ θ ^ 2) * τ - sideways R r γ θ) ^ 2
        + (√(sideways R r γ θ ^ 2 + upward R r γ θ ^ 2) * √(1 - τ ^ 2) - upward R r γ θ) ^ 2) := by
  have hsub := polar_sub R r γ θ
  have hlen : (polarPoint r γ - gratingPoint R θ).len = √(sideways R r γ θ ^ 2 + upward R r γ θ ^ 2) := by
    rw [hsub, len_turn]
  rw [hlen]
  refine Eq.trans ?_ (len_turn (θ := θ) _ _)
  congr 1
  have ex := congrArg V3.x hsub
  have ey := congrArg V3.y hsub
  have ez := congrArg V3.z hsub
  simp only [V3.sub_x, V3.sub_y, V3.sub_z] at ex ey ez
  apply V3.ext <;> simp only [V3.sub_x, V3.sub_y, V3.sub_z, V3.add_x, V3.add_y, V3.add_z, V3.smul_x, V3.smul_y, V3.smul_z] <;>
    linarith

/-! ### The property -/

/-- The rays that come from the point at the distance `r` in the direction `α` and meet the equation of the grating at
the vertex for the direction `β` are focused at the distance `r'`: what strikes the grating at the angle `θ` from its
axis passes the point there at a distance of at most a constant times `θ²`. -/
def ConcaveFocuses (R : ℝ) (coefficients : List (ℕ × ℝ)) (r r' α β : ℝ) : Prop :=
  ∃ C δ : ℝ, 0 < δ ∧ ∀ θ, |θ| < δ → ∀ (m : ℝ) (ray : Ray), 0 < ray.index → ray.position = polarPoint r α →
    ray.direction = (1 / (gratingPoint R θ - polarPoint r α).len) • (gratingPoint R θ - polarPoint r α) →
    m * ray.wavelength / (spacingPolynomial coefficients).eval 0 = ray.index * (sin α + sin β) →
    ∃ out, (variedConcave R coefficients m).propagate ray = some out ∧ out.position = gratingPoint R θ ∧
      out.direction.len = 1 ∧
      (out.position + (polarPoint r' β - out.position).len • out.direction - polarPoint r' β).len ≤ C * |θ| ^ 2

/-- **C121.**  A spherical mirror with straight rulings, equidistant or of varied spacing, focuses where the theory of
concave gratings says.  Let the spacing be any polynomial in the coordinate across the rulings, and let light come from a
point at the distance `r` in the direction `α`.  Light of every wavelength and order that is diffracted at the vertex in
the direction `β` is focused at the distance `r'` in this direction if and only if the relative rate of change of the
spacing at the vertex times `sin α + sin β` is `cos² α / r - cos α / R + cos² β / r' - cos β / R`. -/
theorem C121_focus {coefficients : List (ℕ × ℝ)} {R r r' α β : ℝ} (hR : 0 < R) (hr : 0 < r) (hr' : 0 < r')
    (hα : |α| < π / 2) (hβ : |β| < π / 2) (h0 : (spacingPolynomial coefficients).eval 0 ≠ 0) :
    ConcaveFocuses R coefficients r r' α β ↔
      (spacingPolynomial coefficients).derivative.eval 0 / (spacingPolynomial coefficients).eval 0 * (sin α + sin β) =
        cos α ^ 2 / r - cos α / R + (cos β ^ 2 / r' - cos β / R) := by
  have hcβ : 0 < cos β := cos_pos_of_mem_Ioo (abs_lt.1 hβ)
  obtain ⟨E, δ, hE, hδ, h⟩ := concave_ray hR hr hr' hα hβ h0
  rw [← sub_eq_zero]
  change _ ↔ concaveDefocus coefficients R r r' α β = 0
  set p := spacingPolynomial coefficients with hp
  set c := concaveDefocus coefficients R r r' α β with hc
  have hz0 : 0 < r' * cos β / 2 := by positivity
  constructor
  · rintro ⟨C, δ', hδ', h'⟩
    by_contra hne
    have hc0 : 0 < |R * c| := abs_pos.2 (mul_ne_zero hR.ne' hne)
    set G := E + |C| / (r' * cos β / 2) + 1 with hG
    have hG0 : 0 < G := by positivity
    set x := min (min δ δ') (|R * c| / G) / 2 with hx
    have hx0 : 0 < x := by positivity
    have hxδ : |x| < δ := by
      rw [abs_of_pos hx0, hx]
      have h1 : min (min δ δ') (|R * c| / G) ≤ δ := (min_le_left _ _).trans (min_le_left _ _)
      linarith
    have hxδ' : |x| < δ' := by
      rw [abs_of_pos hx0, hx]
      have h1 : min (min δ δ') (|R * c| / G) ≤ δ' := (min_le_left _ _).trans (min_le_right _ _)
      linarith
    have hxc : x * G < |R * c| := by
      rw [← lt_div_iff₀ hG0, hx]
      have h1 : min (min δ δ') (|R * c| / G) ≤ |R * c| / G := min_le_right _ _
      have h2 : 0 < |R * c| / G := by positivity
      linarith
    obtain ⟨-, hup, -, hτ, hlin, hray⟩ := h x hxδ
    have heq : p.eval 0 * (sin α + sin β) * 1 / p.eval 0 = 1 * (sin α + sin β) := by field_simp
    obtain ⟨out, ho, hpo, hd⟩ := hray (p.eval 0 * (sin α + sin β)) ⟨1, polarPoint r α,
      (1 / (gratingPoint R x - polarPoint r α).len) • (gratingPoint R x - polarPoint r α), 1, 0, 1, true⟩ one_pos rfl rfl heq
    obtain ⟨out', ho', -, -, hmiss⟩ := h' x hxδ' (p.eval 0 * (sin α + sin β)) ⟨1, polarPoint r α,
      (1 / (gratingPoint R x - polarPoint r α).len) • (gratingPoint R x - polarPoint r α), 1, 0, 1, true⟩ one_pos rfl rfl heq
    obtain rfl : out' = out := Option.some.inj (ho'.symm.trans ho)
    rw [hpo, hd, concave_miss] at hmiss
    unfold seenSine at hlin
    clear h h' hray ho ho' hpo hd
    set τ := leavingSine p R r α β x
    set X := sideways R r' β x
    set Z := upward R r' β x
    have hZ0 : 0 < Z := by linarith
    set L := √(X ^ 2 + Z ^ 2) with hL
    have hZL : Z ≤ L := le_sqrt_of_sq_le (by nlinarith [sq_nonneg X])
    have h1 : |L * τ - X| ≤ C * |x| ^ 2 := by
      refine le_trans ?_ hmiss
      rw [← sqrt_sq_eq_abs]
      exact sqrt_le_sqrt (by nlinarith [sq_nonneg (L * √(1 - τ ^ 2) - Z)])
    have h2 : |X / L - τ| ≤ |C| / (r' * cos β / 2) * |x| ^ 2 := by
      have e : L * τ - X = -(L * (X / L - τ)) := by
        have : L ≠ 0 := by linarith
        field_simp; ring
      rw [e, abs_neg, abs_mul, abs_of_pos (by linarith : 0 < L)] at h1
      rw [div_mul_eq_mul_div, le_div_iff₀ hz0]
      calc |X / L - τ| * (r' * cos β / 2) ≤ |X / L - τ| * L := by gcongr; linarith
        _ = L * |X / L - τ| := mul_comm _ _
        _ ≤ C * |x| ^ 2 := h1
        _ ≤ |C| * |x| ^ 2 := by gcongr; exact le_abs_self C
    have h3 : |R * c * x| ≤ |C| / (r' * cos β / 2) * |x| ^ 2 + E * |x| ^ 2 := by
      have e : R * c * x = (X / L - τ) - (X / L - τ - R * c * x) := by ring
      rw [e]
      refine (abs_sub _ _).trans (add_le_add h2 hlin)
    rw [abs_mul, abs_of_pos hx0] at h3
    have h4 : |R * c| ≤ x * (G - 1) := by
      have : |R * c| * x ≤ x * (G - 1) * x := by rw [hG]; linarith
      exact le_of_mul_le_mul_right this hx0
    linarith
  · intro hc0
    refine ⟨((r' + 1) + 2 * (r' + 1) ^ 2 / (r' * cos β / 2)) * E, δ, hδ, fun θ hθ m ray hn hpos ha hm => ?_⟩
    obtain ⟨-, hup, hfar, hτ, hlin, hray⟩ := h θ hθ
    obtain ⟨out, ho, hpo, hd⟩ := hray m ray hn hpos ha hm
    refine ⟨out, ho, hpo, ?_, ?_⟩
    · rw [hd, len_turn, sq_sqrt (by linarith)]; norm_num
    rw [hc0, mul_zero, zero_mul, _root_.sub_zero] at hlin
    rw [hpo, hd, concave_miss]
    refine (miss_le (by linarith) hfar hτ).trans ?_
    rw [mul_assoc]
    unfold seenSine at hlin
    gcongr

/-- **C121.**  With equidistant rulings, points of the Rowland circle are focused on the Rowland circle and nowhere
else. -/
theorem C121_rowland {R d r' α β : ℝ} (hR : 0 < R) (hd : d ≠ 0) (hr' : 0 < r') (hα : |α| < π / 2) (hβ : |β| < π / 2) :
    ConcaveFocuses R [(0, d)] (R * cos α) r' α β ↔ r' = R * cos β := by
  have hcα : 0 < cos α := cos_pos_of_mem_Ioo (abs_lt.1 hα)
  have hcβ : 0 < cos β := cos_pos_of_mem_Ioo (abs_lt.1 hβ)
  rw [C121_focus hR (by positivity) hr' hα hβ (by simpa [spacingPolynomial] using hd)]
  have e : (spacingPolynomial [(0, d)]).derivative.eval 0 = 0 := by simp [spacingPolynomial]
  have e2 : cos α ^ 2 / (R * cos α) - cos α / R = 0 := by field_simp; ring
  have e3 : cos β ^ 2 / r' - cos β / R = cos β / (r' * R) * (R * cos β - r') := by field_simp
  rw [e, zero_div, zero_mul, e2, _root_.zero_add, e3]
  constructor
  · intro h
    have := (mul_eq_zero.1 h.symm).resolve_left (by positivity)
    linarith
  · intro h
    rw [h, sub_self, mul_zero]

/-- **C121.**  In the order zero a concave grating is a mirror: it focuses at the tangential focus of Coddington. -/
theorem C121_mirror {R d r r' α : ℝ} (hR : 0 < R) (hd : d ≠ 0) (hr : 0 < r) (hr' : 0 < r') (hα : |α| < π / 2) :
    ConcaveFocuses R [(0, d)] r r' α (-α) ↔ 1 / r + 1 / r' = 2 / (R * cos α) := by
  have hcα : 0 < cos α := cos_pos_of_mem_Ioo (abs_lt.1 hα)
  rw [C121_focus hR hr hr' hα (by rwa [abs_neg]) (by simpa [spacingPolynomial] using hd)]
  rw [sin_neg, cos_neg, add_neg_cancel, mul_zero]
  have e : cos α ^ 2 / r - cos α / R + (cos α ^ 2 / r' - cos α / R) =
      cos α ^ 2 * (1 / r + 1 / r' - 2 / (R * cos α)) := by field_simp; ring
  rw [e]
  constructor
  · intro h
    have := (mul_eq_zero.1 h.symm).resolve_left (by positivity)
    linarith
  · intro h
    rw [h, sub_self, mul_zero]

/-- The source is straight above the vertex at the distance of half the radius, and the rulings are equidistant: the
light that goes straight back is parallel and has no image. -/
example (d r' : ℝ) (hd : d ≠ 0) (hr' : 0 < r') : ¬ ConcaveFocuses 1000 [(0, d)] 500 r' 0 0 := by
  rw [C121_focus (by norm_num) (by norm_num) hr' (by simp; positivity) (by simp; positivity)
    (by simpa [spacingPolynomial] using hd)]
  simp only [cos_zero, sin_zero]
  norm_num
  exact hr'.ne

/-- With the right rate of change of the spacing, light from the centre of the sphere that is
diffracted at thirty degrees is focused at the distance given by the theory. -/
example (d : ℝ) (hd : d ≠ 0) : ConcaveFocuses 1000 [(0, d), (1, (1 - √3) / 1000 * d), (4, 7)] 1000 1500 0 (π / 6) := by
  rw [C121_focus (by norm_num) (by norm_num) (by norm_num) (by simp; positivity)
    (by rw [abs_of_pos (by positivity)]; linarith [pi_pos]) (by simpa [spacingPolynomial] using hd)]
  have e0 : (spacingPolynomial [(0, d), (1, (1 - √3) / 1000 * d), (4, 7)]).eval 0 = d := by simp [spacingPolynomial]
  have e1 : (spacingPolynomial [(0, d), (1, (1 - √3) / 1000 * d), (4, 7)]).derivative.eval 0
      = (1 - √3) / 1000 * d := by simp [spacingPolynomial]
  rw [e0, e1, sin_zero, cos_zero, sin_pi_div_six, cos_pi_div_six, mul_div_assoc, div_self hd, div_pow, sq_sqrt (by norm_num)]
  ring

end Optika
