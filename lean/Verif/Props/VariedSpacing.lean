import Verif.Props.Rowland
import Verif.Props.Spacing
import Mathlib.Algebra.Polynomial.Derivative
import Mathlib.Algebra.Polynomial.Inductions
import Mathlib.Topology.Algebra.Polynomial
import Mathlib.Analysis.Normed.Group.Bounded

/-!
# C120: plane gratings of varied spacing focus
-/

namespace Optika

open Real V3

/-! ### Specification -/

/-- The point at the distance `r` from the origin, at the angle `γ` from the axis, in the plane across the rulings. -/
noncomputable def polarPoint (r γ : ℝ) : V3 := ⟨r * sin γ, 0, r * cos γ⟩

/-- A plane mirror with straight rulings the spacing of which is a polynomial. -/
noncomputable def variedGrating (coefficients : List (ℕ × ℝ)) (m : ℝ) : Surface :=
  ⟨flatSag, mirror, none, some ⟨polynomialSpacing coefficients ⟨1, 0, 0⟩ none, m, fun _ _ => some 1⟩, none⟩

/-! ### Expansions -/

/-- The sine of the angle at which a point is seen from another point of the grating. -/
theorem seen_sine {r γ x : ℝ} (hr : 0 < r) (hx : |x| ≤ r / 2) :
    |(r * sin γ - x) / √((r * sin γ - x) ^ 2 + (r * cos γ) ^ 2) - (sin γ - x * (cos γ ^ 2 / r))| ≤ 10 / r ^ 2 * |x| ^ 2 := by
  have e1 := sin_sq_add_cos_sq γ
  set u := x / r with hu
  have hxu : x = r * u := by rw [hu]; field_simp
  have hu1 : |u| ≤ 1 / 2 := by
    rw [hu, abs_div, abs_of_pos hr, div_le_iff₀ hr]; linarith
  set s := sin γ with hs
  set c := cos γ with hc
  have hs1 : |s| ≤ 1 := abs_sin_le_one γ
  have hsu : |s * u| ≤ 1 / 2 := by
    rw [abs_mul]
    calc |s| * |u| ≤ 1 * (1 / 2) := mul_le_mul hs1 hu1 (abs_nonneg _) (by norm_num)
      _ = _ := by norm_num
  have hsu' := abs_le.1 hsu
  set q := 1 - 2 * s * u + u ^ 2 with hq
  have hqs : q = (1 - s * u) ^ 2 + c ^ 2 * u ^ 2 := by rw [hq]; linear_combination (-u ^ 2) * e1
  have hq0 : 0 < q := by
    have : 0 < (1 - s * u) ^ 2 := by have : 0 < 1 - s * u := by linarith
                                     positivity
    rw [hqs]; positivity
  have hroot : √((r * s - x) ^ 2 + (r * c) ^ 2) = r * √q := by
    have : (r * s - x) ^ 2 + (r * c) ^ 2 = r ^ 2 * q := by rw [hxu, hq]; linear_combination r ^ 2 * e1
    rw [this, sqrt_mul (by positivity), sqrt_sq hr.le]
  set k := √q with hk
  have hk2 : k ^ 2 = q := sq_sqrt hq0.le
  have hkl : 1 - s * u ≤ k := by
    apply le_sqrt_of_sq_le; rw [hqs]; nlinarith [sq_nonneg (c * u)]
  have hk0 : 1 / 2 ≤ k := by linarith
  set e := k - (1 - s * u) with he
  have he0 : 0 ≤ e := by linarith
  have hc1 : c ^ 2 ≤ 1 := by nlinarith [sq_nonneg s]
  have heu : e ≤ u ^ 2 := by
    have h1 : e * (k + (1 - s * u)) = c ^ 2 * u ^ 2 := by
      rw [he]; linear_combination hk2 + hqs
    have h2 : e * 1 ≤ e * (k + (1 - s * u)) := mul_le_mul_of_nonneg_left (by linarith) he0
    nlinarith [sq_nonneg u]
  have hnum : (r * s - x) / (r * k) - (s - x * (c ^ 2 / r)) = (-(s * c ^ 2 * u ^ 2) - (s - u * c ^ 2) * e) / k := by
    have hk' : k ≠ 0 := by linarith
    rw [hxu, he]
    field_simp
    linear_combination u * e1
  rw [hroot, hnum, abs_div, abs_of_pos (by linarith : 0 < k), div_le_iff₀ (by linarith)]
  have hx2 : 10 / r ^ 2 * |x| ^ 2 = 10 * u ^ 2 := by rw [sq_abs, hu]; field_simp
  rw [hx2]
  have n1 : |s * c ^ 2 * u ^ 2| ≤ u ^ 2 := by
    rw [abs_mul, abs_mul, abs_of_nonneg (sq_nonneg c), abs_of_nonneg (sq_nonneg u)]
    calc |s| * c ^ 2 * u ^ 2 ≤ 1 * 1 * u ^ 2 := by gcongr
      _ = _ := by ring
  have n2 : |(s - u * c ^ 2) * e| ≤ 2 * u ^ 2 := by
    have h3 : |s - u * c ^ 2| ≤ 2 := by
      have h4 : |u * c ^ 2| ≤ 1 / 2 * 1 := by
        rw [abs_mul, abs_of_nonneg (sq_nonneg c)]
        exact mul_le_mul hu1 hc1 (sq_nonneg _) (by norm_num)
      have := abs_sub s (u * c ^ 2)
      linarith
    rw [abs_mul, abs_of_nonneg he0]
    exact mul_le_mul h3 heu he0 (by norm_num)
  have n3 := abs_sub (-(s * c ^ 2 * u ^ 2)) ((s - u * c ^ 2) * e)
  rw [abs_neg] at n3
  nlinarith [sq_nonneg u]

/-- A polynomial to second order. -/
theorem polynomial_two (p : Polynomial ℝ) : ∃ q : Polynomial ℝ, ∀ x,
    p.eval x = p.eval 0 + x * (p.derivative.eval 0 + x * q.eval x) := by
  have h1 : ∀ f : Polynomial ℝ, ∀ x, f.eval x = f.divX.eval x * x + f.coeff 0 := by
    intro f x
    conv_lhs => rw [← f.divX_mul_X_add]
    simp
  refine ⟨p.divX.divX, fun x => ?_⟩
  have h2 : p.derivative.eval 0 = p.coeff 1 := by
    rw [← Polynomial.coeff_zero_eq_eval_zero, Polynomial.coeff_derivative]; simp
  have h3 : p.divX.coeff 0 = p.coeff 1 := by rw [Polynomial.coeff_divX]
  rw [h1 p x, h1 p.divX x, h3, h2, ← Polynomial.coeff_zero_eq_eval_zero]
  ring

/-- The density of the rulings to first order. -/
theorem density_near {p : Polynomial ℝ} (hp : p.eval 0 ≠ 0) : ∃ K δ : ℝ, 0 ≤ K ∧ 0 < δ ∧ ∀ x, |x| < δ → p.eval x ≠ 0 ∧
    |p.eval 0 / p.eval x - (1 - p.derivative.eval 0 / p.eval 0 * x)| ≤ K * |x| ^ 2 := by
  obtain ⟨q, hq⟩ := polynomial_two p
  obtain ⟨Q, hQ⟩ := (isCompact_Icc (a := (-1 : ℝ)) (b := 1)).exists_bound_of_continuousOn (f := fun x => q.eval x)
    q.continuous.continuousOn
  set d0 := p.eval 0 with hd0
  set d1 := p.derivative.eval 0 with hd1
  have hQ0 : 0 ≤ Q := le_trans (norm_nonneg _) (hQ 0 (by norm_num))
  have ha : 0 < |d0| := abs_pos.2 hp
  set K := (d1 ^ 2 + Q * (|d0| + |d1|)) / (|d0| * (|d0| / 2)) with hK
  refine ⟨K, min 1 (|d0| / 2 / (|d1| + Q + 1)), by positivity, by positivity, fun x hx => ?_⟩
  simp only [lt_min_iff] at hx
  obtain ⟨hx1, hx2⟩ := hx
  rw [lt_div_iff₀ (by positivity)] at hx2
  have hqx : |q.eval x| ≤ Q := hQ x (abs_le.1 hx1.le)
  have hlow : |d0| / 2 ≤ |p.eval x| := by
    have h1 : |x * (d1 + x * q.eval x)| ≤ |x| * (|d1| + 1 * Q) := by
      rw [abs_mul]
      gcongr
      refine (abs_add_le _ _).trans ?_
      rw [abs_mul]
      gcongr
    have h2 : |d0| ≤ |p.eval x| + |x * (d1 + x * q.eval x)| := by
      have : d0 = p.eval x - x * (d1 + x * q.eval x) := by rw [hq x]; ring
      conv_lhs => rw [this]
      exact abs_sub _ _
    have := abs_nonneg x
    nlinarith
  have hne : p.eval x ≠ 0 := by
    intro h; rw [h, abs_zero] at hlow; linarith
  refine ⟨hne, ?_⟩
  have hform : d0 / p.eval x - (1 - d1 / d0 * x) = x ^ 2 * (d1 ^ 2 - q.eval x * (d0 - d1 * x)) / (d0 * p.eval x) := by
    have h3 := hq x
    field_simp
    rw [h3]; ring
  rw [hform, abs_div, abs_mul, abs_mul d0, hK, div_mul_eq_mul_div, sq_abs, abs_of_nonneg (sq_nonneg x), mul_comm]
  have hn : |d1 ^ 2 - q.eval x * (d0 - d1 * x)| ≤ d1 ^ 2 + Q * (|d0| + |d1|) := by
    refine (abs_sub _ _).trans ?_
    rw [abs_of_nonneg (sq_nonneg d1), abs_mul]
    have h4 : |d0 - d1 * x| ≤ |d0| + |d1| := by
      refine (abs_sub _ _).trans ?_
      rw [abs_mul]
      have : |d1| * |x| ≤ |d1| * 1 := by gcongr
      linarith
    gcongr
  gcongr

theorem polar_far {r γ x : ℝ} (hr : 0 < r) (hx : |x| ≤ 1) : √((r * sin γ - x) ^ 2 + (r * cos γ) ^ 2) ≤ r + 1 := by
  rw [sqrt_le_left (by positivity)]
  have e1 : (r * sin γ - x) ^ 2 + (r * cos γ) ^ 2 = r ^ 2 - 2 * (r * (sin γ * x)) + x ^ 2 := by
    linear_combination r ^ 2 * sin_sq_add_cos_sq γ
  have e2 : |sin γ * x| ≤ 1 := by
    rw [abs_mul]; exact mul_le_one₀ (abs_sin_le_one γ) (abs_nonneg _) hx
  have e3 := mul_le_mul_of_nonneg_left (abs_le.1 e2).1 hr.le
  have e4 : x ^ 2 ≤ 1 := by rw [← sq_abs]; exact pow_le_one₀ (abs_nonneg _) hx
  have e5 : (r + 1) ^ 2 = r ^ 2 + 2 * r + 1 := by ring
  rw [e1, e5]
  linarith

/-! ### The model -/

theorem strike_varied {coefficients : List (ℕ × ℝ)} {r α κ m x : ℝ} (hr : 0 < r) (hc : 0 < cos α) {ray : Ray}
    (hn : 0 < ray.index) (hp : ray.position = polarPoint r α)
    (ha : ray.direction = (1 / (⟨x, 0, 0⟩ - polarPoint r α).len) • (⟨x, 0, 0⟩ - polarPoint r α))
    (hd : (spacingPolynomial coefficients).eval x ≠ 0)
    (hκ : m * ray.wavelength / (ray.index * (spacingPolynomial coefficients).eval x) = κ)
    (hτ : (κ - (r * sin α - x) / √((r * sin α - x) ^ 2 + (r * cos α) ^ 2)) ^ 2 ≤ 1) :
    ∃ out, (variedGrating coefficients m).propagate ray = some out ∧ out.position = ⟨x, 0, 0⟩ ∧
      out.direction = ⟨κ - (r * sin α - x) / √((r * sin α - x) ^ 2 + (r * cos α) ^ 2), 0,
        √(1 - (κ - (r * sin α - x) / √((r * sin α - x) ^ 2 + (r * cos α) ^ 2)) ^ 2)⟩ := by
  set X := r * sin α - x with hX
  set Z := r * cos α with hZ
  have hZ0 : 0 < Z := by positivity
  set L := √(X ^ 2 + Z ^ 2) with hL
  have hL0 : 0 < L := sqrt_pos.2 (by positivity)
  have hlen : ((⟨x, 0, 0⟩ : V3) - polarPoint r α).len = L := by
    unfold V3.len V3.dot polarPoint
    rw [hL]
    congr 1
    simp only [V3.sub_x, V3.sub_y, V3.sub_z]
    rw [hX, hZ]; ring
  have hdir : ray.direction = ⟨-(X / L), 0, -(Z / L)⟩ := by
    rw [ha, hlen]
    apply V3.ext <;> simp only [V3.smul_x, V3.smul_y, V3.smul_z, V3.sub_x, V3.sub_y, V3.sub_z, polarPoint] <;>
      (try rw [hX]) <;> (try rw [hZ]) <;> ring
  have hI : flatIntercept (polarPoint r α) ⟨-(X / L), 0, -(Z / L)⟩ = some ⟨x, 0, 0⟩ := by
    have hne : -(Z / L) ≠ 0 := neg_ne_zero.2 (by positivity)
    have hdz : div? (-(r * cos α)) (-(Z / L)) = some L := by
      unfold div?; rw [if_neg hne, ← hZ]; congr 1; field_simp
    unfold flatIntercept polarPoint
    simp only [hdz, Option.bind_eq_bind, Option.bind_some, Option.pure_def, Option.some.injEq]
    have h1 : -(X / L) * L = -X := by field_simp
    have h2 : -(Z / L) * L = -Z := by field_simp
    rw [h1, h2]
    apply V3.ext
    · simp only; rw [hX]; ring
    · simp
    · simp only; rw [hZ]; ring
  have hE := strike_effective (R := 0) (θ := 0) (d := (spacingPolynomial coefficients).eval x) (m := m) (w := ray.wavelength)
    (n := ray.index) (σ := X / L) (ζ := Z / L) hd hn (by positivity)
  rw [hκ] at hE
  have hS := strike_snell (θ := 0) (n := ray.index) (κ := κ) (σ := X / L) (ζ := Z / L) hn
    (by rw [sin_zero, mul_zero, _root_.add_zero]; positivity) (by rw [cos_zero, mul_one]; exact hτ)
  simp only [sin_zero, cos_zero, mul_one, mul_zero, _root_.sub_zero, _root_.zero_add, _root_.add_zero, constantSpacing] at hE hS
  have hsp : polynomialSpacing coefficients ⟨1, 0, 0⟩ none ⟨x, 0, 0⟩ ⟨0, 0, -1⟩ =
      some ((spacingPolynomial coefficients).eval x • (⟨1, 0, 0⟩ : V3)) := by
    unfold polynomialSpacing
    simp only [polyEval_eq, V3.dot, mul_one, mul_zero, _root_.add_zero]
  have hdv : div? ray.index ray.index = some 1 := by unfold div?; rw [if_neg hn.ne', div_self hn.ne']
  have hdw : div? ray.wavelength 1 = some ray.wavelength := by unfold div?; norm_num
  unfold Surface.propagate variedGrating
  simp only [Surface.propagateLocal, Sag.propagate, flatSag, hp, hdir, hI, Option.bind_eq_bind, Option.bind_some,
    Option.pure_def, Surface.interact, flatNormal, Surface.effectiveRay, hsp, hE, Option.map_some, mirror, hdv, hdw, hS,
    Surface.rulingFactor, Surface.clip, Option.some.injEq, exists_eq_left', and_self]

/-- The defocus of the image at the distance `r'`: the rate at which the sines of the diffracted rays and of the
directions to the image part. -/
noncomputable def defocus (coefficients : List (ℕ × ℝ)) (r r' α β : ℝ) : ℝ :=
  (spacingPolynomial coefficients).derivative.eval 0 / (spacingPolynomial coefficients).eval 0 * (sin α + sin β)
    - (cos α ^ 2 / r + cos β ^ 2 / r')

/-- The diffracted rays to first order. -/
theorem varied_ray {coefficients : List (ℕ × ℝ)} {r r' α β : ℝ} (hr : 0 < r) (hr' : 0 < r') (hα : |α| < π / 2)
    (hβ : |β| < π / 2) (h0 : (spacingPolynomial coefficients).eval 0 ≠ 0) :
    ∃ E δ : ℝ, 0 ≤ E ∧ 0 < δ ∧ δ ≤ 1 ∧ ∀ x, |x| < δ → ∀ (m : ℝ) (ray : Ray), 0 < ray.index → ray.position = polarPoint r α →
      ray.direction = (1 / (⟨x, 0, 0⟩ - polarPoint r α).len) • (⟨x, 0, 0⟩ - polarPoint r α) →
      m * ray.wavelength / (spacingPolynomial coefficients).eval 0 = ray.index * (sin α + sin β) →
      ∃ out τ, (variedGrating coefficients m).propagate ray = some out ∧ out.position = ⟨x, 0, 0⟩ ∧ τ ^ 2 ≤ 1 ∧
        out.direction = ⟨τ, 0, √(1 - τ ^ 2)⟩ ∧
        |(r' * sin β - x) / √((r' * sin β - x) ^ 2 + (r' * cos β) ^ 2) - τ - defocus coefficients r r' α β * x|
          ≤ E * |x| ^ 2 := by
  have hcα : 0 < cos α := cos_pos_of_mem_Ioo (abs_lt.1 hα)
  have hcβ : 0 < cos β := cos_pos_of_mem_Ioo (abs_lt.1 hβ)
  have hsβ : |sin β| < 1 := by
    rw [← sq_lt_one_iff_abs_lt_one]; nlinarith [sin_sq_add_cos_sq β]
  obtain ⟨K, δ, hK, hδ, hden⟩ := density_near h0
  set c := defocus coefficients r r' α β with hcd
  unfold defocus at hcd
  set p := spacingPolynomial coefficients with hp
  set κ0 := sin α + sin β with hκ0
  set E := |κ0| * K + 10 / r ^ 2 + 10 / r' ^ 2 with hE
  have hE0 : 0 ≤ E := by positivity
  refine ⟨E, min (min δ 1) (min (min (r / 2) (r' / 2)) ((1 - |sin β|) / (1 / r' + 10 / r' ^ 2 + E + |c| + 1))), hE0, ?_,
    (min_le_left _ _).trans (min_le_right _ _), ?_⟩
  · have : 0 < 1 - |sin β| := by linarith
    positivity
  intro x hx m ray hn hpos ha hm
  simp only [lt_min_iff] at hx
  obtain ⟨⟨hxδ, hx1⟩, ⟨hxr, hxr'⟩, hxs⟩ := hx
  rw [lt_div_iff₀ (by positivity)] at hxs
  obtain ⟨hpx, hdx⟩ := hden x hxδ
  have sα := seen_sine (γ := α) hr hxr.le
  have sβ := seen_sine (γ := β) hr' hxr'.le
  set κ := κ0 * (p.eval 0 / p.eval x) with hκd
  have hκ : m * ray.wavelength / (ray.index * p.eval x) = κ := by
    rw [div_eq_iff h0] at hm
    rw [hm, hκd]; field_simp
  set σ := (r' * sin β - x) / √((r' * sin β - x) ^ 2 + (r' * cos β) ^ 2) with hσ
  set τ := κ - (r * sin α - x) / √((r * sin α - x) ^ 2 + (r * cos α) ^ 2) with hτ
  have hdiff : |σ - τ - c * x| ≤ E * |x| ^ 2 := by
    have e : σ - τ - c * x = (σ - (sin β - x * (cos β ^ 2 / r'))) + ((r * sin α - x) / √((r * sin α - x) ^ 2 + (r * cos α) ^ 2)
        - (sin α - x * (cos α ^ 2 / r))) + -(κ0 * (p.eval 0 / p.eval x - (1 - p.derivative.eval 0 / p.eval 0 * x))) := by
      rw [hτ, hκd, hcd]
      linear_combination hκ0
    rw [e]
    refine (abs_add_three _ _ _).trans ?_
    rw [abs_neg, abs_mul κ0]
    have : |κ0| * |p.eval 0 / p.eval x - (1 - p.derivative.eval 0 / p.eval 0 * x)| ≤ |κ0| * (K * |x| ^ 2) := by gcongr
    rw [hE]
    linarith
  have hx2 : |x| ^ 2 ≤ |x| := by nlinarith [abs_nonneg x]
  have hτ1 : |τ| ≤ 1 := by
    have t1 : |σ| ≤ |sin β| + |x| * (1 / r') + 10 / r' ^ 2 * |x| := by
      have e : σ = (σ - (sin β - x * (cos β ^ 2 / r'))) + sin β + -(x * (cos β ^ 2 / r')) := by ring
      have h1 : |x * (cos β ^ 2 / r')| ≤ |x| * (1 / r') := by
        rw [abs_mul, abs_of_nonneg (by positivity : 0 ≤ cos β ^ 2 / r')]
        gcongr
        exact cos_sq_le_one β
      have h2 : 10 / r' ^ 2 * |x| ^ 2 ≤ 10 / r' ^ 2 * |x| := by gcongr
      rw [e]
      refine (abs_add_three _ _ _).trans ?_
      rw [abs_neg]
      linarith
    have t2 : |τ| ≤ |σ| + |σ - τ - c * x| + |c * x| := by
      have : τ = σ + -(σ - τ - c * x) + -(c * x) := by ring
      conv_lhs => rw [this]
      refine (abs_add_three _ _ _).trans ?_
      rw [abs_neg, abs_neg]
    rw [abs_mul] at t2
    have t3 : E * |x| ^ 2 ≤ E * |x| := by gcongr
    have := abs_nonneg x
    linarith
  have hτ2 : τ ^ 2 ≤ 1 := by rw [← sq_abs]; exact pow_le_one₀ (abs_nonneg _) hτ1
  obtain ⟨out, ho, hpo, hdo⟩ := strike_varied hr hcα hn hpos ha hpx hκ hτ2
  exact ⟨out, τ, ho, hpo, hτ2, hdo, hdiff⟩

theorem plain_len (a b : ℝ) : V3.len ⟨a, 0, b⟩ = √(a ^ 2 + b ^ 2) := by
  unfold V3.len V3.dot; congr 1; ring

/-- How far a ray that has travelled to the distance of the image is from it. -/
theorem polar_miss (r γ x τ : ℝ) :
    ((⟨x, 0, 0⟩ : V3) + (polarPoint r γ - ⟨x, 0, 0⟩).len • (⟨τ, 0, √(1 - τ ^ 2)⟩ : V3) - polarPoint r γ).len =
      √((√((r * sin γ - x) ^ 2 + (r * cos γ) ^ 2) * τ - (r * sin γ - x)) ^ 2
        + (√((r * sin γ - x) ^ 2 + (r * cos γ) ^ 2) * √(1 - τ ^ 2) - r * cos γ) ^ 2) := by
  have hsub : polarPoint r γ - ⟨x, 0, 0⟩ = ⟨r * sin γ - x, 0, r * cos γ⟩ := by
    apply V3.ext <;> simp [polarPoint]
  rw [hsub, plain_len]
  refine Eq.trans ?_ (plain_len _ _)
  congr 1
  apply V3.ext
  · simp only [V3.sub_x, V3.add_x, V3.smul_x, polarPoint]; ring
  · simp [polarPoint]
  · simp only [V3.sub_z, V3.add_z, V3.smul_z, polarPoint]; ring

/-! ### The property -/

/-- The rays that come from the point at the distance `r` in the direction `α` and meet the equation of the grating in the
middle for the direction `β` are focused at the distance `r'`: what strikes the grating at `x` passes the point there at
a distance of at most a constant times `x²`. -/
def Focuses (coefficients : List (ℕ × ℝ)) (r r' α β : ℝ) : Prop :=
  ∃ C δ : ℝ, 0 < δ ∧ ∀ x, |x| < δ → ∀ (m : ℝ) (ray : Ray), 0 < ray.index → ray.position = polarPoint r α →
    ray.direction = (1 / (⟨x, 0, 0⟩ - polarPoint r α).len) • (⟨x, 0, 0⟩ - polarPoint r α) →
    m * ray.wavelength / (spacingPolynomial coefficients).eval 0 = ray.index * (sin α + sin β) →
    ∃ out, (variedGrating coefficients m).propagate ray = some out ∧ out.position = ⟨x, 0, 0⟩ ∧ out.direction.len = 1 ∧
      (out.position + (polarPoint r' β - out.position).len • out.direction - polarPoint r' β).len ≤ C * |x| ^ 2

/-- **C120.**  A plane mirror with straight rulings of varied spacing focuses where the theory of such gratings says.  Let
the spacing be any polynomial in the coordinate across the rulings, and let light come from a point at the distance `r`
in the direction `α`.  Light of every wavelength and order that is diffracted in the middle in the direction `β` is
focused at the distance `r'` in this direction if and only if the relative rate of change of the spacing in the middle
times `sin α + sin β` is `cos² α / r + cos² β / r'`. -/
theorem C120_focus {coefficients : List (ℕ × ℝ)} {r r' α β : ℝ} (hr : 0 < r) (hr' : 0 < r') (hα : |α| < π / 2)
    (hβ : |β| < π / 2) (h0 : (spacingPolynomial coefficients).eval 0 ≠ 0) :
    Focuses coefficients r r' α β ↔
      (spacingPolynomial coefficients).derivative.eval 0 / (spacingPolynomial coefficients).eval 0 * (sin α + sin β) =
        cos α ^ 2 / r + cos β ^ 2 / r' := by
  have hcβ : 0 < cos β := cos_pos_of_mem_Ioo (abs_lt.1 hβ)
  obtain ⟨E, δ, hE, hδ, hδ1, h⟩ := varied_ray hr hr' hα hβ h0
  rw [← sub_eq_zero]
  change _ ↔ defocus coefficients r r' α β = 0
  set c := defocus coefficients r r' α β with hc
  constructor
  · rintro ⟨C, δ', hδ', h'⟩
    by_contra hne
    have hc0 : 0 < |c| := abs_pos.2 hne
    -- a ray close to the middle
    set G := E + |C| / (r' * cos β) + 1 with hG
    have hG0 : 0 < G := by positivity
    set x := min (min δ δ') (|c| / G) / 2 with hx
    have hx0 : 0 < x := by positivity
    have hxδ : |x| < δ := by
      rw [abs_of_pos hx0, hx]
      have h1 : min (min δ δ') (|c| / G) ≤ δ := (min_le_left _ _).trans (min_le_left _ _)
      linarith
    have hxδ' : |x| < δ' := by
      rw [abs_of_pos hx0, hx]
      have h1 : min (min δ δ') (|c| / G) ≤ δ' := (min_le_left _ _).trans (min_le_right _ _)
      linarith
    have hxc : x * G < |c| := by
      rw [← lt_div_iff₀ hG0, hx]
      have h1 : min (min δ δ') (|c| / G) ≤ |c| / G := min_le_right _ _
      have h2 : 0 < |c| / G := by positivity
      linarith
    set m := (spacingPolynomial coefficients).eval 0 * (sin α + sin β) with hm
    set ray : Ray := ⟨1, polarPoint r α, (1 / (⟨x, 0, 0⟩ - polarPoint r α).len) • (⟨x, 0, 0⟩ - polarPoint r α), 1, 0, 1, true⟩
      with hray
    have heq : m * ray.wavelength / (spacingPolynomial coefficients).eval 0 = ray.index * (sin α + sin β) := by
      simp only [hray, hm]; field_simp
    obtain ⟨out, τ, ho, hpo, hτ, hd, hlin⟩ := h x hxδ m ray one_pos rfl rfl heq
    obtain ⟨out', ho', -, -, hmiss⟩ := h' x hxδ' m ray one_pos rfl rfl heq
    obtain rfl : out' = out := Option.some.inj (ho'.symm.trans ho)
    rw [hpo, hd, polar_miss] at hmiss
    set X := r' * sin β - x with hX
    set Z := r' * cos β with hZ
    have hZ0 : 0 < Z := by positivity
    set L := √(X ^ 2 + Z ^ 2) with hL
    have hZL : Z ≤ L := le_sqrt_of_sq_le (by nlinarith [sq_nonneg X])
    have h1 : |L * τ - X| ≤ C * |x| ^ 2 := by
      refine le_trans ?_ hmiss
      rw [← sqrt_sq_eq_abs]
      exact sqrt_le_sqrt (by nlinarith [sq_nonneg (L * √(1 - τ ^ 2) - Z)])
    have h2 : |X / L - τ| ≤ |C| / Z * |x| ^ 2 := by
      have e : L * τ - X = -(L * (X / L - τ)) := by
        have : L ≠ 0 := by linarith
        field_simp; ring
      rw [e, abs_neg, abs_mul, abs_of_pos (by linarith : 0 < L)] at h1
      rw [div_mul_eq_mul_div, le_div_iff₀ hZ0]
      calc |X / L - τ| * Z ≤ |X / L - τ| * L := by gcongr
        _ = L * |X / L - τ| := mul_comm _ _
        _ ≤ C * |x| ^ 2 := h1
        _ ≤ |C| * |x| ^ 2 := by gcongr; exact le_abs_self C
    have h3 : |c * x| ≤ |C| / Z * |x| ^ 2 + E * |x| ^ 2 := by
      have e : c * x = (X / L - τ) - (X / L - τ - c * x) := by ring
      rw [e]
      refine (abs_sub _ _).trans (add_le_add h2 hlin)
    rw [abs_mul, abs_of_pos hx0] at h3
    have h4 : |c| ≤ x * (G - 1) := by
      have : |c| * x ≤ x * (G - 1) * x := by rw [hG]; linarith
      exact le_of_mul_le_mul_right this hx0
    linarith
  · intro hc0
    refine ⟨((r' + 1) + 2 * (r' + 1) ^ 2 / (r' * cos β)) * E, δ, hδ, fun x hx m ray hn hp ha hm => ?_⟩
    obtain ⟨out, τ, ho, hpo, hτ, hd, hlin⟩ := h x hx m ray hn hp ha hm
    refine ⟨out, ho, hpo, ?_, ?_⟩
    · rw [hd, plain_len, sq_sqrt (by linarith)]; norm_num
    rw [hc0, zero_mul, _root_.sub_zero] at hlin
    rw [hpo, hd, polar_miss]
    refine (miss_le (by positivity) (polar_far hr' (by linarith)) hτ).trans ?_
    rw [mul_assoc]
    gcongr

/-- **C120.**  Plane mirrors with equidistant straight rulings do not focus. -/
theorem C120_equidistant {d r r' α β : ℝ} (hd : d ≠ 0) (hr : 0 < r) (hr' : 0 < r') (hα : |α| < π / 2) (hβ : |β| < π / 2) :
    ¬ Focuses [(0, d)] r r' α β := by
  have hcβ : 0 < cos β := cos_pos_of_mem_Ioo (abs_lt.1 hβ)
  rw [C120_focus hr hr' hα hβ (by simpa [spacingPolynomial] using hd)]
  have e : (spacingPolynomial [(0, d)]).derivative.eval 0 = 0 := by simp [spacingPolynomial]
  rw [e, zero_div, zero_mul]
  positivity

/-- Light of the wavelength half the spacing at the middle of the grating comes from a point straight above the middle, at
the distance one, and is diffracted at thirty degrees.  With a spacing that grows by the factor `3.5` per unit of
length it is focused at the distance one as well. -/
example : ∃ C δ : ℝ, 0 < δ ∧ ∀ x, |x| < δ → ∃ out, (variedGrating [(0, 1 / 1000), (1, 7 / 2000), (3, 5)] 1).propagate
      ⟨1 / 2000, polarPoint 1 0, (1 / (⟨x, 0, 0⟩ - polarPoint 1 0).len) • (⟨x, 0, 0⟩ - polarPoint 1 0), 1, 0, 1, true⟩
        = some out ∧
      (out.position + (polarPoint 1 (π / 6) - out.position).len • out.direction - polarPoint 1 (π / 6)).len ≤ C * |x| ^ 2 := by
  have e0 : (spacingPolynomial [(0, 1 / 1000), (1, 7 / 2000), (3, 5)]).eval 0 = 1 / 1000 := by
    simp [spacingPolynomial]
  have e1 : (spacingPolynomial [(0, 1 / 1000), (1, 7 / 2000), (3, 5)]).derivative.eval 0 = 7 / 2000 := by
    simp [spacingPolynomial]
  obtain ⟨C, δ, hδ, h⟩ := (C120_focus (coefficients := [(0, 1 / 1000), (1, 7 / 2000), (3, 5)]) (r := 1) (r' := 1) (α := 0)
    (β := π / 6) one_pos one_pos (by simp; positivity) (by rw [abs_of_pos (by positivity)]; linarith [pi_pos])
    (by rw [e0]; norm_num)).2
    (by rw [e0, e1, sin_zero, cos_zero, sin_pi_div_six, cos_pi_div_six, div_pow, sq_sqrt (by norm_num)]; norm_num)
  refine ⟨C, δ, hδ, fun x hx => ?_⟩
  obtain ⟨out, h1, -, -, h2⟩ := h x hx 1
    ⟨1 / 2000, polarPoint 1 0, (1 / (⟨x, 0, 0⟩ - polarPoint 1 0).len) • (⟨x, 0, 0⟩ - polarPoint 1 0), 1, 0, 1, true⟩
    (by norm_num) rfl rfl (by rw [e0, sin_zero, sin_pi_div_six]; norm_num)
  exact ⟨out, h1, h2⟩

end Optika
