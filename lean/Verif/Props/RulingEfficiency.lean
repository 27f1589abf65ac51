import Verif.Lemmas.Grating
import Verif.Model.RulingEfficiency

/-!
# Efficiency of rulings (C38–C40, C55)
-/

namespace Optika
open MeasureTheory Set

/-! ### C55: which profiles follow the theory of thin gratings -/

/-- **C55**: square rulings have the efficiency of a thin grating with a rectangular groove
filling half of the period, for all orders, depths, wavelengths and angles. -/
theorem C55_square (depth : ℝ) (i : ℤ) {wavelength cosTheta : ℝ}
    (h : wavelength * cosTheta ≠ 0) :
    squareEfficiency depth i wavelength cosTheta
      = some (thinGrating (rectangularGroove (1 / 2)) (groovePhase depth wavelength cosTheta) i) := by
  have hpi := Real.pi_ne_zero
  unfold squareEfficiency
  simp only [div?_of_ne h, Option.bind_eq_bind, Option.bind_some, Option.pure_def, Option.some.injEq]
  rw [thinGrating_rectangular (by norm_num) (by norm_num)]
  have e : Real.pi * (Real.pi * (depth / (Real.pi / 4)) / (wavelength * cosTheta)) / 2
      = groovePhase depth wavelength cosTheta / 2 := by
    unfold groovePhase; field_simp
  rw [e]
  split
  · nlinarith [Real.sin_sq_add_cos_sq (groovePhase depth wavelength cosTheta / 2)]
  · rename_i hi
    have hi' : (i : ℝ) ≠ 0 := by exact_mod_cast hi
    have ea : (i : ℝ) * (2 * Real.pi * (1 / 2)) = i * Real.pi := by ring
    rw [ea]
    split
    · rename_i h2
      obtain ⟨k, rfl⟩ := Int.dvd_of_emod_eq_zero h2
      have : Real.cos (((2 * k : ℤ) : ℝ) * Real.pi) = 1 := by
        push_cast
        rw [show 2 * (k : ℝ) * Real.pi = k * (2 * Real.pi) by ring]
        exact Real.cos_int_mul_two_pi k
      rw [this]; ring
    · rename_i h2
      have hodd : i % 2 = 1 := by omega
      obtain ⟨k, hk⟩ : ∃ k, i = 2 * k + 1 := ⟨i / 2, by omega⟩
      have : Real.cos ((i : ℝ) * Real.pi) = -1 := by
        rw [hk]
        push_cast
        rw [show (2 * (k : ℝ) + 1) * Real.pi = Real.pi + k * (2 * Real.pi) by ring,
          Real.cos_add_int_mul_two_pi, Real.cos_pi]
      rw [this]
      field_simp
      ring

theorem one_sub_cos_pos {D : ℝ} (h0 : 0 < D) (h1 : D < 1) :
    0 < 2 * (1 - Real.cos (2 * Real.pi * D)) := by
  have hpi := Real.pi_pos
  have h2 : Real.cos (2 * Real.pi * D) = 1 - 2 * Real.sin (Real.pi * D) ^ 2 := by
    rw [show 2 * Real.pi * D = 2 * (Real.pi * D) by ring, Real.cos_two_mul, Real.cos_sq']; ring
  have h3 : 0 < Real.sin (Real.pi * D) :=
    Real.sin_pos_of_pos_of_lt_pi (by positivity) (by nlinarith)
  rw [h2]; nlinarith [pow_pos h3 2]

/-- **C55**: rectangular rulings have the efficiency of a thin grating with a rectangular groove
of the given duty ratio. -/
theorem C55_rectangular (depth : ℝ) {D : ℝ} (h0 : 0 < D) (h1 : D < 1) (i : ℤ)
    {wavelength cosTheta : ℝ} (h : wavelength * cosTheta ≠ 0) :
    rectangularEfficiency depth D i wavelength cosTheta
      = some (thinGrating (rectangularGroove D) (groovePhase depth wavelength cosTheta) i) := by
  have hpi := Real.pi_ne_zero
  have hs := Real.sqrt_pos.2 (one_sub_cos_pos h0 h1)
  unfold rectangularEfficiency
  have hs' : 2 * Real.sqrt (2 * (1 - Real.cos (2 * Real.pi * D))) ≠ 0 := by positivity
  simp only [div?_of_ne h, div?_of_ne hs', div?_of_ne hs.ne', Option.bind_eq_bind,
    Option.bind_some, Option.pure_def, Option.some.injEq]
  rw [thinGrating_rectangular h0.le h1.le]
  generalize Real.sqrt (2 * (1 - Real.cos (2 * Real.pi * D))) = s at *
  have hs0 := hs.ne'
  have e : Real.pi * (Real.pi * (depth / (Real.pi / (2 * s))) / (wavelength * cosTheta)) / s
      = groovePhase depth wavelength cosTheta / 2 := by
    unfold groovePhase; field_simp; norm_num
  rw [e]
  split
  · field_simp
    ring
  · rfl

/-- **C55** (sawtooth rulings; missing: the order for which the grating is blazed): sawtooth
rulings have the efficiency of a thin grating with a linear groove. -/
theorem C55_sawtooth_partial (depth : ℝ) (i : ℤ) {wavelength cosTheta : ℝ}
    (h : wavelength * cosTheta ≠ 0)
    (hblaze : groovePhase depth wavelength cosTheta + 2 * Real.pi * i ≠ 0) :
    sawtoothEfficiency depth i wavelength cosTheta
      = some (thinGrating sawtoothGroove (groovePhase depth wavelength cosTheta) i) := by
  have hpi := Real.pi_ne_zero
  unfold sawtoothEfficiency
  set g := Real.pi * (depth / (Real.pi / 2)) / (wavelength * cosTheta) with hg
  have e : groovePhase depth wavelength cosTheta = 2 * Real.pi * g := by
    rw [hg]; unfold groovePhase; field_simp; ring
  rw [e] at hblaze ⊢
  have hgi : g + i ≠ 0 := fun h0 => hblaze (by linear_combination 2 * Real.pi * h0)
  simp only [div?_of_ne h, Option.bind_eq_bind, Option.bind_some, Option.pure_def, ← hg]
  rw [div?_of_ne (mul_ne_zero hpi hgi), Option.bind_some, thinGrating_sawtooth hgi]

/-- **C55 / C38 fail** at the blaze of a sawtooth grating: all the light goes into that order, but
the efficiency is `0 / 0`. -/
theorem C55_sawtooth_counterexample (depth : ℝ) (i : ℤ) {wavelength cosTheta : ℝ}
    (h : wavelength * cosTheta ≠ 0)
    (hblaze : groovePhase depth wavelength cosTheta = -(2 * Real.pi * i)) :
    sawtoothEfficiency depth i wavelength cosTheta = none
      ∧ thinGrating sawtoothGroove (groovePhase depth wavelength cosTheta) i = 1 := by
  have hpi := Real.pi_ne_zero
  constructor
  · unfold sawtoothEfficiency
    set g := Real.pi * (depth / (Real.pi / 2)) / (wavelength * cosTheta) with hg
    have e : groovePhase depth wavelength cosTheta = 2 * Real.pi * g := by
      rw [hg]; unfold groovePhase; field_simp; ring
    rw [e] at hblaze
    have hgi : Real.pi * (g + i) = 0 := by linear_combination hblaze / 2
    simp only [div?_of_ne h, Option.bind_eq_bind, Option.bind_some, Option.pure_def, ← hg]
    rw [div?_eq_none.2 hgi]; rfl
  · rw [hblaze]
    unfold thinGrating
    have e : ∀ x : ℝ, Complex.exp (Complex.I * ((-(2 * Real.pi * i) * sawtoothGroove x : ℝ) : ℂ))
        * Complex.exp (-((2 * Real.pi * i * x : ℝ) : ℂ) * Complex.I) = 1 := by
      intro x
      rw [← Complex.exp_add, ← exp_two_pi_int i]
      congr 1
      unfold sawtoothGroove
      push_cast; ring
    simp_rw [e]
    simp

/-- A sawtooth grating blazed for order −1. -/
example : groovePhase (1 / 2) 1 1 = -(2 * Real.pi * ((-1 : ℤ) : ℝ)) := by
  unfold groovePhase; push_cast; ring

/-- **C55** (sinusoidal rulings): the thin grating has the *square* of the number returned. -/
theorem C55_sinusoidal_partial (depth : ℝ) (i : ℤ) {wavelength cosTheta : ℝ}
    (h : wavelength * cosTheta ≠ 0) :
    ∃ v, sinusoidalEfficiency depth i wavelength cosTheta = some v
      ∧ v ^ 2 = thinGrating sinusoidalGroove (groovePhase depth wavelength cosTheta) i := by
  unfold sinusoidalEfficiency
  simp only [div?_of_ne h, Option.bind_eq_bind, Option.bind_some, Option.pure_def,
    Option.some.injEq, exists_eq_left']
  have e : groovePhase depth wavelength cosTheta
      = 2 * (2 * (Real.pi * depth / (wavelength * cosTheta))) := by
    unfold groovePhase; field_simp; ring
  rw [e, besselIntegral_sq, besselJ]

theorem besselJ_neg (i : ℤ) (x : ℝ) : besselJ (-i) x = (-1) ^ i * besselJ i x := by
  unfold besselJ
  have h := intervalIntegral.integral_comp_sub_left (a := 0) (b := Real.pi)
    (fun t : ℝ => Real.cos (((-i : ℤ) : ℝ) * t - x * Real.sin t)) Real.pi
  rw [sub_self, sub_zero] at h
  rw [← h, mul_left_comm, ← intervalIntegral.integral_const_mul ((-1 : ℝ) ^ i)]
  congr 1
  refine intervalIntegral.integral_congr (E := ℝ) fun t _ => ?_
  beta_reduce
  rw [Real.sin_pi_sub, ← Real.cos_sub_int_mul_pi]
  congr 1
  push_cast; ring

theorem besselJ_one_pos {x : ℝ} (h0 : 0 < x) (h1 : x < Real.pi) : 0 < besselJ 1 x := by
  have h := besselJ_neg 1 x
  have e : 2 * besselJ 1 x = 1 / Real.pi *
      ∫ t in (0 : ℝ)..Real.pi, 2 * (Real.sin t * Real.sin (x * Real.sin t)) := by
    have : 2 * besselJ 1 x = besselJ 1 x - besselJ (-1) x := by rw [h]; norm_num; ring
    rw [this]
    unfold besselJ
    rw [← mul_sub, ← intervalIntegral.integral_sub
      (Continuous.intervalIntegrable (by fun_prop) _ _)
      (Continuous.intervalIntegrable (by fun_prop) _ _)]
    congr 1
    refine intervalIntegral.integral_congr (E := ℝ) fun t _ => ?_
    push_cast
    rw [show -1 * t - x * Real.sin t = -(t + x * Real.sin t) by ring, Real.cos_neg, one_mul,
      Real.cos_sub, Real.cos_add]
    ring
  have hp : 0 < ∫ t in (0 : ℝ)..Real.pi, 2 * (Real.sin t * Real.sin (x * Real.sin t)) := by
    refine intervalIntegral.intervalIntegral_pos_of_pos_on
      (Continuous.intervalIntegrable (by fun_prop) _ _) (fun t ht => ?_) Real.pi_pos
    have hs := Real.sin_pos_of_pos_of_lt_pi ht.1 ht.2
    have hs' : 0 < Real.sin (x * Real.sin t) :=
      Real.sin_pos_of_pos_of_lt_pi (by positivity) (by nlinarith [Real.sin_le_one t])
    positivity
  have := mul_pos (one_div_pos.2 Real.pi_pos) hp
  linarith

/-- **C55 / C38 / C39 fail** for sinusoidal rulings: the Bessel function is not squared, so order
−1 has a negative efficiency (and order +1 the opposite one). -/
theorem C38_sinusoidal_counterexample :
    ∃ v, 0 < v ∧ sinusoidalEfficiency (1 / 4) 1 1 1 = some v
      ∧ sinusoidalEfficiency (1 / 4) (-1) 1 1 = some (-v) := by
  have hpi := Real.pi_pos
  refine ⟨besselJ 1 (Real.pi / 2), besselJ_one_pos (by positivity) (by linarith), ?_, ?_⟩
  · unfold sinusoidalEfficiency
    dsimp only
    rw [div?_of_ne (by norm_num)]
    simp only [Option.bind_eq_bind, Option.bind_some, Option.pure_def, Option.some.injEq]
    congr 1; ring
  · unfold sinusoidalEfficiency
    dsimp only
    rw [div?_of_ne (by norm_num)]
    simp only [Option.bind_eq_bind, Option.bind_some, Option.pure_def, Option.some.injEq]
    rw [besselJ_neg, show 2 * (Real.pi * (1 / 4) / (1 * 1)) = Real.pi / 2 by ring]
    norm_num

/-- **C55 fails** for triangular rulings, whose formula has a sum in place of a difference: for a
groove half a wavelength deep (a quarter each way) the code sends nothing into order one … -/
theorem C55_triangular_counterexample :
    triangularEfficiency (1 / 4) 1 1 1 = some 0
      ∧ thinGrating triangularGroove (groovePhase (1 / 4) 1 1) 1 ≠ 0 := by
  have hpi := Real.pi_ne_zero
  constructor
  · unfold triangularEfficiency
    dsimp only
    rw [div?_of_ne (by norm_num : (1 * 1 : ℝ) ≠ 0)]
    simp only [Option.bind_eq_bind, Option.bind_some, Option.pure_def]
    rw [div?_of_ne (by positivity), Option.bind_some, if_neg (by norm_num),
      show Real.pi ^ 2 * (Real.pi * (1 / 4 / (Real.pi ^ 2 / 8)) / (1 * 1)) / 4 = Real.pi / 2 by
        field_simp; norm_num, Real.cos_pi_div_two]
    norm_num
  · have hph : groovePhase (1 / 4) 1 1 = Real.pi := by unfold groovePhase; ring
    rw [hph]
    unfold thinGrating
    set f : ℝ → ℂ := fun x => Complex.exp (Complex.I * (Real.pi * triangularGroove x : ℝ))
      * Complex.exp (-(2 * Real.pi * (1 : ℤ) * x : ℝ) * Complex.I) with hf
    have hfc : Continuous f := by rw [hf]; unfold triangularGroove; fun_prop
    have e1 : ∀ x ∈ uIcc (0 : ℝ) (1 / 2), f x = -Complex.exp (-(4 * Real.pi * x : ℝ) * Complex.I) := by
      intro x hx
      rw [uIcc_of_le (by norm_num)] at hx
      rw [hf]
      simp only
      rw [triangularGroove, abs_of_nonpos (by linarith [hx.2]), ← Complex.exp_add,
        ← neg_one_mul (Complex.exp (-((4 * Real.pi * x : ℝ) : ℂ) * Complex.I)),
        ← Complex.exp_pi_mul_I, ← Complex.exp_add]
      congr 1
      push_cast; ring
    have e2 : ∀ x ∈ uIcc (1 / 2 : ℝ) 1, f x = -1 := by
      intro x hx
      rw [uIcc_of_le (by norm_num)] at hx
      rw [hf]
      simp only
      rw [triangularGroove, abs_of_nonneg (by linarith [hx.1]), ← Complex.exp_add,
        ← Complex.exp_pi_mul_I]
      rw [show Complex.I * ((Real.pi * (2 * x - 1) : ℝ) : ℂ)
          + -((2 * Real.pi * (1 : ℤ) * x : ℝ) : ℂ) * Complex.I = -(Real.pi * Complex.I) by
        push_cast; ring, Complex.exp_neg, Complex.exp_pi_mul_I]
      norm_num
    have h1 : ∫ x in (0 : ℝ)..(1 / 2), f x = 0 := by
      rw [intervalIntegral.integral_congr e1, intervalIntegral.integral_neg,
        integral_cexp_01 (by positivity)]
      have := exp_two_pi_int 1
      rw [Int.cast_one, mul_one] at this
      rw [show 4 * Real.pi * (1 / 2) = 2 * Real.pi by ring, this]
      simp
    have h2 : ∫ x in (1 / 2 : ℝ)..1, f x = -(1 / 2) := by
      rw [intervalIntegral.integral_congr e2]
      simp; norm_num
    rw [← intervalIntegral.integral_add_adjacent_intervals
      (hfc.intervalIntegrable (μ := volume) 0 (1 / 2))
      (hfc.intervalIntegrable (μ := volume) (1 / 2) 1), h1, h2]
    norm_num

/-! ### C38: efficiencies are fractions of the energy -/

theorem groovePhase_zero (wavelength cosTheta : ℝ) : groovePhase 0 wavelength cosTheta = 0 := by
  unfold groovePhase; simp

/-- **C38** for square rulings: for all depths, wavelengths and angles, the efficiencies are
numbers between zero and one which sum to one. -/
theorem C38_square (depth : ℝ) {wavelength cosTheta : ℝ} (h : wavelength * cosTheta ≠ 0) :
    ∃ eta : ℤ → ℝ, (∀ i, squareEfficiency depth i wavelength cosTheta = some (eta i))
      ∧ (∀ i, 0 ≤ eta i ∧ eta i ≤ 1) ∧ HasSum eta 1 :=
  ⟨_, fun i => C55_square depth i h, fun i => thinGrating_mem (rectangularGroove_measurable _) _ i,
    thinGrating_hasSum (rectangularGroove_measurable _) _⟩

/-- **C38** for rectangular rulings with any duty ratio strictly between zero and one. -/
theorem C38_rectangular (depth : ℝ) {D : ℝ} (h0 : 0 < D) (h1 : D < 1) {wavelength cosTheta : ℝ}
    (h : wavelength * cosTheta ≠ 0) :
    ∃ eta : ℤ → ℝ, (∀ i, rectangularEfficiency depth D i wavelength cosTheta = some (eta i))
      ∧ (∀ i, 0 ≤ eta i ∧ eta i ≤ 1) ∧ HasSum eta 1 :=
  ⟨_, fun i => C55_rectangular depth h0 h1 i h,
    fun i => thinGrating_mem (rectangularGroove_measurable _) _ i,
    thinGrating_hasSum (rectangularGroove_measurable _) _⟩

/-- **C38** for sawtooth rulings (missing: depths for which the grating is blazed for an order,
where that order is `NaN`). -/
theorem C38_sawtooth_partial (depth : ℝ) {wavelength cosTheta : ℝ} (h : wavelength * cosTheta ≠ 0)
    (hblaze : ∀ i : ℤ, groovePhase depth wavelength cosTheta + 2 * Real.pi * i ≠ 0) :
    ∃ eta : ℤ → ℝ, (∀ i, sawtoothEfficiency depth i wavelength cosTheta = some (eta i))
      ∧ (∀ i, 0 ≤ eta i ∧ eta i ≤ 1) ∧ HasSum eta 1 :=
  ⟨_, fun i => C55_sawtooth_partial depth i h (hblaze i),
    fun i => thinGrating_mem sawtoothGroove_measurable _ i,
    thinGrating_hasSum sawtoothGroove_measurable _⟩

/-- The hypothesis holds for a depth of an eighth of the wavelength. -/
example : ∀ i : ℤ, groovePhase (1 / 8) 1 1 + 2 * Real.pi * i ≠ 0 := by
  intro i h
  have hpi := Real.pi_pos
  unfold groovePhase at h
  have h1 : Real.pi * (1 + 4 * i) = 0 := by linear_combination 2 * h
  have h2 : (1 : ℝ) + 4 * i = 0 := (mul_eq_zero.1 h1).resolve_left hpi.ne'
  have h3 : (1 : ℤ) + 4 * i = 0 := by exact_mod_cast h2
  omega

/-- **C38** for sawtooth rulings: whenever a number is returned it is between zero and one. -/
theorem C38_sawtooth_range {depth : ℝ} {i : ℤ} {wavelength cosTheta v : ℝ}
    (hv : sawtoothEfficiency depth i wavelength cosTheta = some v) : 0 ≤ v ∧ v ≤ 1 := by
  by_cases h : wavelength * cosTheta = 0
  · unfold sawtoothEfficiency at hv
    simp [div?_eq_none.2 h] at hv
  by_cases hb : groovePhase depth wavelength cosTheta + 2 * Real.pi * i = 0
  · rw [(C55_sawtooth_counterexample depth i h (by linarith)).1] at hv
    simp at hv
  · rw [C55_sawtooth_partial depth i h hb, Option.some.injEq] at hv
    rw [← hv]
    exact thinGrating_mem sawtoothGroove_measurable _ i

/-- **C38** for triangular rulings: whenever a number is returned it is between zero and one
(no claim that they sum to one: the code does not follow the theory, see C55). -/
theorem C38_triangular_range {depth : ℝ} {i : ℤ} {wavelength cosTheta v : ℝ}
    (hv : triangularEfficiency depth i wavelength cosTheta = some v) : 0 ≤ v ∧ v ≤ 1 := by
  have hpi := Real.pi_pos
  have hpi1 := Real.pi_gt_three
  unfold triangularEfficiency at hv
  simp only [Option.bind_eq_bind, Option.pure_def, Option.bind_eq_some_iff, div?_eq_some] at hv
  obtain ⟨g, -, a, ⟨hne, ha⟩, hv⟩ := hv
  have key : ∀ s : ℝ, |a * s| ≤ 1 → (a * s) ^ 2 ≤ 1 := fun s hs => (sq_le_one_iff_abs_le_one _).2 hs
  by_cases hi : i = 0
  · subst hi
    rw [if_pos (by norm_num), Option.some.injEq] at hv
    rw [← hv]
    refine ⟨by positivity, key _ ?_⟩
    have hg : g ≠ 0 := by rintro rfl; simp at hne
    have : a * Real.sin (Real.pi ^ 2 * g / 4)
        = Real.sin (Real.pi ^ 2 * g / 4) / (Real.pi ^ 2 * g / 4) := by
      rw [ha]; push_cast; field_simp; ring
    have h0 : Real.pi ^ 2 * g / 4 ≠ 0 := by positivity
    rw [this, abs_div, div_le_one (abs_pos.2 h0)]
    exact Real.abs_sin_le_abs
  · have hi1 : (1 : ℝ) ≤ |(i : ℝ)| := by exact_mod_cast Int.one_le_abs hi
    have hi2 : (1 : ℝ) ≤ (i : ℝ) ^ 2 := by rw [← sq_abs]; nlinarith
    have hden : 0 < (Real.pi * g / 2) ^ 2 + (i : ℝ) ^ 2 := by positivity
    have hle : |a| ≤ 1 := by
      rw [ha, abs_div, abs_of_pos hden, div_le_one hden]
      have h1 : |g| ≤ g ^ 2 + 1 := by
        rcases abs_cases g with ⟨h, _⟩ | ⟨h, _⟩ <;> rw [h] <;> nlinarith [sq_nonneg (g - 1), sq_nonneg (g + 1)]
      have h2 : 4 * g ^ 2 ≤ Real.pi ^ 2 * g ^ 2 :=
        mul_le_mul_of_nonneg_right (by nlinarith) (sq_nonneg g)
      nlinarith
    have hb : ∀ s : ℝ, |s| ≤ 1 → |a * s| ≤ 1 := fun s hs => by
      rw [abs_mul]; exact mul_le_one₀ hle (abs_nonneg s) hs
    split at hv <;> rw [Option.some.injEq] at hv <;> rw [← hv]
    · exact ⟨by positivity, key _ (hb _ (Real.abs_sin_le_one _))⟩
    · exact ⟨by positivity, key _ (hb _ (Real.abs_cos_le_one _))⟩

/-- **C38** (sinusoidal rulings; missing: being nonnegative, see the counterexample): the numbers
returned are between minus one and one, and their *squares* sum to one. -/
theorem C38_sinusoidal_partial (depth : ℝ) {wavelength cosTheta : ℝ}
    (h : wavelength * cosTheta ≠ 0) :
    ∃ eta : ℤ → ℝ, (∀ i, sinusoidalEfficiency depth i wavelength cosTheta = some (eta i))
      ∧ (∀ i, |eta i| ≤ 1) ∧ HasSum (fun i => eta i ^ 2) 1 := by
  have hm : Measurable sinusoidalGroove := by unfold sinusoidalGroove; fun_prop
  choose eta h1 h2 using fun i => C55_sinusoidal_partial depth i h
  refine ⟨eta, h1, fun i => ?_, ?_⟩
  · rw [← sq_le_one_iff_abs_le_one, h2]
    exact (thinGrating_mem hm _ i).2
  · simp_rw [h2]
    exact thinGrating_hasSum hm _

/-- **C38** at zero depth, for square, rectangular and sinusoidal rulings: everything goes into
order zero. -/
theorem C38_zero_depth {D : ℝ} (h0 : 0 < D) (h1 : D < 1) (i : ℤ) {wavelength cosTheta : ℝ}
    (h : wavelength * cosTheta ≠ 0) :
    squareEfficiency 0 i wavelength cosTheta = some (if i = 0 then 1 else 0)
      ∧ rectangularEfficiency 0 D i wavelength cosTheta = some (if i = 0 then 1 else 0)
      ∧ sinusoidalEfficiency 0 i wavelength cosTheta = some (if i = 0 then 1 else 0) := by
  refine ⟨?_, ?_, ?_⟩
  · rw [C55_square 0 i h, groovePhase_zero, thinGrating_rectangular (by norm_num) (by norm_num)]
    simp
  · rw [C55_rectangular 0 h0 h1 i h, groovePhase_zero, thinGrating_rectangular h0.le h1.le]
    simp
  · unfold sinusoidalEfficiency
    simp only [div?_of_ne h, Option.bind_eq_bind, Option.bind_some, Option.pure_def,
      Option.some.injEq, mul_zero, zero_div]
    unfold besselJ
    simp only [zero_mul, sub_zero]
    split
    · rename_i hi; subst hi
      simp [Real.pi_ne_zero]
    · rename_i hi
      have hi' : (i : ℝ) ≠ 0 := by exact_mod_cast hi
      rw [intervalIntegral.integral_comp_mul_left (fun t => Real.cos t) hi', integral_cos,
        mul_zero, Real.sin_zero, Real.sin_int_mul_pi]
      simp

/-- **C38** at zero depth for sawtooth and triangular rulings: nothing goes into the other orders
(missing: order zero). -/
theorem C38_zero_depth_partial {i : ℤ} (hi : i ≠ 0) {wavelength cosTheta : ℝ}
    (h : wavelength * cosTheta ≠ 0) :
    sawtoothEfficiency 0 i wavelength cosTheta = some 0
      ∧ triangularEfficiency 0 i wavelength cosTheta = some 0 := by
  have hi' : (i : ℝ) ≠ 0 := by exact_mod_cast hi
  have hpi := Real.pi_ne_zero
  constructor
  · unfold sawtoothEfficiency
    simp only [div?_of_ne h, Option.bind_eq_bind, Option.bind_some, Option.pure_def, zero_div,
      mul_zero, zero_add, Real.sin_zero]
    rw [div?_of_ne (by positivity)]
    simp
  · unfold triangularEfficiency
    simp only [div?_of_ne h, Option.bind_eq_bind, Option.bind_some, Option.pure_def, zero_div,
      mul_zero]
    rw [div?_of_ne (by positivity)]
    simp

/-- **C38 fails** for sawtooth and triangular rulings of zero depth, the efficiency of which is
`0 / 0` for order zero. -/
theorem C38_zero_depth_counterexample (wavelength cosTheta : ℝ) :
    sawtoothEfficiency 0 0 wavelength cosTheta = none
      ∧ triangularEfficiency 0 0 wavelength cosTheta = none := by
  constructor
  · unfold sawtoothEfficiency
    by_cases h : wavelength * cosTheta = 0
    · simp [div?_eq_none.2 h]
    · simp only [div?_of_ne h, Option.bind_eq_bind, Option.bind_some]
      rw [div?_eq_none.2 (by simp)]; rfl
  · unfold triangularEfficiency
    by_cases h : wavelength * cosTheta = 0
    · simp [div?_eq_none.2 h]
    · simp only [div?_of_ne h, Option.bind_eq_bind, Option.bind_some]
      rw [div?_eq_none.2 (by simp)]; rfl

/-- **C38 fails** for rectangular rulings of duty ratio zero or one (a flat surface). -/
theorem C38_duty_counterexample (depth : ℝ) (i : ℤ) (wavelength cosTheta : ℝ) :
    rectangularEfficiency depth 0 i wavelength cosTheta = none
      ∧ rectangularEfficiency depth 1 i wavelength cosTheta = none := by
  constructor <;>
  · unfold rectangularEfficiency
    dsimp only
    rw [div?_eq_none.2 (by simp)]
    rfl

/-! ### C39: relations between profiles and between orders -/

/-- **C39**: square rulings are rectangular rulings with a duty ratio of one half: the same result
for every order, depth, wavelength and angle (also where that is not a number). -/
theorem C39_square (depth : ℝ) (i : ℤ) (wavelength cosTheta : ℝ) :
    squareEfficiency depth i wavelength cosTheta
      = rectangularEfficiency depth (1 / 2) i wavelength cosTheta := by
  by_cases h : wavelength * cosTheta = 0
  · have hs := Real.sqrt_pos.2 (one_sub_cos_pos (D := 1 / 2) (by norm_num) (by norm_num))
    unfold squareEfficiency rectangularEfficiency
    dsimp only
    rw [div?_of_ne (b := 2 * Real.sqrt (2 * (1 - Real.cos (2 * Real.pi * (1 / 2))))) (by positivity)]
    simp only [div?_eq_none.2 h, Option.bind_eq_bind, Option.bind_some, Option.bind_none]
  · rw [C55_square depth i h, C55_rectangular depth (by norm_num) (by norm_num) i h]

/-- **C39** on rays: with the same rulings, on every ray. -/
theorem C39_square_rays (depth : ℝ) (i : ℤ) (kappa : Option V3) (r : Ray) (normal : V3) :
    rulingEfficiency (squareEfficiency depth) i kappa r normal
      = rulingEfficiency (rectangularEfficiency depth (1 / 2)) i kappa r normal := by
  unfold rulingEfficiency
  simp only [C39_square]

/-- **C39** for symmetric profiles: positive and negative orders are equally efficient (square,
rectangular and triangular rulings). -/
theorem C39_symmetric_partial (depth duty : ℝ) (i : ℤ) (wavelength cosTheta : ℝ) :
    squareEfficiency depth (-i) wavelength cosTheta = squareEfficiency depth i wavelength cosTheta
      ∧ rectangularEfficiency depth duty (-i) wavelength cosTheta
        = rectangularEfficiency depth duty i wavelength cosTheta
      ∧ triangularEfficiency depth (-i) wavelength cosTheta
        = triangularEfficiency depth i wavelength cosTheta := by
  have h2 : (-i) % 2 = 0 ↔ i % 2 = 0 := by omega
  refine ⟨?_, ?_, ?_⟩
  · unfold squareEfficiency
    simp only [h2, neg_eq_zero, Int.cast_neg, div_pow, neg_mul, neg_sq]
  · unfold rectangularEfficiency
    simp only [neg_eq_zero, Int.cast_neg, neg_mul, neg_sq, Real.cos_neg]
  · unfold triangularEfficiency
    simp only [h2, Int.cast_neg, neg_sq]

/-- **C39** for sinusoidal rulings (a symmetric profile): opposite orders have the same modulus,
even orders the same value.  For the odd orders see `C38_sinusoidal_counterexample`. -/
theorem C39_sinusoidal_partial (depth : ℝ) (i : ℤ) (wavelength cosTheta : ℝ) :
    sinusoidalEfficiency depth (-i) wavelength cosTheta
      = (sinusoidalEfficiency depth i wavelength cosTheta).map fun v => (-1) ^ i * v := by
  unfold sinusoidalEfficiency
  by_cases h : wavelength * cosTheta = 0
  · simp [div?_eq_none.2 h]
  · simp [div?_of_ne h, besselJ_neg]

/-- **C39 fails** for sinusoidal rulings: the first orders of this symmetric profile differ. -/
theorem C39_sinusoidal_counterexample :
    sinusoidalEfficiency (1 / 4) (-1) 1 1 ≠ sinusoidalEfficiency (1 / 4) 1 1 1 := by
  obtain ⟨v, hv, h1, h2⟩ := C38_sinusoidal_counterexample
  rw [h1, h2]
  intro h
  have := Option.some.inj h
  linarith

/-! ### C40: the component of the direction along the grooves -/

/-- What the code computes as cosine of the angle of incidence: `p` is the unit vector along the
rulings. -/
theorem rulingCosine_eq {k normal direction g p : V3} (hg : normalized? k = some g)
    (hp : normalized? (normal.cross g) = some p) :
    rulingCosine (some k) direction normal
      = some (-direction.dot normal + direction.dot p * (normal.x + normal.y + normal.z)) := by
  unfold rulingCosine
  simp only [Option.bind_eq_bind, Option.bind_some, hg, hp, Option.pure_def, Option.some.injEq]
  simp only [V3.dot]
  ring

/-- **C40** (missing: rays with a component along the rulings, unless the components of the normal
add up to zero): the cosine of the angle of incidence is the one between ray and normal. -/
theorem C40_partial (profile : ℤ → ℝ → ℝ → Option ℝ) (i : ℤ) {k normal g p : V3} (r : Ray)
    (hg : normalized? k = some g) (hp : normalized? (normal.cross g) = some p)
    (h : r.direction.dot p = 0 ∨ normal.x + normal.y + normal.z = 0) :
    rulingEfficiency profile i (some k) r normal
      = profile i r.wavelength (-r.direction.dot normal) := by
  unfold rulingEfficiency
  rw [rulingCosine_eq hg hp]
  rcases h with h | h <;> simp [h]

/-- The hypotheses hold for rulings along `y` on a surface facing along `-z` and a ray in the
`xz`-plane. -/
example : normalized? (⟨2, 0, 0⟩ : V3) = some ⟨1, 0, 0⟩
    ∧ normalized? ((⟨0, 0, -1⟩ : V3).cross ⟨1, 0, 0⟩) = some ⟨0, -1, 0⟩
    ∧ (⟨3 / 5, 0, 4 / 5⟩ : V3).dot ⟨0, -1, 0⟩ = 0 := by
  refine ⟨?_, ?_, ?_⟩
  · have : (⟨2, 0, 0⟩ : V3).len = 2 := by
      simp [V3.len, V3.dot]
    unfold normalized?
    rw [this]
    simp [div?_of_ne]
  · have : ((⟨0, 0, -1⟩ : V3).cross ⟨1, 0, 0⟩).len = 1 := by
      simp [V3.len, V3.dot, V3.cross]
    unfold normalized?
    rw [this]
    simp [div?_of_ne, V3.cross]
  · simp [V3.dot]

/-- **C40 fails**: two rays which differ only by the sign of the component along the rulings.  One
has all of its light in order zero removed, the other one not. -/
theorem C40_counterexample :
    let kappa : V3 := ⟨1, 0, 0⟩
    let normal : V3 := ⟨0, 0, -1⟩
    let r (s : ℝ) : Ray := ⟨1, ⟨0, 0, 0⟩, ⟨0, s * (3 / 5), 4 / 5⟩, 1, 0, 1, true⟩
    rulingEfficiency (squareEfficiency (1 / 20)) 0 (some kappa) (r 1) normal
      ≠ rulingEfficiency (squareEfficiency (1 / 20)) 0 (some kappa) (r (-1)) normal := by
  intro kappa normal r
  have hpi := Real.pi_pos
  have hg : normalized? kappa = some ⟨1, 0, 0⟩ := by
    have : kappa.len = 1 := by simp [kappa, V3.len, V3.dot]
    unfold normalized?
    rw [this]
    simp [kappa, div?_of_ne]
  have hp : normalized? (normal.cross ⟨1, 0, 0⟩) = some ⟨0, -1, 0⟩ := by
    have : (normal.cross ⟨1, 0, 0⟩).len = 1 := by simp [normal, V3.len, V3.dot, V3.cross]
    unfold normalized?
    rw [this]
    simp [normal, div?_of_ne, V3.cross]
  have h1 : -(r 1).direction.dot normal
      + (r 1).direction.dot ⟨0, -1, 0⟩ * (normal.x + normal.y + normal.z) = 7 / 5 := by
    simp [r, normal, V3.dot]; norm_num
  have h2 : -(r (-1)).direction.dot normal
      + (r (-1)).direction.dot ⟨0, -1, 0⟩ * (normal.x + normal.y + normal.z) = 1 / 5 := by
    simp [r, normal, V3.dot]; norm_num
  unfold rulingEfficiency
  rw [rulingCosine_eq hg hp, rulingCosine_eq hg hp, h1, h2]
  simp only [Option.bind_eq_bind, Option.bind_some, r]
  rw [C55_square _ _ (by norm_num), C55_square _ _ (by norm_num),
    thinGrating_rectangular (by norm_num) (by norm_num),
    thinGrating_rectangular (by norm_num) (by norm_num), if_pos rfl, if_pos rfl]
  have e1 : groovePhase (1 / 20) 1 (7 / 5) / 2 = Real.pi / 14 := by unfold groovePhase; ring
  have e2 : groovePhase (1 / 20) 1 (1 / 5) / 2 = Real.pi / 2 := by unfold groovePhase; ring
  rw [e1, e2, Real.sin_pi_div_two]
  intro h
  have h := Option.some.inj h
  have hc : 0 < Real.cos (Real.pi / 14) :=
    Real.cos_pos_of_mem_Ioo ⟨by linarith, by linarith⟩
  nlinarith [Real.sin_sq_add_cos_sq (Real.pi / 14), pow_pos hc 2]

end Optika
