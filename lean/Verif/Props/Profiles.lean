import Verif.Spec.Profile
import Verif.Lemmas.Profiles
import Verif.Props.Multilayer

/-!
# Interface profiles (C36, C37, C54)
-/

namespace Optika
open MeasureTheory Set Filter Topology

/-! ## C36: transitions from 0 to 1 -/

theorem C36_erf {w : ℝ} (hw : 0 < w) : Transition (erfProfile w) := by
  have h2 := Real.sqrt_pos.mpr (zero_lt_two (α := ℝ))
  have hd : 0 < Real.sqrt 2 * w := by positivity
  unfold erfProfile
  refine ⟨fun a b h => ?_, fun z => ?_, fun z => ?_, by simp, fun z => ?_, ?_, ?_⟩
  · have : erf (a / (Real.sqrt 2 * w)) ≤ erf (b / (Real.sqrt 2 * w)) :=
      erf_strictMono.monotone (div_le_div_of_nonneg_right h hd.le)
    linarith
  · have := neg_one_lt_erf (z / (Real.sqrt 2 * w)); linarith
  · have := erf_lt_one (z / (Real.sqrt 2 * w)); linarith
  · rw [neg_div, erf_neg]; ring
  · have := ((erf_tendsto_atBot.comp (tendsto_id.atBot_div_const hd)).const_add 1).div_const 2
    simpa using this
  · have := ((erf_tendsto_atTop.comp (tendsto_id.atTop_div_const hd)).const_add 1).div_const 2
    norm_num at this
    exact this

theorem exponential_antisymm (w z : ℝ) :
    exponentialProfile w (-z) = 1 - exponentialProfile w z := by
  rcases lt_trichotomy z 0 with h | h | h
  · rw [exponentialProfile_of_pos (by linarith), exponentialProfile_of_neg h]
    ring_nf
  · subst h; rw [neg_zero, exponentialProfile_zero]; norm_num
  · rw [exponentialProfile_of_neg (by linarith), exponentialProfile_of_pos h]
    ring_nf

theorem exponential_half_le {w z : ℝ} (hw : 0 < w) (hz : 0 ≤ z) :
    1 / 2 ≤ exponentialProfile w z ∧ exponentialProfile w z ≤ 1 := by
  rcases hz.eq_or_lt with h | h
  · subst h; rw [exponentialProfile_zero]; norm_num
  · rw [exponentialProfile_of_pos h]
    have h2 := Real.sqrt_pos.mpr (zero_lt_two (α := ℝ))
    have e1 : Real.exp (-Real.sqrt 2 * z / w) ≤ 1 := by
      rw [Real.exp_le_one_iff]
      apply div_nonpos_of_nonpos_of_nonneg _ hw.le
      nlinarith
    have e2 := Real.exp_pos (-Real.sqrt 2 * z / w)
    constructor <;> linarith

theorem exponential_mono_pos {w a b : ℝ} (hw : 0 < w) (ha : 0 ≤ a) (hab : a ≤ b) :
    exponentialProfile w a ≤ exponentialProfile w b := by
  rcases ha.eq_or_lt with h | h
  · subst h
    rw [exponentialProfile_zero]
    exact (exponential_half_le hw hab).1
  · rw [exponentialProfile_of_pos h, exponentialProfile_of_pos (h.trans_le hab)]
    have h2 := Real.sqrt_pos.mpr (zero_lt_two (α := ℝ))
    have : Real.exp (-Real.sqrt 2 * b / w) ≤ Real.exp (-Real.sqrt 2 * a / w) := by
      apply Real.exp_le_exp.mpr
      apply div_le_div_of_nonneg_right _ hw.le
      nlinarith
    linarith

theorem C36_exponential {w : ℝ} (hw : 0 < w) : Transition (exponentialProfile w) := by
  have h2 := Real.sqrt_pos.mpr (zero_lt_two (α := ℝ))
  have htop : Tendsto (exponentialProfile w) atTop (𝓝 1) := by
    have h1 : Tendsto (fun z : ℝ => 1 - Real.exp (-(Real.sqrt 2 / w * z)) / 2) atTop (𝓝 1) := by
      have hk : Tendsto (fun z : ℝ => Real.sqrt 2 / w * z) atTop atTop :=
        tendsto_id.const_mul_atTop (by positivity)
      have := ((Real.tendsto_exp_neg_atTop_nhds_zero.comp hk).div_const 2).const_sub 1
      simpa using this
    refine h1.congr' ?_
    filter_upwards [eventually_gt_atTop 0] with z hz
    rw [exponentialProfile_of_pos hz]
    ring_nf
  refine ⟨fun a b h => ?_, fun z => ?_, fun z => ?_, exponentialProfile_zero,
    exponential_antisymm w, ?_, htop⟩
  · rcases le_total 0 a with ha | ha
    · exact exponential_mono_pos hw ha h
    · rcases le_total 0 b with hb | hb
      · have e1 := (exponential_half_le hw hb).1
        have e2 := (exponential_half_le hw (neg_nonneg.mpr ha)).1
        rw [exponential_antisymm] at e2
        linarith
      · have e := exponential_mono_pos hw (neg_nonneg.mpr hb) (neg_le_neg h)
        rw [exponential_antisymm, exponential_antisymm] at e
        linarith
  · rcases le_total 0 z with hz | hz
    · linarith [(exponential_half_le hw hz).1]
    · have e2 := (exponential_half_le hw (neg_nonneg.mpr hz)).2
      rw [exponential_antisymm] at e2
      linarith
  · rcases le_total 0 z with hz | hz
    · exact (exponential_half_le hw hz).2
    · have e2 := (exponential_half_le hw (neg_nonneg.mpr hz)).1
      rw [exponential_antisymm] at e2
      linarith
  · have := (htop.comp tendsto_neg_atBot_atTop).const_sub 1
    rw [sub_self] at this
    refine this.congr fun z => ?_
    simp only [Function.comp, exponential_antisymm]
    ring

theorem C36_linear_partial {w : ℝ} (hw : 0 < w) : Transition (linearProfile w) := by
  have h3 := Real.sqrt_pos.mpr (zero_lt_three (α := ℝ))
  have hd : 0 < 2 * Real.sqrt 3 * w := by positivity
  refine ⟨fun a b h => ?_, fun z => ?_, fun z => ?_, ?_, fun z => ?_, ?_, ?_⟩
  · unfold linearProfile
    have := div_le_div_of_nonneg_right h hd.le
    exact min_le_min le_rfl (max_le_max (by linarith) le_rfl)
  · unfold linearProfile
    exact le_min (by norm_num) (le_max_right _ _)
  · unfold linearProfile
    exact min_le_left _ _
  · rw [(linear_cases w hw 0).2.2 (by nlinarith) (by positivity)]; simp
  · have hb : 0 < Real.sqrt 3 * w := by positivity
    rcases le_total z (-(Real.sqrt 3 * w)) with h | h
    · rw [(linear_cases w hw z).1 h, (linear_cases w hw (-z)).2.1 (by linarith)]; norm_num
    · rcases le_total (Real.sqrt 3 * w) z with h' | h'
      · rw [(linear_cases w hw z).2.1 h', (linear_cases w hw (-z)).1 (by linarith)]; norm_num
      · rw [(linear_cases w hw z).2.2 h h',
          (linear_cases w hw (-z)).2.2 (by linarith) (by linarith)]
        ring
  · refine tendsto_const_nhds.congr' ?_
    filter_upwards [eventually_le_atBot (-(Real.sqrt 3 * w))] with z hz
    exact ((linear_cases w hw z).1 hz).symm
  · refine tendsto_const_nhds.congr' ?_
    filter_upwards [eventually_ge_atTop (Real.sqrt 3 * w)] with z hz
    exact ((linear_cases w hw z).2.1 hz).symm

theorem C36_sinusoidal {w : ℝ} (hw : 0 < w) : Transition (sinusoidalProfile w) := by
  have ha := sinusoidalA_pos
  have hb : 0 < sinusoidalA * w := mul_pos ha hw
  refine ⟨fun a b h => ?_, fun z => ?_, fun z => ?_, ?_, fun z => ?_, ?_, ?_⟩
  · unfold sinusoidalProfile
    rw [← sinusoidalA]
    dsimp only
    set x := min (sinusoidalA * w) (max a (-sinusoidalA * w)) with hx
    set y := min (sinusoidalA * w) (max b (-sinusoidalA * w)) with hy
    have hxy : x ≤ y := min_le_min le_rfl (max_le_max h le_rfl)
    have hx1 : -(sinusoidalA * w) ≤ x := le_min (by linarith) ((by linarith :
      -(sinusoidalA * w) ≤ -sinusoidalA * w).trans (le_max_right _ _))
    have hy1 : y ≤ sinusoidalA * w := min_le_left _ _
    have hk : 0 < 2 * sinusoidalA * w := by positivity
    have : Real.sin (Real.pi * x / (2 * sinusoidalA * w))
        ≤ Real.sin (Real.pi * y / (2 * sinusoidalA * w)) := by
      apply Real.sin_le_sin_of_le_of_le_pi_div_two
      · rw [le_div_iff₀ hk]; nlinarith [Real.pi_pos]
      · rw [div_le_iff₀ hk]; nlinarith [Real.pi_pos]
      · apply div_le_div_of_nonneg_right _ hk.le
        exact mul_le_mul_of_nonneg_left hxy Real.pi_pos.le
    linarith
  · unfold sinusoidalProfile
    dsimp only
    linarith [Real.neg_one_le_sin (Real.pi * min (Real.pi / (Real.pi ^ 2 - 8) * w)
      (max z (-(Real.pi / (Real.pi ^ 2 - 8)) * w)) / (2 * (Real.pi / (Real.pi ^ 2 - 8)) * w))]
  · unfold sinusoidalProfile
    dsimp only
    linarith [Real.sin_le_one (Real.pi * min (Real.pi / (Real.pi ^ 2 - 8) * w)
      (max z (-(Real.pi / (Real.pi ^ 2 - 8)) * w)) / (2 * (Real.pi / (Real.pi ^ 2 - 8)) * w))]
  · rw [(sinusoidal_cases w hw 0).2.2 (by linarith) hb.le]; simp
  · rcases le_total z (-(sinusoidalA * w)) with h | h
    · rw [(sinusoidal_cases w hw z).1 h, (sinusoidal_cases w hw (-z)).2.1 (by linarith)]; norm_num
    · rcases le_total (sinusoidalA * w) z with h' | h'
      · rw [(sinusoidal_cases w hw z).2.1 h', (sinusoidal_cases w hw (-z)).1 (by linarith)]
        norm_num
      · rw [(sinusoidal_cases w hw z).2.2 h h',
          (sinusoidal_cases w hw (-z)).2.2 (by linarith) (by linarith), mul_neg, neg_div,
          Real.sin_neg]
        ring
  · refine tendsto_const_nhds.congr' ?_
    filter_upwards [eventually_le_atBot (-(sinusoidalA * w))] with z hz
    exact ((sinusoidal_cases w hw z).1 hz).symm
  · refine tendsto_const_nhds.congr' ?_
    filter_upwards [eventually_ge_atTop (sinusoidalA * w)] with z hz
    exact ((sinusoidal_cases w hw z).2.1 hz).symm

/-- A profile that is not constant: a nanometre behind an interface of one nanometre. -/
example : 1 / 2 < erfProfile 1 1 ∧ linearProfile 1 1 < 1 := by
  constructor
  · unfold erfProfile
    have h2 := Real.sqrt_pos.mpr (zero_lt_two (α := ℝ))
    have : erf 0 < erf (1 / (Real.sqrt 2 * 1)) := erf_strictMono (by positivity)
    rw [erf_zero] at this
    linarith
  · have h3 : (1 : ℝ) < Real.sqrt 3 := by
      rw [Real.lt_sqrt (by norm_num)]; norm_num
    rw [(linear_cases 1 one_pos 1).2.2 (by linarith) (by linarith)]
    have : 1 / (2 * Real.sqrt 3 * 1) < 1 / 2 := by
      apply one_div_lt_one_div_of_lt <;> linarith
    linarith

/-! ### The reflection by an interface with a profile -/

theorem refraction_rough {w : ℝ} {ci cj ni nj : ℂ} {pol : Bool} {f : Interface} {m : M2}
    (h : refraction w ci cj pol ni nj (some f) = some m) :
    ∃ γ, f w (polarizedDirection pol ci) ni = some γ ∧ ni ≠ 0 ∧ nj ≠ 0 ∧
      momentum pol ci ni + momentum pol cj nj ≠ 0 ∧ momentum pol ci ni ≠ 0 ∧
      m 0 0 = interfaceMatrix (momentum pol ci ni) (momentum pol cj nj) 0 0 ∧
      m 1 1 = interfaceMatrix (momentum pol ci ni) (momentum pol cj nj) 1 1 ∧
      m 0 1 = γ * interfaceMatrix (momentum pol ci ni) (momentum pol cj nj) 0 1 ∧
      m 1 0 = γ * interfaceMatrix (momentum pol ci ni) (momentum pol cj nj) 1 0 := by
  unfold refraction at h
  simp only [Option.elim_some] at h
  by_cases h0 : ni = 0 ∨ nj = 0 ∨ momentum pol ci ni + momentum pol cj nj = 0
  · rw [if_pos h0] at h; simp at h
  rw [if_neg h0] at h
  push Not at h0
  cases hf : f w (polarizedDirection pol ci) ni with
  | none => rw [hf] at h; simp at h
  | some γ =>
    rw [hf] at h
    simp only [Option.map_some, Option.bind_some] at h
    generalize momentum pol ci ni = qi at *
    generalize momentum pol cj nj = qj at *
    obtain ⟨h1, h2, h3⟩ := h0
    by_cases ht : 2 * qi / (qi + qj) = 0
    · rw [if_pos ht] at h; simp at h
    rw [if_neg ht] at h
    simp only [Option.some.injEq] at h
    have hqi : qi ≠ 0 := by rintro rfl; simp at ht
    subst h
    refine ⟨γ, rfl, h1, h2, h3, hqi, ?_, ?_, ?_, ?_⟩ <;>
      simp [interfaceMatrix] <;> field_simp

theorem refraction_one {w : ℝ} {ci cj ni nj : ℂ} {pol : Bool} {f : Interface}
    (h : f w (polarizedDirection pol ci) ni = some 1) :
    refraction w ci cj pol ni nj (some f) = refraction w ci cj pol ni nj none := by
  unfold refraction
  simp only [Option.elim_some, Option.elim_none, h, Option.map_some, mul_one]

/-- **C36**, zero width: the reflection and transmission of an interface with an error function,
exponential or sinusoidal profile of width zero are those of an ideal interface. -/
theorem C36_zero_width (fourier : ℝ → ℝ → Option ℝ)
    (hf : fourier = erfFourier ∨ fourier = exponentialFourier ∨ fourier = sinusoidalFourier)
    (w : ℝ) (ci cj ni nj : ℂ) (pol : Bool) :
    refraction w ci cj pol ni nj (some (profileReflectivity (fourier 0))) =
      refraction w ci cj pol ni nj none := by
  apply refraction_one
  unfold profileReflectivity
  have : ∀ s, fourier 0 s = some 1 := by
    intro s
    rcases hf with rfl | rfl | rfl
    · simp [erfFourier]
    · simp [exponentialFourier]
    · have hp := Real.pi_ne_zero
      have e1 : Real.sin (0 - Real.pi / 2) / (0 - Real.pi / 2) = 2 / Real.pi := by
        rw [zero_sub, Real.sin_neg, Real.sin_pi_div_two]; field_simp
      have e2 : Real.sin (0 + Real.pi / 2) / (0 + Real.pi / 2) = 2 / Real.pi := by
        rw [zero_add, Real.sin_pi_div_two]; field_simp
      have n1 : 0 - Real.pi / 2 ≠ 0 := by rw [zero_sub]; simpa using hp
      have n2 : 0 + Real.pi / 2 ≠ 0 := by rw [zero_add]; simpa using hp
      unfold sinusoidalFourier
      simp only [mul_zero, zero_mul, div?, if_neg n1, if_neg n2, e1, e2, Option.bind_eq_bind,
        Option.bind_some, Option.pure_def, Option.some.injEq]
      field_simp; norm_num
  simp [this]

/-- Reflection that is not trivial: from vacuum to a medium of index two. -/
example : ∃ m, refraction 1 1 1 true 1 2 (some (profileReflectivity (erfFourier 0))) = some m ∧
    m 1 0 ≠ 0 := by
  rw [C36_zero_width _ (Or.inl rfl)]
  refine ⟨_, refraction_eq_some.2 ⟨by norm_num, by norm_num, ?_, ?_, rfl⟩, ?_⟩ <;>
    simp [momentum, polarizedDirection, interfaceMatrix] <;> norm_num

/-- The linear profile of width zero, which is the default, divides zero by zero: the reflection
is not a number for every wavelength, direction and medium. -/
theorem C36_zero_width_linear_counterexample (unit w : ℝ) (ci cj ni nj : ℂ) (pol : Bool) :
    refraction w ci cj pol ni nj (some (profileReflectivity (linearFourier unit 0))) = none := by
  unfold refraction profileReflectivity linearFourier
  simp [div?]

/-! ## C37: the factor is the Fourier transform of the derivative of the profile -/

theorem C37_erf {w : ℝ} (hw : 0 < w) (s : ℝ) :
    ∃ x : ℝ, erfFourier w s = some x ∧ (x : ℂ) = derivFourier (erfProfile w) s :=
  ⟨_, rfl, (erf_fourier hw s).symm⟩

theorem C37_exponential {w : ℝ} (hw : 0 < w) (s : ℝ) :
    ∃ x : ℝ, exponentialFourier w s = some x ∧
      (x : ℂ) = derivFourier (exponentialProfile w) s :=
  ⟨_, rfl, (exponential_fourier hw s).symm⟩

/-- The claim for the linear profile, in part: the same units for width and wavelength, and a
momentum transfer that is not zero.  See `C37_linear_units_counterexample` and
`C37_linear_zero_counterexample`. -/
theorem C37_linear_partial {w : ℝ} (hw : 0 < w) {s : ℝ} (hs : s ≠ 0) :
    ∃ x : ℝ, linearFourier 1 w s = some x ∧ (x : ℂ) = derivFourier (linearProfile w) s := by
  have h3 := Real.sqrt_pos.mpr (zero_lt_three (α := ℝ))
  have hx : Real.sqrt 3 * w * s ≠ 0 := mul_ne_zero (by positivity) hs
  refine ⟨_, ?_, (linear_fourier hw hs).symm⟩
  unfold linearFourier
  simp only [div?, if_neg hx, div_one]

/-- The claim for the sinusoidal profile, in part: away from the removable singularities, where
the code divides zero by zero (`C37_sinusoidal_counterexample`). -/
theorem C37_sinusoidal_partial {w : ℝ} (hw : 0 < w) {s : ℝ}
    (hs : |s| ≠ (Real.pi ^ 2 - 8) / (2 * w)) :
    ∃ x : ℝ, sinusoidalFourier w s = some x ∧
      (x : ℂ) = derivFourier (sinusoidalProfile w) s := by
  have hp := Real.pi_pos
  have h8 : 0 < Real.pi ^ 2 - 8 := by nlinarith [Real.pi_gt_three]
  have n1 : sinusoidalA * w * s - Real.pi / 2 ≠ 0 := by
    intro h
    apply hs
    unfold sinusoidalA at h
    have : s = (Real.pi ^ 2 - 8) / (2 * w) := by
      field_simp at h ⊢
      nlinarith
    rw [this, abs_of_pos (by positivity)]
  have n2 : sinusoidalA * w * s + Real.pi / 2 ≠ 0 := by
    intro h
    apply hs
    unfold sinusoidalA at h
    have : s = -((Real.pi ^ 2 - 8) / (2 * w)) := by
      field_simp at h ⊢
      nlinarith
    rw [this, abs_neg, abs_of_pos (by positivity)]
  refine ⟨_, ?_, (sinusoidal_fourier hw n1 n2).symm⟩
  unfold sinusoidalFourier
  rw [← sinusoidalA]
  simp only [div?, if_neg n1, if_neg n2, Option.bind_eq_bind, Option.bind_some, Option.pure_def]

/-- A profile and the Fourier transform of its derivative as the code computes it, wherever that is
defined. -/
theorem fourier_cases {w : ℝ} (hw : 0 < w) (profile : ℝ → ℝ) (fourier : ℝ → Option ℝ) (s : ℝ)
    (h : (profile = erfProfile w ∧ fourier = erfFourier w) ∨
      (profile = exponentialProfile w ∧ fourier = exponentialFourier w) ∨
      (profile = linearProfile w ∧ fourier = linearFourier 1 w ∧ s ≠ 0) ∨
      (profile = sinusoidalProfile w ∧ fourier = sinusoidalFourier w ∧
        |s| ≠ (Real.pi ^ 2 - 8) / (2 * w))) :
    ∃ x : ℝ, fourier s = some x ∧ (x : ℂ) = derivFourier profile s := by
  rcases h with ⟨rfl, rfl⟩ | ⟨rfl, rfl⟩ | ⟨rfl, rfl, hs⟩ | ⟨rfl, rfl, hs⟩
  · exact C37_erf hw s
  · exact C37_exponential hw s
  · exact C37_linear_partial hw hs
  · exact C37_sinusoidal_partial hw hs

/-- **C37**: the factor of the reflection coefficient of light with wavelength `λ`, index `n` and
cosine `c`: the Fourier transform at the momentum transfer of a reflection, twice the real part of
`2 π n c / λ`. -/
theorem C37_reflectivity {w : ℝ} (hw : 0 < w) (profile : ℝ → ℝ) (fourier : ℝ → Option ℝ)
    (wavelength : ℝ) (c n : ℂ) (q : ℝ) (hq : q = 2 * (2 * Real.pi / wavelength) * (n * c).re)
    (h : (profile = erfProfile w ∧ fourier = erfFourier w) ∨
      (profile = exponentialProfile w ∧ fourier = exponentialFourier w) ∨
      (profile = linearProfile w ∧ fourier = linearFourier 1 w ∧ q ≠ 0) ∨
      (profile = sinusoidalProfile w ∧ fourier = sinusoidalFourier w ∧
        |q| ≠ (Real.pi ^ 2 - 8) / (2 * w))) :
    profileReflectivity fourier wavelength c n = some (derivFourier profile q) := by
  obtain ⟨x, hx, hd⟩ := fourier_cases hw profile fourier q h
  have e : (-2 * (-2 * (Real.pi : ℂ) * n * c / wavelength)).re = q := by
    have : -2 * (-2 * (Real.pi : ℂ) * n * c / wavelength)
        = ((2 * (2 * Real.pi / wavelength) : ℝ) : ℂ) * (n * c) := by
      push_cast
      ring
    rw [this, Complex.re_ofReal_mul, hq]
  unfold profileReflectivity
  simp only [e, hx, Option.map_some, hd]

/-- **C37**: the transmission amplitude is the Fourier transform at the change of the wavenumber
across the interface; without such a change there is no effect. -/
theorem C37_transmissivity {w : ℝ} (hw : 0 < w) (profile : ℝ → ℝ) (fourier : ℝ → Option ℝ)
    (wavelength : ℝ) (c c' n n' : ℂ) (q : ℝ)
    (hq : q = 2 * Real.pi / wavelength * ((n * c).re - (n' * c').re))
    (h : (profile = erfProfile w ∧ fourier = erfFourier w) ∨
      (profile = exponentialProfile w ∧ fourier = exponentialFourier w) ∨
      (profile = linearProfile w ∧ fourier = linearFourier 1 w ∧ q ≠ 0) ∨
      (profile = sinusoidalProfile w ∧ fourier = sinusoidalFourier w ∧
        |q| ≠ (Real.pi ^ 2 - 8) / (2 * w))) :
    ∃ x : ℝ, profileTransmissivity fourier wavelength c c' n n' = some x ∧
      (x : ℂ) = derivFourier profile q := by
  obtain ⟨x, hx, hd⟩ := fourier_cases hw profile fourier q h
  have e : (-2 * (Real.pi : ℂ) * n' * c' / wavelength - -2 * Real.pi * n * c / wavelength).re
      = q := by
    have : -2 * (Real.pi : ℂ) * n' * c' / wavelength - -2 * Real.pi * n * c / wavelength
        = ((2 * Real.pi / wavelength : ℝ) : ℂ) * (n * c - n' * c') := by
      push_cast
      ring
    rw [this, Complex.re_ofReal_mul, Complex.sub_re, hq]
  refine ⟨x, ?_, hd⟩
  unfold profileTransmissivity
  simp only [e, hx]

/-- Light of wavelength `π` at normal incidence in glass. -/
example : profileReflectivity (erfFourier 1) Real.pi 1 (3 / 2)
    = some (derivFourier (erfProfile 1) 6) := by
  refine C37_reflectivity one_pos _ _ _ _ _ 6 ?_ (.inl ⟨rfl, rfl⟩)
  have : (3 / 2 * 1 : ℂ).re = 3 / 2 := by norm_num
  rw [this]
  field_simp
  norm_num

/-- Nothing is transferred at grazing incidence; the factor of the linear profile should be one and
is not a number. -/
theorem C37_linear_zero_counterexample {w : ℝ} (hw : 0 < w) (unit : ℝ) :
    linearFourier unit w 0 = none ∧ derivFourier (linearProfile w) 0 = 1 := by
  constructor
  · unfold linearFourier; simp [div?]
  · have h3 := Real.sqrt_pos.mpr (zero_lt_three (α := ℝ))
    unfold derivFourier
    rw [integral_clipped (by positivity) (linearProfile_deriv hw)]
    simp only [Complex.ofReal_zero, mul_zero, zero_mul, Complex.exp_zero, mul_one]
    rw [intervalIntegral.integral_const, ← Complex.ofReal_one, Complex.real_smul,
      ← Complex.ofReal_mul]
    congr 1
    field_simp; ring

/-- For a width in nanometres and a wavelength in ångström the factor of the linear profile is
wrong: `x.value` is a tenth of the number that is divided by. -/
theorem C37_linear_units_counterexample {w : ℝ} (hw : 0 < w) :
    ∃ s x, linearFourier 10 w s = some x ∧ (x : ℂ) ≠ derivFourier (linearProfile w) s := by
  have h3 := Real.sqrt_pos.mpr (zero_lt_three (α := ℝ))
  have hp := Real.pi_pos
  refine ⟨Real.pi / (Real.sqrt 3 * w), Real.sin (Real.pi / 10) / Real.pi, ?_, ?_⟩
  · unfold linearFourier
    have : Real.sqrt 3 * w * (Real.pi / (Real.sqrt 3 * w)) = Real.pi := by field_simp
    simp only [this, div?, if_neg hp.ne']
  · have hs : Real.pi / (Real.sqrt 3 * w) ≠ 0 := by positivity
    have : Real.sqrt 3 * w * (Real.pi / (Real.sqrt 3 * w)) = Real.pi := by field_simp
    rw [derivFourier, linear_fourier hw hs, this, Real.sin_pi, zero_div]
    rw [Ne, Complex.ofReal_inj]
    have := Real.sin_pos_of_pos_of_lt_pi (x := Real.pi / 10) (by positivity) (by linarith)
    positivity

/-- At its removable singularity the factor of the sinusoidal profile is not a number. -/
theorem C37_sinusoidal_counterexample {w : ℝ} (hw : 0 < w) :
    sinusoidalFourier w ((Real.pi ^ 2 - 8) / (2 * w)) = none := by
  have hp := Real.pi_pos
  have h8 : 0 < Real.pi ^ 2 - 8 := by nlinarith [Real.pi_gt_three]
  have e : Real.pi / (Real.pi ^ 2 - 8) * w * ((Real.pi ^ 2 - 8) / (2 * w)) - Real.pi / 2 = 0 := by
    field_simp; ring
  unfold sinusoidalFourier
  simp only [e, div?, if_true, Option.bind_eq_bind, Option.bind_none]

/-- A transition has a factor of at most one. -/
theorem norm_derivFourier_le {p : ℝ → ℝ} (hp : Monotone p) (h0 : derivFourier p 0 = 1) (s : ℝ) :
    ‖derivFourier p s‖ ≤ 1 := by
  have hd : ∀ z, 0 ≤ deriv p z := fun z => hp.deriv_nonneg
  have h1 : ∫ z : ℝ, deriv p z = 1 := by
    unfold derivFourier at h0
    simp only [Complex.ofReal_zero, mul_zero, zero_mul, Complex.exp_zero, mul_one] at h0
    rw [integral_complex_ofReal] at h0
    exact_mod_cast h0
  rw [← h1]
  unfold derivFourier
  refine (norm_integral_le_integral_norm _).trans (le_of_eq ?_)
  congr 1
  ext z
  rw [norm_mul, Complex.norm_real, Real.norm_of_nonneg (hd z)]
  have : -Complex.I * (s : ℂ) * z = ((-s * z : ℝ) : ℂ) * Complex.I := by push_cast; ring
  rw [this, Complex.norm_exp_ofReal_mul_I, mul_one]

theorem sinusoidal_fourier_zero {w : ℝ} (hw : 0 < w) : derivFourier (sinusoidalProfile w) 0 = 1 := by
  have hp := Real.pi_pos
  have h8 : 0 < Real.pi ^ 2 - 8 := by nlinarith [Real.pi_gt_three]
  unfold derivFourier
  rw [sinusoidal_fourier hw (by simpa using hp.ne') (by simpa using hp.ne')]
  simp only [mul_zero, zero_sub, zero_add, Real.sin_neg, Real.sin_pi_div_two]
  norm_cast
  field_simp; norm_num

/-- **C37**: whenever the factor is a number it does not exceed one in magnitude. -/
theorem C37_le_one (fourier : ℝ → ℝ → Option ℝ)
    (hf : fourier = erfFourier ∨ fourier = exponentialFourier ∨ fourier = linearFourier 1 ∨
      fourier = sinusoidalFourier)
    {w : ℝ} (hw : 0 ≤ w) {s x : ℝ} (h : fourier w s = some x) : |x| ≤ 1 := by
  rcases hf with rfl | rfl | rfl | rfl
  · simp only [erfFourier, Option.some.injEq] at h
    rw [← h, Real.abs_exp, Real.exp_le_one_iff]
    nlinarith [sq_nonneg (s * w)]
  · simp only [exponentialFourier, Option.some.injEq] at h
    rw [← h, abs_of_nonneg (by positivity), div_le_one (by positivity)]
    nlinarith [sq_nonneg (s * w)]
  · unfold linearFourier at h
    simp only [div?, div_one] at h
    split at h
    · simp at h
    · simp only [Option.some.injEq] at h
      rename_i hx
      rw [← h, abs_div, div_le_one (abs_pos.mpr hx)]
      exact Real.abs_sin_le_abs
  · rcases hw.eq_or_lt with h0 | hw
    · subst h0
      have := C36_zero_width sinusoidalFourier (Or.inr (Or.inr rfl))
      have hp := Real.pi_ne_zero
      have e1 : Real.sin (0 - Real.pi / 2) / (0 - Real.pi / 2) = 2 / Real.pi := by
        rw [zero_sub, Real.sin_neg, Real.sin_pi_div_two]; field_simp
      have e2 : Real.sin (0 + Real.pi / 2) / (0 + Real.pi / 2) = 2 / Real.pi := by
        rw [zero_add, Real.sin_pi_div_two]; field_simp
      have n1 : 0 - Real.pi / 2 ≠ 0 := by rw [zero_sub]; simpa using hp
      have n2 : 0 + Real.pi / 2 ≠ 0 := by rw [zero_add]; simpa using hp
      unfold sinusoidalFourier at h
      simp only [mul_zero, zero_mul, div?, if_neg n1, if_neg n2, e1, e2, Option.bind_eq_bind,
        Option.bind_some, Option.pure_def, Option.some.injEq] at h
      have : x = 1 := by rw [← h]; field_simp; norm_num
      rw [this, abs_one]
    · by_cases hs : |s| = (Real.pi ^ 2 - 8) / (2 * w)
      · exfalso
        have h1 := C37_sinusoidal_counterexample hw
        have hp := Real.pi_pos
        have h8 : 0 < Real.pi ^ 2 - 8 := by nlinarith [Real.pi_gt_three]
        rcases abs_choice s with h2 | h2
        · rw [h2] at hs; rw [hs, h1] at h; simp at h
        · rw [h2] at hs
          have hs' : s = -((Real.pi ^ 2 - 8) / (2 * w)) := by linarith
          rw [hs'] at h
          have e : Real.pi / (Real.pi ^ 2 - 8) * w * -((Real.pi ^ 2 - 8) / (2 * w)) + Real.pi / 2
              = 0 := by field_simp; ring
          unfold sinusoidalFourier at h
          simp only [e, div?, if_true, Option.bind_eq_bind, Option.bind_none] at h
          split at h <;> simp at h
      · obtain ⟨y, hy, hy'⟩ := C37_sinusoidal_partial hw hs
        rw [h] at hy
        simp only [Option.some.injEq] at hy
        subst hy
        have := norm_derivFourier_le (C36_sinusoidal hw).mono (sinusoidal_fourier_zero hw) s
        rw [← hy', Complex.norm_real, Real.norm_eq_abs] at this
        exact this

/-- A factor that does reduce the reflection. -/
example : ∃ x, exponentialFourier 1 2 = some x ∧ x = 1 / 3 :=
  ⟨_, rfl, by norm_num⟩

/-- **C37**: roughness reduces the reflectivity of an interface between any two media, and leaves
its transmissivity unchanged. -/
theorem C37_reduces (fourier : ℝ → ℝ → Option ℝ)
    (hf : fourier = erfFourier ∨ fourier = exponentialFourier ∨ fourier = linearFourier 1 ∨
      fourier = sinusoidalFourier)
    {width : ℝ} (hw : 0 ≤ width) (wavelength : ℝ) (pol : Bool) (c n : ℂ) (index : ℝ → ℂ) (d d' : ℝ)
    {R T : ℝ}
    (h : multilayerEfficiency wavelength pol c n (.sequence [])
      (some ⟨index, d, some (profileReflectivity (fourier width))⟩) = some (R, T)) :
    ∃ R', multilayerEfficiency wavelength pol c n (.sequence []) (some ⟨index, d', none⟩)
      = some (R', T) ∧ R ≤ R' := by
  obtain ⟨r, t, hrt, h0, rfl, rfl⟩ := efficiency_split h
  obtain ⟨k1, k2, hk1, hk2, hk0, rfl, rfl⟩ := coefficients_split hrt
  simp only [Stack.transfer, transferAll, Option.some.injEq] at hk1 hk2
  subst hk1
  rw [one_mul] at *
  have hv : ∀ x : Option Interface, (((⟨index, 0, x⟩ : Layer).next wavelength ⟨n, c, true⟩).valid)
      = true := by
    intro x
    simp only [Layer.next, propagation_zero]
    norm_num
  have hprop : ∀ dir nn, propagation wavelength dir 0 nn = 1 := fun dir nn => propagation_zero ..
  unfold Layer.transfer at hk2
  simp only [substrateLayer, Option.elim_some, hprop, if_true, Bool.true_and] at hk2
  have hlt : ‖(1 : M2) 0 0‖ < 10 ^ 10 := by norm_num
  rw [decide_eq_true hlt] at hk2
  simp only [if_true, mul_one, Option.map_id'] at hk2
  obtain ⟨γ, hγ, a1, a2, a3, a4, m1, m2, m3, m4⟩ := refraction_rough hk2
  set qi := momentum pol c n with hqi
  set qj := momentum pol (snellsLawScalar c n (index wavelength)) (index wavelength) with hqj
  have hideal : refraction wavelength c (snellsLawScalar c n (index wavelength)) pol n
      (index wavelength) none = some (interfaceMatrix qi qj) :=
    refraction_eq_some.2 ⟨a1, a2, a3, a4, rfl⟩
  have hk0' : interfaceMatrix qi qj 0 0 ≠ 0 := by rw [← m1]; exact hk0
  refine ⟨‖interfaceMatrix qi qj 1 0 / interfaceMatrix qi qj 0 0‖ ^ 2, ?_, ?_⟩
  · unfold multilayerEfficiency multilayerCoefficients multilayerTransfer
    simp only [Stack.transfer, transferAll, mul?_one_left]
    unfold Layer.transfer
    simp only [substrateLayer, Option.elim_some, hprop, if_true, Bool.true_and]
    rw [decide_eq_true hlt]
    simp only [if_true, mul_one, Option.map_id', hideal, Option.bind_some, if_neg hk0']
    rw [← hqi, if_neg a4]
    simp only [Option.some.injEq, Prod.mk.injEq, true_and]
    rw [m1]
    congr 3
    exact (ite_cond_eq_true _ _ (eq_true (hv _))).symm
  · rw [m4, m1, mul_div_assoc, norm_mul]
    have hγ1 : ‖γ‖ ≤ 1 := by
      unfold profileReflectivity at hγ
      obtain ⟨x, hx, rfl⟩ := Option.map_eq_some_iff.1 hγ
      rw [Complex.norm_real, Real.norm_eq_abs]
      exact C37_le_one fourier hf hw hx
    rw [mul_pow]
    have : ‖γ‖ ^ 2 ≤ 1 := pow_le_one₀ (norm_nonneg _) hγ1
    have h2 := sq_nonneg ‖interfaceMatrix qi qj 1 0 / interfaceMatrix qi qj 0 0‖
    nlinarith

/-! ## C54: the width is the root mean square width -/

/-- **C54** for the error function, exponential and linear profiles: the width is the root of the
mean square depth of the transition. -/
theorem C54_width_partial (profile : ℝ → ℝ → ℝ)
    (hf : profile = erfProfile ∨ profile = exponentialProfile ∨ profile = linearProfile)
    {w : ℝ} (hw : 0 < w) : meanSquare (profile w) = w ^ 2 := by
  rcases hf with rfl | rfl | rfl
  · exact erf_moment hw
  · exact exponential_moment hw
  · exact linear_moment hw

/-- The transition of the sinusoidal profile is narrower than its width. -/
theorem C54_sinusoidal_counterexample {w : ℝ} (hw : 0 < w) :
    meanSquare (sinusoidalProfile w) = w ^ 2 / (Real.pi ^ 2 - 8) ∧
      meanSquare (sinusoidalProfile w) < w ^ 2 := by
  have h : meanSquare (sinusoidalProfile w) = w ^ 2 / (Real.pi ^ 2 - 8) := sinusoidal_moment hw
  refine ⟨h, ?_⟩
  have := Real.pi_gt_three
  rw [h, div_lt_iff₀ (by nlinarith)]
  have h1 : 1 < Real.pi ^ 2 - 8 := by nlinarith
  exact lt_mul_of_one_lt_right (by positivity) h1

/-- An interface of three nanometres. -/
example : meanSquare (linearProfile 3) = 9 := by
  rw [C54_width_partial _ (Or.inr (Or.inr rfl)) (by norm_num)]; norm_num

end Optika
