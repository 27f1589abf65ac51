import Verif.Model.Slab
import Verif.Lemmas.Layers
import Verif.Lemmas.Snell
import Mathlib.Analysis.SpecialFunctions.Trigonometric.Series
import Mathlib.Analysis.SpecialFunctions.Trigonometric.DerivHyp
import Mathlib.Tactic.FieldSimp
import Mathlib.Tactic.LinearCombination

/-!
# A homogeneous slab in vacuum

The transfer matrix of `optika.materials.matrices.transfer` composes like a slab of a medium, and
agrees with the matrix that the layers give wherever the direction inside is real.
-/

namespace Optika
open Complex

/-! ### Interfaces without roughness -/

theorem refraction_pair {w : ℝ} {a b : ℂ} {s : Bool} {n m : ℂ} {L R : M2}
    (hL : refraction w a b s n m none = some L) (hR : refraction w b a s m n none = some R) :
    L * R = 1 ∧ R * L = 1 := by
  unfold refraction at hL hR
  simp only [Option.elim_none, Option.bind_some] at hL hR
  set qi := momentum s a n
  set qj := momentum s b m
  by_cases h1 : n = 0 ∨ m = 0 ∨ qi + qj = 0
  · simp [h1] at hL
  have h2 : ¬ (m = 0 ∨ n = 0 ∨ qj + qi = 0) := by
    rw [add_comm]; tauto
  simp only [h1, h2, if_false] at hL hR
  push Not at h1
  have hs : qi + qj ≠ 0 := h1.2.2
  have hs' : qj + qi ≠ 0 := by rwa [add_comm]
  by_cases h3 : 2 * qi / (qi + qj) = 0
  · simp [h3] at hL
  by_cases h4 : 2 * qj / (qj + qi) = 0
  · simp [h4] at hR
  simp only [h3, h4, if_false, Option.some.injEq] at hL hR
  have hi : qi ≠ 0 := by rintro h; simp [h] at h3
  have hj : qj ≠ 0 := by rintro h; simp [h] at h4
  subst hL hR
  constructor <;>
  · ext x y
    fin_cases x <;> fin_cases y <;> simp [Matrix.mul_apply, Fin.sum_univ_two] <;> field_simp <;>
      ring

/-- What a slab is made of. -/
theorem slabTransfer_eq_some {w : ℝ} {k : V3} {s : Bool} {t : ℝ} {n : ℂ} {u : V3} {T : M2} :
    slabTransfer w k s t n u = some T ↔
      ∃ b L R, snellsLaw k 1 n.re false u = some b ∧
        refraction w ((-(k.dot u) : ℝ) : ℂ) ((-(b.dot u) : ℝ) : ℂ) s 1 n none = some L ∧
        refraction w ((-(b.dot u) : ℝ) : ℂ) ((-(k.dot u) : ℝ) : ℂ) s n 1 none = some R ∧
        T = L * propagation w ((-(b.dot u) : ℝ) : ℂ) t n * R := by
  unfold slabTransfer mul?
  simp only [Option.bind_eq_bind, Option.bind_eq_some_iff, Option.pure_def, Option.some.injEq]
  constructor
  · rintro ⟨b, hb, _, ⟨L, hL, _, rfl, rfl⟩, R, hR, rfl⟩
    exact ⟨b, L, R, hb, hL, hR, rfl⟩
  · rintro ⟨b, L, R, hb, hL, hR, rfl⟩
    exact ⟨b, hb, _, ⟨L, hL, _, rfl, rfl⟩, R, hR, rfl⟩

theorem slices_mul {L R : M2} (A B : M2) (h : R * L = 1) :
    L * A * R * (L * B * R) = L * (A * B) * R := by
  calc L * A * R * (L * B * R) = L * A * (R * L) * (B * R) := by simp only [Matrix.mul_assoc]
    _ = L * (A * B) * R := by rw [h, mul_one]; simp only [Matrix.mul_assoc]

/-- **C90 (no slab).**  A slab of zero thickness does nothing. -/
theorem C90_zero {w : ℝ} {k : V3} {s : Bool} {n : ℂ} {u : V3} {T : M2}
    (h : slabTransfer w k s 0 n u = some T) : T = 1 := by
  obtain ⟨b, L, R, -, hL, hR, rfl⟩ := slabTransfer_eq_some.1 h
  rw [propagation_zero, mul_one, (refraction_pair hL hR).1]

/-- **C90 (cutting a slab).**  Whether the matrix exists does not depend on the thickness, and
the matrix of a slab is the product of those of two slices of it in vacuum that touch. -/
theorem C90_add (w : ℝ) (k : V3) (s : Bool) (t t' : ℝ) (n : ℂ) (u : V3) :
    slabTransfer w k s (t + t') n u
      = mul? (slabTransfer w k s t n u) (slabTransfer w k s t' n u) := by
  apply Option.ext
  intro T
  simp only [mul?, Option.bind_eq_bind, Option.bind_eq_some_iff, Option.pure_def,
    Option.some.injEq, slabTransfer_eq_some]
  constructor
  · rintro ⟨b, L, R, hb, hL, hR, rfl⟩
    refine ⟨_, ⟨b, L, R, hb, hL, hR, rfl⟩, _, ⟨b, L, R, hb, hL, hR, rfl⟩, ?_⟩
    rw [← propagation_add]
    exact slices_mul _ _ (refraction_pair hL hR).2
  · rintro ⟨_, ⟨b, L, R, hb, hL, hR, rfl⟩, _, ⟨b', L', R', hb', hL', hR', rfl⟩, rfl⟩
    rw [hb] at hb'; cases hb'
    rw [hL] at hL'; cases hL'
    rw [hR] at hR'; cases hR'
    refine ⟨b, L, R, hb, hL, hR, ?_⟩
    rw [← propagation_add]
    exact slices_mul _ _ (refraction_pair hL hR).2

/-- **C90 (many slices).**  `N` equal slices are one slab of `N` times the thickness. -/
theorem C90_pow {w : ℝ} {k : V3} {s : Bool} {t : ℝ} {n : ℂ} {u : V3} {T : M2}
    (h : slabTransfer w k s t n u = some T) (N : ℕ) :
    slabTransfer w k s (N * t) n u = some (T ^ N) := by
  induction N with
  | zero =>
    obtain ⟨b, L, R, hb, hL, hR, rfl⟩ := slabTransfer_eq_some.1 h
    refine slabTransfer_eq_some.2 ⟨b, L, R, hb, hL, hR, ?_⟩
    rw [Nat.cast_zero, zero_mul, propagation_zero, mul_one, (refraction_pair hL hR).1, pow_zero]
  | succ N ih =>
    rw [show ((N + 1 : ℕ) : ℝ) * t = N * t + t by push_cast; ring, C90_add, ih, h]
    simp [mul?, pow_succ]

/-- **C90 (reciprocity).**  The matrix of a slab has determinant one, and the slab of negative
thickness undoes it. -/
theorem C90_det {w : ℝ} {k : V3} {s : Bool} {t : ℝ} {n : ℂ} {u : V3} {T : M2}
    (h : slabTransfer w k s t n u = some T) :
    T.det = 1 ∧ ∃ T', slabTransfer w k s (-t) n u = some T' ∧ T * T' = 1 := by
  obtain ⟨b, L, R, hb, hL, hR, rfl⟩ := slabTransfer_eq_some.1 h
  constructor
  · rw [Matrix.det_mul, Matrix.det_mul, propagation_det, mul_one, ← Matrix.det_mul,
      (refraction_pair hL hR).1, Matrix.det_one]
  · have e := C90_add w k s t (-t) n u
    rw [add_neg_cancel] at e
    have h' : slabTransfer w k s (-t) n u
        = some (L * propagation w ((-(b.dot u) : ℝ) : ℂ) (-t) n * R) :=
      slabTransfer_eq_some.2 ⟨b, L, R, hb, hL, hR, rfl⟩
    refine ⟨_, h', ?_⟩
    rw [h, h'] at e
    simp only [mul?, Option.bind_eq_bind, Option.bind_some, Option.pure_def] at e
    exact C90_zero e

/-! ### Agreement with the layers -/

/-- The cosine inside the slab found with the vector form of Snell's law. -/
theorem slab_cosine {k u b : V3} {x : ℝ} (hk : k.dot k = 1) (hu : u.dot u = 1)
    (hd : k.dot u < 0) (hx : 0 < x) (hb : snellsLaw k 1 x false u = some b) :
    0 ≤ 1 - (1 - (k.dot u) ^ 2) / x ^ 2 ∧
      -(b.dot u) = Real.sqrt (1 - (1 - (k.dot u) ^ 2) / x ^ 2) := by
  obtain ⟨-, -, h0, rfl⟩ := snellsLaw_eq_some.1 hb
  rw [hk] at h0 ⊢
  have e : (x / 1) ^ 2 + (k.dot u) ^ 2 - 1 = x ^ 2 * (1 - (1 - (k.dot u) ^ 2) / x ^ 2) := by
    field_simp; ring
  rw [e] at h0 ⊢
  have hpos : 0 ≤ 1 - (1 - (k.dot u) ^ 2) / x ^ 2 :=
    (mul_nonneg_iff_of_pos_left (by positivity)).1 h0
  refine ⟨hpos, ?_⟩
  rw [Real.sqrt_mul (by positivity), Real.sqrt_sq hx.le]
  have hc : copysign1 (k.dot u) = -1 := by simp [copysign1, hd]
  rw [hc]
  generalize Real.sqrt _ = q
  have : ∀ c : ℝ, ((1 / x) • (k + c • u)).dot u = 1 / x * (k.dot u + c * u.dot u) := by
    intro c; simp [V3.dot]; ring
  rw [this, hu]
  simp only [Bool.false_eq_true, if_false]
  field_simp
  ring

/-- The matrix that the layers give if the cosine inside is `c`. -/
theorem layer_slab {w : ℝ} {s : Bool} {d c n : ℂ} {t : ℝ} {L R : M2}
    (hn : n ≠ 0) (hc : snellsLawScalar d 1 n = c) (hd : 0 < d.re)
    (hL : refraction w d c s 1 n none = some L) (hR : refraction w c d s n 1 none = some R)
    (ht : ‖propagation w c t n 0 0‖ < 10 ^ 10) :
    (multilayerTransfer w s d 1 (.layer ⟨fun _ => n, t, none⟩) none).2
      = some (L * propagation w c t n * R) := by
  have hback : snellsLawScalar c n 1 = d := by
    rw [← hc, snellsLawScalar_congr (snellsLawScalar_sq d 1 n hn) 1, snellsLawScalar_eq]
    have : 1 - (1 : ℂ) ^ 2 * (1 - d ^ 2) / 1 ^ 2 = d ^ 2 := by ring
    rw [this, csqrt_sq_of_re_pos hd]
  simp [multilayerTransfer, Stack.transfer, Layer.transfer, substrateLayer, hc, hL, ht, hback, hR,
    mul?, propagation_zero]

/-- **C90 (agreement, lossless slab).**  For a real index without total reflection the slab has
the same transfer matrix as the film of one layer in vacuum. -/
theorem C90_layer_partial {w : ℝ} {k u : V3} {s : Bool} {t x : ℝ} {T : M2}
    (hk : k.dot k = 1) (hu : u.dot u = 1) (hd : k.dot u < 0) (hx : 0 < x)
    (h : slabTransfer w k s t x u = some T) :
    (multilayerTransfer w s ((-(k.dot u) : ℝ) : ℂ) 1 (.layer ⟨fun _ => (x : ℂ), t, none⟩) none).2
      = some T := by
  obtain ⟨b, L, R, hb, hL, hR, rfl⟩ := slabTransfer_eq_some.1 h
  rw [Complex.ofReal_re] at hb
  obtain ⟨h0, hc⟩ := slab_cosine hk hu hd hx hb
  have hn : (x : ℂ) ≠ 0 := by exact_mod_cast hx.ne'
  have hcos : snellsLawScalar ((-(k.dot u) : ℝ) : ℂ) 1 x = ((-(b.dot u) : ℝ) : ℂ) := by
    rw [snellsLawScalar_eq, hc, ← csqrt_ofReal h0]
    congr 1; push_cast; ring
  apply layer_slab hn hcos (by simpa using hd) hL hR
  have : ‖propagation w ((-(b.dot u) : ℝ) : ℂ) t x 0 0‖ = 1 := by
    simp only [propagation, Matrix.of_apply, Matrix.cons_val', Matrix.cons_val_zero]
    rw [show (-I * (2 * (Real.pi : ℂ) * t * x * ((-(b.dot u) : ℝ) : ℂ) / w) : ℂ)
        = ((-(2 * Real.pi * t * x * (-(b.dot u)) / w) : ℝ) : ℂ) * I by push_cast; ring]
    exact Complex.norm_exp_ofReal_mul_I _
  rw [this]; norm_num

/-- **C90 (agreement at normal incidence).**  For any index, absorbing or not, as long as the slab
is not opaque. -/
theorem C90_layer_normal_partial {w : ℝ} {k u : V3} {s : Bool} {t : ℝ} {n : ℂ} {T : M2}
    (hk : k.dot k = 1) (hu : u.dot u = 1) (hd : k.dot u = -1) (hn : 0 < n.re)
    (ht : Real.exp (2 * Real.pi * t * n.im / w) < 10 ^ 10)
    (h : slabTransfer w k s t n u = some T) :
    (multilayerTransfer w s 1 1 (.layer ⟨fun _ => n, t, none⟩) none).2 = some T := by
  obtain ⟨b, L, R, hb, hL, hR, rfl⟩ := slabTransfer_eq_some.1 h
  obtain ⟨h0, hc⟩ := slab_cosine hk hu (by rw [hd]; norm_num) hn hb
  have hc1 : -(b.dot u) = 1 := by rw [hc, hd]; norm_num
  have hn0 : n ≠ 0 := by rintro rfl; simp at hn
  rw [hc1, hd] at hL hR
  rw [hc1]
  simp only [neg_neg, Complex.ofReal_one] at hL hR ⊢
  have hcos : snellsLawScalar 1 1 n = 1 := by
    rw [snellsLawScalar_eq]
    have : (1 - (1 : ℂ) ^ 2 * (1 - 1 ^ 2) / n ^ 2) = 1 ^ 2 := by ring
    rw [this]; exact csqrt_sq_of_re_pos (by simp)
  apply layer_slab hn0 hcos (by simp) hL hR
  simp only [propagation, Matrix.of_apply, Matrix.cons_val', Matrix.cons_val_zero]
  rw [Complex.norm_exp]
  have : (-I * (2 * (Real.pi : ℂ) * t * n * 1 / w)).re = 2 * Real.pi * t * n.im / w := by
    rw [show (-I * (2 * (Real.pi : ℂ) * t * n * 1 / w) : ℂ)
      = ((2 * Real.pi * t / w : ℝ) : ℂ) * (-I * n) by push_cast; ring, Complex.re_ofReal_mul]
    simp; ring
  rw [this]; exact ht

theorem refraction_isSome {w : ℝ} {a b n m : ℂ} {s : Bool} (hn : n ≠ 0) (hm : m ≠ 0)
    (hq : momentum s a n ≠ 0) (hs : momentum s a n + momentum s b m ≠ 0) :
    ∃ M, refraction w a b s n m none = some M := by
  unfold refraction
  have h1 : ¬ (n = 0 ∨ m = 0 ∨ momentum s a n + momentum s b m = 0) := by tauto
  have h2 : 2 * momentum s a n / (momentum s a n + momentum s b m) ≠ 0 :=
    div_ne_zero (mul_ne_zero two_ne_zero hq) hs
  simp only [h1, h2, if_false, Option.elim_none, Option.bind_some]
  exact ⟨_, rfl⟩

/-- **C90 (what fails: total reflection).**  Beyond the critical angle the slab has no matrix,
whatever its thickness, although a thin film transmits there, as the layers say. -/
theorem C90_total_reflection_counterexample {k u : V3} {x : ℝ} (hk : k.dot k = 1)
    (hd : k.dot u < 0) (hx : 0 < x) (hc : x ^ 2 < 1 - (k.dot u) ^ 2) (w t : ℝ) (s : Bool) :
    slabTransfer w k s t x u = none ∧
      ((multilayerTransfer w s ((-(k.dot u) : ℝ) : ℂ) 1 (.layer ⟨fun _ => (x : ℂ), t, none⟩)
        none).2).isSome := by
  constructor
  · unfold slabTransfer
    have : snellsLaw k 1 (x : ℂ).re false u = none := by
      rw [Option.eq_none_iff_forall_ne_some]
      intro b hb
      obtain ⟨-, -, h0, -⟩ := snellsLaw_eq_some.1 hb
      rw [hk, Complex.ofReal_re] at h0
      simp only [div_one] at h0
      linarith
    rw [this]; rfl
  · set d : ℝ := -(k.dot u) with hdd
    have hdpos : 0 < d := by rw [hdd]; linarith
    have hc' : x ^ 2 < 1 - d ^ 2 := by rw [hdd, neg_sq]; exact hc
    have hxc : (x : ℂ) ≠ 0 := by exact_mod_cast hx.ne'
    set c := snellsLawScalar (d : ℂ) 1 x with hcc
    obtain ⟨y, hy, hcy⟩ : ∃ y : ℝ, 0 < y ∧ c = y * I := by
      have hpos : 0 < (1 - d ^ 2) / x ^ 2 - 1 := by
        rw [sub_pos, lt_div_iff₀ (by positivity), one_mul]; exact hc'
      refine ⟨Real.sqrt ((1 - d ^ 2) / x ^ 2 - 1), Real.sqrt_pos.2 hpos, ?_⟩
      rw [hcc, snellsLawScalar_eq]
      apply csqrt_unique
      · rw [mul_pow, I_sq, ← ofReal_pow, Real.sq_sqrt hpos.le]; push_cast; ring
      · simp
      · intro _; simp [Real.sqrt_nonneg]
    have hback : snellsLawScalar c x 1 = d := by
      rw [hcc, snellsLawScalar_congr (snellsLawScalar_sq (d : ℂ) 1 x hxc) 1, snellsLawScalar_eq]
      have : 1 - (1 : ℂ) ^ 2 * (1 - (d : ℂ) ^ 2) / 1 ^ 2 = (d : ℂ) ^ 2 := by ring
      rw [this, csqrt_sq_of_re_pos (by simpa using hdpos)]
    have hm1 : momentum s (d : ℂ) 1 = d := by
      cases s <;> simp [momentum, polarizedDirection]
    obtain ⟨z, hz, hm2⟩ : ∃ z : ℝ, z ≠ 0 ∧ momentum s c x = z * I := by
      cases s
      · refine ⟨-(y / x), by simp [hy.ne', hx.ne'], ?_⟩
        simp [momentum, polarizedDirection, hcy]; ring
      · refine ⟨y * x, by positivity, ?_⟩
        simp [momentum, polarizedDirection, hcy]; ring
    have hne : (d : ℂ) + z * I ≠ 0 := by
      intro h
      have := congrArg Complex.re h
      simp at this
      exact hdpos.ne' this
    have hd0 : (d : ℂ) ≠ 0 := by exact_mod_cast hdpos.ne'
    have hz0 : (z : ℂ) * I ≠ 0 := mul_ne_zero (by exact_mod_cast hz) I_ne_zero
    obtain ⟨L, hL⟩ := refraction_isSome (w := w) (a := d) (b := c) (s := s) one_ne_zero hxc
      (by rw [hm1]; exact hd0) (by rw [hm1, hm2]; exact hne)
    obtain ⟨R, hR⟩ := refraction_isSome (w := w) (a := c) (b := d) (s := s) hxc one_ne_zero
      (by rw [hm2]; exact hz0) (by rw [hm1, hm2, add_comm]; exact hne)
    simp only [multilayerTransfer, Stack.transfer, Layer.transfer, substrateLayer, ← hcc, hL,
      hback, hR, Option.elim_none, mul?, if_true, Bool.true_and]
    by_cases hv : ‖propagation w c t x 0 0‖ < 10 ^ 10 <;>
      simp [hv, propagation_zero]

/-! ### Absorbing slabs -/

theorem slab_trace {w : ℝ} {L R : M2} {c n : ℂ} {t : ℝ} (h : R * L = 1) :
    (L * propagation w c t n * R).trace = 2 * Complex.cos (2 * Real.pi * t * n * c / w) := by
  rw [Matrix.trace_mul_comm, ← Matrix.mul_assoc, h, one_mul]
  simp only [propagation, Matrix.trace_fin_two_of, Complex.cos]
  rw [show -I * (2 * (Real.pi : ℂ) * t * n * c / w) = -(2 * Real.pi * t * n * c / w) * I by ring,
    show I * (2 * (Real.pi : ℂ) * t * n * c / w) = (2 * Real.pi * t * n * c / w) * I by ring]
  ring

theorem normSq_ccos (x y : ℝ) :
    Complex.normSq (Complex.cos (x + y * I))
      = (Real.cos x * Real.cosh y) ^ 2 + (Real.sin x * Real.sinh y) ^ 2 := by
  rw [Complex.cos_add_mul_I, ← ofReal_cos, ← ofReal_sin, ← ofReal_cosh, ← ofReal_sinh,
    show ((Real.cos x : ℝ) : ℂ) * (Real.cosh y : ℝ) - (Real.sin x : ℝ) * (Real.sinh y : ℝ) * I
      = ((Real.cos x * Real.cosh y : ℝ) : ℂ) + ((-(Real.sin x * Real.sinh y) : ℝ) : ℂ) * I by
      push_cast; ring, Complex.normSq_add_mul_I]
  ring

/-- **C90 (what fails: absorbing slabs at oblique incidence).**  The index `1 + i`: the slab, which
refracts with the real part of the index, differs from the layer of the same index and
thickness. -/
theorem C90_absorbing_counterexample :
    ∃ (k u : V3) (T T' : M2), k.dot k = 1 ∧ u.dot u = 1 ∧ k.dot u < 0 ∧
      slabTransfer (2 * Real.pi) k true 1 (1 + I) u = some T ∧
      (multilayerTransfer (2 * Real.pi) true ((-(k.dot u) : ℝ) : ℂ) 1
        (.layer ⟨fun _ => 1 + I, 1, none⟩) none).2 = some T' ∧ T ≠ T' := by
  set d : ℝ := Real.sqrt 0.0775 with hd
  have hd2 : d ^ 2 = 0.0775 := Real.sq_sqrt (by norm_num)
  have hdpos : 0 < d := Real.sqrt_pos.2 (by norm_num)
  have hq2 : Real.sqrt 0.9225 ^ 2 = 0.9225 := Real.sq_sqrt (by norm_num)
  have hpi : (2 * Real.pi : ℝ) ≠ 0 := by positivity
  set k : V3 := ⟨Real.sqrt 0.9225, 0, d⟩ with hk
  set u : V3 := ⟨0, 0, -1⟩ with hu
  have hkk : k.dot k = 1 := by simp only [hk, V3.dot]; nlinarith
  have hku : k.dot u = -d := by simp [hk, hu, V3.dot]
  have hn0 : (1 + I : ℂ) ≠ 0 := by
    intro h; have := congrArg Complex.re h; simp at this
  have hd0 : (d : ℂ) ≠ 0 := by exact_mod_cast hdpos.ne'
  -- the direction inside the slab
  have hb : snellsLaw k 1 (1 + I : ℂ).re false u = some k := by
    rw [snellsLaw_eq_some, hkk, hku]
    have hre : (1 + I : ℂ).re = 1 := by simp
    rw [hre]
    refine ⟨one_ne_zero, one_ne_zero, by norm_num; positivity, ?_⟩
    have e : ((1 : ℝ) / 1) ^ 2 + (-d) ^ 2 - 1 = d ^ 2 := by ring
    have hs : copysign1 (-d) = -1 := by simp [copysign1, hdpos]
    rw [e, Real.sqrt_sq hdpos.le, hs]
    apply V3.ext <;> simp
  have hm1 : momentum true (d : ℂ) 1 = d := by simp [momentum, polarizedDirection]
  have hm2 (c : ℂ) : momentum true c (1 + I) = c * (1 + I) := by
    simp [momentum, polarizedDirection]
  have hsum : (d : ℂ) + d * (1 + I) ≠ 0 := by
    intro h; have := congrArg Complex.im h; simp at this; exact hdpos.ne' this
  obtain ⟨L, hL⟩ := refraction_isSome (w := 2 * Real.pi) (a := d) (b := d) (s := true)
    one_ne_zero hn0 (by rw [hm1]; exact hd0) (by rw [hm1, hm2]; exact hsum)
  obtain ⟨R, hR⟩ := refraction_isSome (w := 2 * Real.pi) (a := d) (b := d) (s := true)
    hn0 one_ne_zero (by rw [hm2]; exact mul_ne_zero hd0 hn0)
    (by rw [hm1, hm2, add_comm]; exact hsum)
  -- the direction inside the layer
  set c : ℂ := 41 / 40 + 9 / 40 * I with hc
  have hcos : snellsLawScalar (d : ℂ) 1 (1 + I) = c := by
    rw [snellsLawScalar_eq]
    have hdc : (d : ℂ) ^ 2 = 0.0775 := by rw [← ofReal_pow, hd2]; norm_num
    have h2 : (1 + I : ℂ) ^ 2 = 2 * I := by ring_nf; rw [I_sq]; ring
    have e : (1 - (1 : ℂ) ^ 2 * (1 - (d : ℂ) ^ 2) / (1 + I) ^ 2) = c ^ 2 := by
      rw [hdc, h2, hc]
      have hI := I_sq
      field_simp
      ring_nf
      simp only [I_sq, show I ^ 3 = -I by rw [pow_succ, I_sq]; ring]
      ring
    rw [e]
    apply csqrt_sq_of_re_pos
    rw [hc]; norm_num
  have hsum' : (d : ℂ) + c * (1 + I) ≠ 0 := by
    intro h; have := congrArg Complex.im h
    rw [hc] at this; norm_num at this
  have hc0 : c ≠ 0 := by
    intro h; have := congrArg Complex.re h; rw [hc] at this; norm_num at this
  obtain ⟨L', hL'⟩ := refraction_isSome (w := 2 * Real.pi) (a := d) (b := c) (s := true)
    one_ne_zero hn0 (by rw [hm1]; exact hd0) (by rw [hm1, hm2]; exact hsum')
  obtain ⟨R', hR'⟩ := refraction_isSome (w := 2 * Real.pi) (a := c) (b := d) (s := true)
    hn0 one_ne_zero (by rw [hm2]; exact mul_ne_zero hc0 hn0)
    (by rw [hm1, hm2, add_comm]; exact hsum')
  have hpi' : (2 * Real.pi : ℂ) ≠ 0 := by exact_mod_cast hpi
  have hprod : (1 + I) * c = ((4 / 5 : ℝ) : ℂ) + ((5 / 4 : ℝ) : ℂ) * I := by
    rw [hc]; ring_nf; rw [I_sq]; push_cast; ring
  have ht : ‖propagation (2 * Real.pi) c 1 (1 + I) 0 0‖ < 10 ^ 10 := by
    simp only [propagation, Matrix.of_apply, Matrix.cons_val', Matrix.cons_val_zero]
    have e : 2 * (Real.pi : ℂ) * (1 : ℝ) * (1 + I) * c / ((2 * Real.pi : ℝ) : ℂ)
        = ((4 / 5 : ℝ) : ℂ) + ((5 / 4 : ℝ) : ℂ) * I := by
      rw [← hprod]; push_cast; field_simp
    rw [e, Complex.norm_exp]
    have : (-I * (((4 / 5 : ℝ) : ℂ) + ((5 / 4 : ℝ) : ℂ) * I)).re = 5 / 4 := by simp
    rw [this]
    have h3 := Real.add_one_le_exp (-(5 / 8) : ℝ)
    rw [Real.exp_neg, le_inv_comm₀ (by norm_num) (Real.exp_pos _)] at h3
    calc Real.exp (5 / 4) = Real.exp (5 / 8) ^ 2 := by rw [← Real.exp_nat_mul]; norm_num
      _ ≤ ((-(5 / 8) + 1 : ℝ)⁻¹) ^ 2 := by gcongr
      _ < 10 ^ 10 := by norm_num
  have hlayer := layer_slab (t := 1) hn0 hcos (by simpa using hdpos) hL' hR' ht
  refine ⟨k, u, _, L' * propagation (2 * Real.pi) c 1 (1 + I) * R', hkk, by simp [hu, V3.dot], by rw [hku]; linarith,
    slabTransfer_eq_some.2 ⟨k, L, R, hb, ?_, ?_, rfl⟩, ?_, ?_⟩
  · rw [hku]; simpa using hL
  · rw [hku]; simpa using hR
  · rw [hku, neg_neg]; exact hlayer
  · intro h
    have h1 := congrArg Matrix.trace h
    rw [slab_trace (refraction_pair hL hR).2, slab_trace (refraction_pair hL' hR').2, hku,
      neg_neg] at h1
    have e1 : 2 * (Real.pi : ℂ) * (1 : ℝ) * (1 + I) * (d : ℂ) / ((2 * Real.pi : ℝ) : ℂ)
        = (d : ℂ) + (d : ℂ) * I := by push_cast; field_simp
    have e2 : 2 * (Real.pi : ℂ) * (1 : ℝ) * (1 + I) * c / ((2 * Real.pi : ℝ) : ℂ)
        = ((4 / 5 : ℝ) : ℂ) + ((5 / 4 : ℝ) : ℂ) * I := by
      rw [← hprod]; push_cast; field_simp
    rw [e1, e2] at h1
    have h2 := congrArg Complex.normSq (mul_left_cancel₀ two_ne_zero h1)
    rw [normSq_ccos, normSq_ccos] at h2
    have hs := Real.sin_sq_add_cos_sq d
    have hs' := Real.sin_sq_add_cos_sq (4 / 5 : ℝ)
    have hh := Real.cosh_sq d
    have hh' := Real.cosh_sq (5 / 4 : ℝ)
    have hsinh : (5 / 4 : ℝ) ≤ Real.sinh (5 / 4) := Real.self_le_sinh_iff.2 (by norm_num)
    have hcosh : Real.cosh d ^ 2 ≤ Real.exp 0.0775 := by
      have := Real.cosh_le_exp_half_sq d
      calc Real.cosh d ^ 2 ≤ Real.exp (d ^ 2 / 2) ^ 2 := by
            have := (Real.cosh_pos d).le
            gcongr
        _ = Real.exp 0.0775 := by rw [← Real.exp_nat_mul, hd2]; norm_num
    have hexp : Real.exp 0.0775 < 1.5 := by
      have h3 := Real.add_one_le_exp (-0.0775 : ℝ)
      rw [Real.exp_neg] at h3
      have h4 := Real.exp_pos (0.0775 : ℝ)
      rw [le_inv_comm₀ (by norm_num) h4] at h3
      exact h3.trans_lt (by norm_num)
    nlinarith [sq_nonneg (Real.cos d), sq_nonneg (Real.sin d), sq_nonneg (Real.cos (4 / 5)),
      mul_nonneg (sq_nonneg (Real.sin d)) (sq_nonneg (Real.sinh d)), sq_nonneg (Real.cosh d)]

/-- A slab of glass at sixty degrees: the hypotheses of `C90_layer_partial` hold. -/
example : ∃ T, slabTransfer 1 ⟨3 / 5, 0, 4 / 5⟩ true 1 ((1 : ℝ) : ℂ) ⟨0, 0, -1⟩ = some T ∧
    (⟨3 / 5, 0, 4 / 5⟩ : V3).dot ⟨0, 0, -1⟩ < 0 := by
  have hb : snellsLaw ⟨3 / 5, 0, 4 / 5⟩ 1 ((1 : ℝ) : ℂ).re false ⟨0, 0, -1⟩
      = some ⟨3 / 5, 0, 4 / 5⟩ := by
    rw [snellsLaw_eq_some, Complex.ofReal_re]
    have e : (1 / 1 : ℝ) ^ 2 + ((⟨3 / 5, 0, 4 / 5⟩ : V3).dot ⟨0, 0, -1⟩) ^ 2
        - (⟨3 / 5, 0, 4 / 5⟩ : V3).dot ⟨3 / 5, 0, 4 / 5⟩ = (4 / 5) ^ 2 := by
      norm_num [V3.dot]
    rw [e, Real.sqrt_sq (by norm_num)]
    refine ⟨one_ne_zero, one_ne_zero, by norm_num, ?_⟩
    apply V3.ext <;> norm_num [V3.dot, copysign1]
  have hm : momentum true (4 / 5 : ℂ) 1 = 4 / 5 := by simp [momentum, polarizedDirection]
  obtain ⟨L, hL⟩ := refraction_isSome (w := 1) (a := 4 / 5) (b := 4 / 5) (s := true)
    (n := 1) (m := 1) one_ne_zero one_ne_zero (by rw [hm]; norm_num) (by rw [hm]; norm_num)
  refine ⟨_, slabTransfer_eq_some.2 ⟨_, L, L, hb, ?_, ?_, rfl⟩, by norm_num [V3.dot]⟩ <;>
  · rw [← hL]; congr 1 <;> norm_num [V3.dot]

/-- Total reflection by an index below one, as in the extreme ultraviolet. -/
example : ∃ (k u : V3) (x : ℝ), k.dot k = 1 ∧ k.dot u < 0 ∧ 0 < x ∧ x ^ 2 < 1 - (k.dot u) ^ 2 :=
  ⟨⟨4 / 5, 0, 3 / 5⟩, ⟨0, 0, -1⟩, 1 / 2, by norm_num [V3.dot], by norm_num [V3.dot],
    by norm_num, by norm_num [V3.dot]⟩

end Optika
