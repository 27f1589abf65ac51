import Verif.Props.Layers

/-! Energy flux through a stack of layers: helper lemmas for C32–C35. -/

namespace Optika
open Complex Matrix

/-- The energy flux of forward and backward waves `a`, `b` in a medium of momentum `q`. -/
noncomputable def fluxOf (q a b : ℂ) : ℝ := (q * (a - b) * (starRingEnd ℂ) (a + b)).re

theorem fluxOf_eq (q a b : ℂ) :
    fluxOf q a b = q.re * (‖a‖ ^ 2 - ‖b‖ ^ 2) - 2 * q.im * (a * (starRingEnd ℂ) b).im := by
  rw [← Complex.normSq_eq_norm_sq, ← Complex.normSq_eq_norm_sq, normSq_apply, normSq_apply]
  simp only [fluxOf, mul_re, mul_im, sub_re, sub_im, map_add, add_re, add_im, conj_re, conj_im]
  ring

/-- The first component of a matrix applied to a pair. -/
noncomputable def app1 (m : M2) (a b : ℂ) : ℂ := m 0 0 * a + m 0 1 * b
/-- The second component of a matrix applied to a pair. -/
noncomputable def app2 (m : M2) (a b : ℂ) : ℂ := m 1 0 * a + m 1 1 * b

theorem app1_mul (m k : M2) (a b : ℂ) : app1 (m * k) a b = app1 m (app1 k a b) (app2 k a b) := by
  simp only [app1, app2, Matrix.mul_apply, Fin.sum_univ_two]; ring
theorem app2_mul (m k : M2) (a b : ℂ) : app2 (m * k) a b = app2 m (app1 k a b) (app2 k a b) := by
  simp only [app1, app2, Matrix.mul_apply, Fin.sum_univ_two]; ring
theorem app1_one (a b : ℂ) : app1 1 a b = a := by simp [app1]
theorem app2_one (a b : ℂ) : app2 1 a b = b := by simp [app2]

theorem fluxOf_interface {qi qj : ℂ} (hi : qi ≠ 0) (a b : ℂ) :
    fluxOf qi (app1 (interfaceMatrix qi qj) a b) (app2 (interfaceMatrix qi qj) a b) =
      fluxOf qj a b := by
  have h1 : app1 (interfaceMatrix qi qj) a b + app2 (interfaceMatrix qi qj) a b = a + b := by
    simp [app1, app2, interfaceMatrix]; field_simp; ring
  have h2 : qi * (app1 (interfaceMatrix qi qj) a b - app2 (interfaceMatrix qi qj) a b) =
      qj * (a - b) := by
    simp [app1, app2, interfaceMatrix]; field_simp; ring
  unfold fluxOf
  rw [h1, h2]

theorem app1_propagation (w : ℝ) (c : ℂ) (h : ℝ) (n a b : ℂ) :
    app1 (propagation w c h n) a b = exp (-I * (2 * Real.pi * h * n * c / w)) * a := by
  simp [app1, propagation]
theorem app2_propagation (w : ℝ) (c : ℂ) (h : ℝ) (n a b : ℂ) :
    app2 (propagation w c h n) a b = exp (I * (2 * Real.pi * h * n * c / w)) * b := by
  simp [app2, propagation]

/-- The difference of flux at the two sides of a slab. -/
theorem fluxOf_slab (q : ℂ) (x y : ℝ) (a b : ℂ) (hq : 0 ≤ q.re) (hy : 0 ≤ y)
    (hbal : |q.im| * |x| ≤ q.re * y) :
    fluxOf q a b ≤ fluxOf q (exp (-I * (x + y * I)) * a) (exp (I * (x + y * I)) * b) := by
  have e1 : ‖exp (-I * (x + y * I))‖ = Real.exp y := by
    rw [Complex.norm_exp]; congr 1; simp
  have e2 : ‖exp (I * (x + y * I))‖ = Real.exp (-y) := by
    rw [Complex.norm_exp]; congr 1; simp
  have e3 : exp (-I * (x + y * I)) * a * (starRingEnd ℂ) (exp (I * (x + y * I)) * b) =
      exp (((-2 * x : ℝ) : ℂ) * I) * (a * (starRingEnd ℂ) b) := by
    rw [map_mul, ← Complex.exp_conj]
    have : exp (-I * (x + y * I)) * exp ((starRingEnd ℂ) (I * (x + y * I))) =
        exp (((-2 * x : ℝ) : ℂ) * I) := by
      rw [← Complex.exp_add]
      congr 1
      simp only [map_mul, map_add, conj_I, conj_ofReal]
      push_cast
      ring_nf
    rw [← this]; ring
  have hz : |(exp (((-2 * x : ℝ) : ℂ) * I) * (a * (starRingEnd ℂ) b)).im -
      (a * (starRingEnd ℂ) b).im| ≤ 2 * |x| * (‖a‖ * ‖b‖) := by
    rw [← sub_im]
    refine (Complex.abs_im_le_norm _).trans ?_
    have : exp (((-2 * x : ℝ) : ℂ) * I) * (a * (starRingEnd ℂ) b) - a * (starRingEnd ℂ) b =
        (exp (((-2 * x : ℝ) : ℂ) * I) - 1) * (a * (starRingEnd ℂ) b) := by ring
    rw [this, norm_mul, norm_mul, Complex.norm_conj]
    apply mul_le_mul_of_nonneg_right _ (by positivity)
    have h4 : ‖exp (((-2 * x : ℝ) : ℂ) * I) - 1‖ = 2 * |Real.sin x| := by
      have : exp (((-2 * x : ℝ) : ℂ) * I) - 1 =
          exp (((-x : ℝ) : ℂ) * I) * (-2 * I * Complex.sin x) := by
        rw [Complex.sin]
        have h5 : exp (((-x : ℝ) : ℂ) * I) * exp (((x : ℝ) : ℂ) * I) = 1 := by
          rw [← Complex.exp_add]; push_cast; ring_nf; simp
        have h6 : exp (((-2 * x : ℝ) : ℂ) * I) =
            exp (((-x : ℝ) : ℂ) * I) * exp (((-x : ℝ) : ℂ) * I) := by
          rw [← Complex.exp_add]; push_cast; ring_nf
        rw [h6]
        have h7 : exp (-(x : ℂ) * I) = exp (((-x : ℝ) : ℂ) * I) := by push_cast; rfl
        rw [h7]
        linear_combination (-I * I) * h5 -
          (1 - exp (((-x : ℝ) : ℂ) * I) * exp (((-x : ℝ) : ℂ) * I)) * I_sq
      rw [this, norm_mul, Complex.norm_exp_ofReal_mul_I, one_mul, norm_mul, norm_mul,
        ← Complex.ofReal_sin, Complex.norm_real, Real.norm_eq_abs]
      simp
    rw [h4]
    have := Real.abs_sin_le_abs (x := x)
    linarith
  rw [fluxOf_eq, fluxOf_eq, e3, norm_mul, norm_mul, e1, e2]
  generalize (exp (((-2 * x : ℝ) : ℂ) * I) * (a * (starRingEnd ℂ) b)).im = Z' at *
  generalize (a * (starRingEnd ℂ) b).im = Z at *
  have hA := norm_nonneg a
  have hB := norm_nonneg b
  generalize ‖a‖ = A at *
  generalize ‖b‖ = B at *
  -- the gain of the moduli
  have hs : y ≤ Real.sinh y := Real.self_le_sinh_iff.2 hy
  have hse : Real.exp y - Real.exp (-y) = 2 * Real.sinh y := by rw [Real.sinh_eq]; ring
  have hee : Real.exp y * Real.exp (-y) = 1 := by rw [← Real.exp_add]; simp
  have hE := Real.exp_pos y
  have hE' := Real.exp_pos (-y)
  have hgain : 4 * y * (A * B) ≤
      (Real.exp y * A) ^ 2 - (Real.exp (-y) * B) ^ 2 - (A ^ 2 - B ^ 2) := by
    have h1 : (Real.exp y * A) ^ 2 - (Real.exp (-y) * B) ^ 2 - (A ^ 2 - B ^ 2) =
        (Real.exp y - Real.exp (-y)) * (Real.exp y * A ^ 2 + Real.exp (-y) * B ^ 2) := by
      linear_combination (A ^ 2 - B ^ 2) * hee
    have h2 : 2 * (A * B) ≤ Real.exp y * A ^ 2 + Real.exp (-y) * B ^ 2 := by
      have h3 : 0 ≤ Real.exp (-y) * (Real.exp y * A - B) ^ 2 := by positivity
      have h4 : Real.exp (-y) * (Real.exp y * A - B) ^ 2 =
          Real.exp y * A ^ 2 + Real.exp (-y) * B ^ 2 - 2 * (A * B) := by
        linear_combination (Real.exp y * A ^ 2 - 2 * A * B) * hee
      linarith
    rw [h1, hse]
    have h5 : 0 ≤ A * B := mul_nonneg hA hB
    calc 4 * y * (A * B) = 2 * y * (2 * (A * B)) := by ring
      _ ≤ 2 * Real.sinh y * (2 * (A * B)) := by
        apply mul_le_mul_of_nonneg_right _ (by positivity); linarith
      _ ≤ _ := by apply mul_le_mul_of_nonneg_left h2; linarith
  have hloss : 2 * q.im * (Z' - Z) ≤ 4 * (|q.im| * |x|) * (A * B) := by
    calc 2 * q.im * (Z' - Z) ≤ |2 * q.im * (Z' - Z)| := le_abs_self _
      _ = 2 * |q.im| * |Z' - Z| := by rw [abs_mul, abs_mul, abs_two]
      _ ≤ 2 * |q.im| * (2 * |x| * (A * B)) :=
        mul_le_mul_of_nonneg_left hz (by positivity)
      _ = _ := by ring
  have h6 : 4 * (|q.im| * |x|) * (A * B) ≤ 4 * (q.re * y) * (A * B) := by
    apply mul_le_mul_of_nonneg_right _ (mul_nonneg hA hB); linarith
  have h7 := mul_le_mul_of_nonneg_left hgain hq
  nlinarith

/-- Without absorption and without a phase, or without oscillation, the flux is the same at both
sides. -/
theorem fluxOf_slab_eq (q : ℂ) (x y : ℝ) (a b : ℂ)
    (h : (q.im = 0 ∧ y = 0) ∨ (q.re = 0 ∧ x = 0)) :
    fluxOf q a b = fluxOf q (exp (-I * (x + y * I)) * a) (exp (I * (x + y * I)) * b) := by
  have e1 : ‖exp (-I * (x + y * I))‖ = Real.exp y := by
    rw [Complex.norm_exp]; congr 1; simp
  have e2 : ‖exp (I * (x + y * I))‖ = Real.exp (-y) := by
    rw [Complex.norm_exp]; congr 1; simp
  have e3 : exp (-I * (x + y * I)) * a * (starRingEnd ℂ) (exp (I * (x + y * I)) * b) =
      exp (((-2 * x : ℝ) : ℂ) * I) * (a * (starRingEnd ℂ) b) := by
    rw [map_mul, ← Complex.exp_conj]
    have : exp (-I * (x + y * I)) * exp ((starRingEnd ℂ) (I * (x + y * I))) =
        exp (((-2 * x : ℝ) : ℂ) * I) := by
      rw [← Complex.exp_add]
      congr 1
      simp only [map_mul, map_add, conj_I, conj_ofReal]
      push_cast
      ring_nf
    rw [← this]; ring
  rw [fluxOf_eq, fluxOf_eq, e3, norm_mul, norm_mul, e1, e2]
  rcases h with ⟨h1, h2⟩ | ⟨h1, h2⟩
  · rw [h1, h2]; simp
  · rw [h1, h2]; simp

/-- Phase of a slab as real and imaginary part. -/
theorem phase_eq (w h : ℝ) (n c : ℂ) : 2 * Real.pi * h * n * c / w =
    ((2 * Real.pi * h / w * (n * c).re : ℝ) : ℂ) +
      ((2 * Real.pi * h / w * (n * c).im : ℝ) : ℂ) * I := by
  conv_lhs => rw [show 2 * Real.pi * h * n * c / w = ((2 * Real.pi * h / w : ℝ) : ℂ) * (n * c) by
    push_cast; ring]
  conv_lhs => rw [← Complex.re_add_im (n * c)]
  push_cast
  ring

theorem fluxOf_propagation {σ : ℝ} {n c : ℂ} (g : Good σ n c) (pol : Bool) {w h : ℝ} (hw : 0 < w)
    (hh : 0 ≤ h) (a b : ℂ) : fluxOf (momentum pol c n) a b ≤
      fluxOf (momentum pol c n) (app1 (propagation w c h n) a b)
        (app2 (propagation w c h n) a b) := by
  rw [app1_propagation, app2_propagation, phase_eq]
  have hk : 0 ≤ 2 * Real.pi * h / w := by have := Real.pi_pos; positivity
  apply fluxOf_slab _ _ _ _ _ (momentum_re_nonneg g pol) (mul_nonneg hk g.wim)
  rw [abs_mul, abs_of_nonneg hk]
  have := momentum_balance g pol
  nlinarith

theorem fluxOf_propagation_eq {σ : ℝ} {n c : ℂ} (g : Good σ n c) (hn : n.im = 0) (pol : Bool)
    (w h : ℝ) (a b : ℂ) : fluxOf (momentum pol c n) a b =
      fluxOf (momentum pol c n) (app1 (propagation w c h n) a b)
        (app2 (propagation w c h n) a b) := by
  rw [app1_propagation, app2_propagation, phase_eq]
  apply fluxOf_slab_eq
  have hor : (n * c).im = 0 ∨ (n * c).re = 0 := by
    have h1 : ((n * c) ^ 2).im = 0 := by
      have : (n * c) ^ 2 = n ^ 2 - σ := by linear_combination -g.inv
      rw [this, sub_im, ofReal_im, sq, mul_im, hn]; ring
    rw [sq, mul_im] at h1
    have : (n * c).re * (n * c).im = 0 := by linarith
    rcases mul_eq_zero.1 this with h | h
    · exact Or.inr h
    · exact Or.inl h
  rcases hor with h | h
  · refine Or.inl ⟨?_, by rw [h, mul_zero]⟩
    cases pol
    · rw [momentum_p, im_mul_ofReal, conj_im, h]; simp
    · rw [momentum_s, h]
  · refine Or.inr ⟨?_, by rw [h, mul_zero]⟩
    cases pol
    · rw [momentum_p, re_mul_ofReal, conj_re, h]; simp
    · rw [momentum_s, h]

/-! ### Induction over the layers -/

/-- A layer of passive material with an ideal interface. -/
structure Layer.Passive (w : ℝ) (l : Layer) : Prop where
  ne : l.n w ≠ 0
  re : 0 ≤ (l.n w).re
  im : 0 ≤ (l.n w).im
  thick : 0 ≤ l.thickness
  ideal : l.interface = none

theorem good_next {σ w : ℝ} (hσ : 0 ≤ σ) {m : Medium} (g : Good σ m.n m.direction) {l : Layer}
    (hl : l.Passive w) : Good σ (l.next w m).n (l.next w m).direction :=
  good_snell hσ g.inv hl.ne hl.re hl.im

/-- What is true of the matrix `k` that leads from medium `m` to medium `m'`. -/
structure Step (pol : Bool) (m m' : Medium) (k : M2) : Prop where
  flux : m'.valid = true → ∀ a b, fluxOf (momentum pol m'.direction m'.n) a b ≤
    fluxOf (momentum pol m.direction m.n) (app1 k a b) (app2 k a b)
  opaque_flux : m.valid = true → m'.valid = false → ∀ a, 0 ≤
    fluxOf (momentum pol m.direction m.n) (app1 k a 0) (app2 k a 0)
  mask : m.valid = false → k = 1 ∧ m'.valid = false

theorem step_refl (pol : Bool) (m : Medium) : Step pol m m 1 := by
  refine ⟨?_, ?_, ?_⟩
  · intro _ a b; rw [app1_one, app2_one]
  · intro h h'; rw [h] at h'; exact absurd h' (by simp)
  · intro h; exact ⟨rfl, h⟩

theorem fluxOf_forward {q : ℂ} (hq : 0 ≤ q.re) (a : ℂ) : 0 ≤ fluxOf q a 0 := by
  rw [fluxOf_eq]
  simp only [norm_zero, map_zero, mul_zero, zero_im]
  have := sq_nonneg ‖a‖
  nlinarith [mul_nonneg hq this]

theorem step_trans {pol : Bool} {m m' m'' : Medium} {k k' : M2} (h : Step pol m m' k)
    (h' : Step pol m' m'' k') : Step pol m m'' (k * k') := by
  refine ⟨?_, ?_, ?_⟩
  · intro hv a b
    have hv' : m'.valid = true := by
      by_contra hc
      have := (h'.mask (by simpa using hc)).2
      rw [hv] at this; exact absurd this (by simp)
    rw [app1_mul, app2_mul]
    exact (h'.flux hv a b).trans (h.flux hv' _ _)
  · intro hv hv'' a
    by_cases hm : m'.valid = true
    · rw [app1_mul, app2_mul]
      exact (h'.opaque_flux hm hv'' a).trans (h.flux hm _ _)
    · have := (h'.mask (by simpa using hm)).1
      rw [this, mul_one]
      exact h.opaque_flux hv (by simpa using hm) a
  · intro hv
    obtain ⟨h1, h2⟩ := h.mask hv
    obtain ⟨h3, h4⟩ := h'.mask h2
    exact ⟨by rw [h1, h3, mul_one], h4⟩

theorem transfer_valid_matrix {w : ℝ} {pol : Bool} {l : Layer} {m : Medium} {k : M2}
    (hi : l.interface = none) (hv : m.valid = true) (h : (l.transfer w pol m).2 = some k) :
    m.n ≠ 0 ∧ l.n w ≠ 0 ∧ momentum pol m.direction m.n ≠ 0 ∧
    k = interfaceMatrix (momentum pol m.direction m.n)
        (momentum pol (l.next w m).direction (l.next w m).n) *
      (if (l.next w m).valid then propagation w (l.next w m).direction l.thickness (l.next w m).n
        else 1) := by
  unfold Layer.transfer at h
  simp only at h
  rw [hv, hi] at h
  simp only [if_true] at h
  have hval : (l.next w m).valid = (true && decide (‖propagation w (snellsLawScalar m.direction m.n
    (l.n w)) l.thickness (l.n w) 0 0‖ < 10 ^ 10)) := by rw [Layer.next, hv]
  rw [← hval] at h
  cases hr : refraction w m.direction (snellsLawScalar m.direction m.n (l.n w)) pol m.n (l.n w)
      none with
  | none => rw [hr] at h; split at h <;> simp at h
  | some a =>
    rw [hr] at h
    obtain ⟨h1, h2, -, h4, rfl⟩ := refraction_eq_some.1 hr
    refine ⟨h1, h2, h4, ?_⟩
    by_cases hn : (l.next w m).valid = true
    · rw [if_pos hn] at h ⊢
      simp only [Option.map_some, Option.some.injEq] at h
      rw [← h]; rfl
    · rw [if_neg hn] at h ⊢
      simp only [Option.some.injEq] at h
      rw [← h, mul_one]; rfl

theorem transfer_invalid_matrix {w : ℝ} {pol : Bool} {l : Layer} {m : Medium}
    (hv : m.valid = false) :
    (l.transfer w pol m).2 = some 1 ∧ (l.next w m).valid = false := by
  constructor
  · unfold Layer.transfer
    simp [hv]
  · simp [Layer.next, hv]

theorem step_layer {σ w : ℝ} (hσ : 0 ≤ σ) (hw : 0 < w) {pol : Bool} {m : Medium}
    (g : Good σ m.n m.direction) {l : Layer} (hl : l.Passive w) {k : M2}
    (h : (l.transfer w pol m).2 = some k) : Step pol m (l.next w m) k := by
  by_cases hv : m.valid = true
  · obtain ⟨h1, h2, h3, rfl⟩ := transfer_valid_matrix hl.ideal hv h
    have g' := good_next hσ g hl
    refine ⟨?_, ?_, ?_⟩
    · intro hv' a b
      rw [if_pos hv', app1_mul, app2_mul, fluxOf_interface h3]
      exact fluxOf_propagation g' pol hw hl.thick a b
    · intro _ hv' a
      rw [if_neg (by simp [hv']), mul_one, fluxOf_interface h3]
      exact fluxOf_forward (momentum_re_nonneg g' pol) a
    · intro h; rw [hv] at h; exact absurd h (by simp)
  · have hv' : m.valid = false := by simpa using hv
    obtain ⟨h1, h2⟩ := transfer_invalid_matrix (w := w) (pol := pol) (l := l) hv'
    rw [h1] at h
    simp only [Option.some.injEq] at h
    refine ⟨?_, ?_, ?_⟩
    · intro h'; rw [h2] at h'; exact absurd h' (by simp)
    · intro h'; exact absurd h' hv
    · intro _; exact ⟨h.symm, h2⟩

theorem step_layers {σ w : ℝ} (hσ : 0 ≤ σ) (hw : 0 < w) {pol : Bool} (ls : List Layer)
    {m : Medium} (g : Good σ m.n m.direction) (hl : ∀ l ∈ ls, l.Passive w) {k : M2}
    (h : (transferAll w pol (ls.map .layer) m (some 1)).2 = some k) :
    Step pol m (transferAll w pol (ls.map .layer) m (some 1)).1 k ∧
    Good σ (transferAll w pol (ls.map .layer) m (some 1)).1.n
      (transferAll w pol (ls.map .layer) m (some 1)).1.direction := by
  induction ls generalizing m k with
  | nil =>
    simp only [List.map_nil, transferAll, Option.some.injEq] at h ⊢
    rw [← h]
    exact ⟨step_refl pol m, g⟩
  | cons l ls ih =>
    simp only [List.map_cons, transferAll, mul?_one_left, Stack.transfer] at h ⊢
    rw [transferAll_acc] at h ⊢
    simp only at h ⊢
    rw [Layer.transfer_fst] at h ⊢
    cases h1 : (l.transfer w pol m).2 with
    | none => rw [h1, mul?_none_left] at h; simp at h
    | some k1 =>
      cases h2 : (transferAll w pol (ls.map .layer) (l.next w m) (some 1)).2 with
      | none => rw [h2, mul?_none_right] at h; simp at h
      | some k2 =>
        rw [h1, h2, mul?_some] at h
        simp only [Option.some.injEq] at h
        have hl1 := hl l List.mem_cons_self
        have s1 := step_layer hσ hw g hl1 h1
        obtain ⟨s2, g2⟩ := ih (good_next hσ g hl1)
          (fun x hx => hl x (List.mem_cons_of_mem _ hx)) h2
        rw [← h]
        exact ⟨step_trans s1 s2, g2⟩

/-! ### The same with equality for transparent layers -/

/-- A layer of transparent material with an ideal interface. -/
structure Layer.Transparent (w : ℝ) (l : Layer) : Prop extends l.Passive w where
  real : (l.n w).im = 0

/-- `Step` with equality of fluxes. -/
structure StepEq (pol : Bool) (m m' : Medium) (k : M2) : Prop where
  flux : m'.valid = true → ∀ a b, fluxOf (momentum pol m'.direction m'.n) a b =
    fluxOf (momentum pol m.direction m.n) (app1 k a b) (app2 k a b)
  opaque_flux : m.valid = true → m'.valid = false → ∀ a,
    fluxOf (momentum pol m.direction m.n) (app1 k a 0) (app2 k a 0) = 0
  mask : m.valid = false → k = 1 ∧ m'.valid = false

theorem stepEq_refl (pol : Bool) (m : Medium) : StepEq pol m m 1 := by
  refine ⟨?_, ?_, ?_⟩
  · intro _ a b; rw [app1_one, app2_one]
  · intro h h'; rw [h] at h'; exact absurd h' (by simp)
  · intro h; exact ⟨rfl, h⟩

theorem stepEq_trans {pol : Bool} {m m' m'' : Medium} {k k' : M2} (h : StepEq pol m m' k)
    (h' : StepEq pol m' m'' k') : StepEq pol m m'' (k * k') := by
  refine ⟨?_, ?_, ?_⟩
  · intro hv a b
    have hv' : m'.valid = true := by
      by_contra hc
      have := (h'.mask (by simpa using hc)).2
      rw [hv] at this; exact absurd this (by simp)
    rw [app1_mul, app2_mul]
    exact (h'.flux hv a b).trans (h.flux hv' _ _)
  · intro hv hv'' a
    by_cases hm : m'.valid = true
    · rw [app1_mul, app2_mul, ← h.flux hm]
      exact h'.opaque_flux hm hv'' a
    · have := (h'.mask (by simpa using hm)).1
      rw [this, mul_one]
      exact h.opaque_flux hv (by simpa using hm) a
  · intro hv
    obtain ⟨h1, h2⟩ := h.mask hv
    obtain ⟨h3, h4⟩ := h'.mask h2
    exact ⟨by rw [h1, h3, mul_one], h4⟩

theorem stepEq_layer {σ w : ℝ} (hσ : 0 ≤ σ) {pol : Bool} {m : Medium}
    (g : Good σ m.n m.direction) {l : Layer} (hl : l.Transparent w) {k : M2}
    (h : (l.transfer w pol m).2 = some k) : StepEq pol m (l.next w m) k := by
  by_cases hv : m.valid = true
  · obtain ⟨h1, h2, h3, rfl⟩ := transfer_valid_matrix hl.ideal hv h
    have g' := good_next hσ g hl.toPassive
    refine ⟨?_, ?_, ?_⟩
    · intro hv' a b
      rw [if_pos hv', app1_mul, app2_mul, fluxOf_interface h3]
      exact fluxOf_propagation_eq g' hl.real pol w l.thickness a b
    · intro _ hv' a
      rw [if_neg (by simp [hv']), mul_one, fluxOf_interface h3]
      -- an opaque transparent layer is evanescent
      have h4 : (l.next w m).valid = (true && decide (‖propagation w (l.next w m).direction
        l.thickness (l.next w m).n 0 0‖ < 10 ^ 10)) := by
        rw [← hv]; rfl
      rw [hv'] at h4
      have h5 : ¬ (‖propagation w (l.next w m).direction l.thickness (l.next w m).n 0 0‖
          < 10 ^ 10) := by
        intro h6; rw [decide_eq_true h6] at h4; simp at h4
      rw [norm_propagation] at h5
      have h6 : ((l.next w m).n * (l.next w m).direction).im ≠ 0 := by
        intro h7; rw [h7] at h5; norm_num at h5
      have h7 : ((l.next w m).n * (l.next w m).direction).re = 0 := by
        have h1 : (((l.next w m).n * (l.next w m).direction) ^ 2).im = 0 := by
          have : ((l.next w m).n * (l.next w m).direction) ^ 2 = (l.next w m).n ^ 2 - σ := by
            linear_combination -g'.inv
          have hr : ((l.next w m).n).im = 0 := hl.real
          rw [this, sub_im, ofReal_im, sq, mul_im, hr]; ring
        rw [sq, mul_im] at h1
        have : ((l.next w m).n * (l.next w m).direction).re *
            ((l.next w m).n * (l.next w m).direction).im = 0 := by linarith
        rcases mul_eq_zero.1 this with h | h
        · exact h
        · exact absurd h h6
      have h8 : (momentum pol (l.next w m).direction (l.next w m).n).re = 0 := by
        cases pol
        · rw [momentum_p, re_mul_ofReal, conj_re, h7, zero_mul]
        · rw [momentum_s, h7]
      rw [fluxOf_eq, h8]
      simp
    · intro h; rw [hv] at h; exact absurd h (by simp)
  · have hv' : m.valid = false := by simpa using hv
    obtain ⟨h1, h2⟩ := transfer_invalid_matrix (w := w) (pol := pol) (l := l) hv'
    rw [h1] at h
    simp only [Option.some.injEq] at h
    refine ⟨?_, ?_, ?_⟩
    · intro h'; rw [h2] at h'; exact absurd h' (by simp)
    · intro h'; exact absurd h' hv
    · intro _; exact ⟨h.symm, h2⟩

theorem stepEq_layers {σ w : ℝ} (hσ : 0 ≤ σ) {pol : Bool} (ls : List Layer)
    {m : Medium} (g : Good σ m.n m.direction) (hl : ∀ l ∈ ls, l.Transparent w) {k : M2}
    (h : (transferAll w pol (ls.map .layer) m (some 1)).2 = some k) :
    StepEq pol m (transferAll w pol (ls.map .layer) m (some 1)).1 k := by
  induction ls generalizing m k with
  | nil =>
    simp only [List.map_nil, transferAll, Option.some.injEq] at h ⊢
    rw [← h]
    exact stepEq_refl pol m
  | cons l ls ih =>
    simp only [List.map_cons, transferAll, mul?_one_left, Stack.transfer] at h ⊢
    rw [transferAll_acc] at h ⊢
    simp only at h ⊢
    rw [Layer.transfer_fst] at h ⊢
    cases h1 : (l.transfer w pol m).2 with
    | none => rw [h1, mul?_none_left] at h; simp at h
    | some k1 =>
      cases h2 : (transferAll w pol (ls.map .layer) (l.next w m) (some 1)).2 with
      | none => rw [h2, mul?_none_right] at h; simp at h
      | some k2 =>
        rw [h1, h2, mul?_some] at h
        simp only [Option.some.injEq] at h
        have hl1 := hl l List.mem_cons_self
        have s1 := stepEq_layer hσ g hl1 h1
        have s2 := ih (good_next hσ g hl1.toPassive)
          (fun x hx => hl x (List.mem_cons_of_mem _ hx)) h2
        rw [← h]
        exact stepEq_trans s1 s2

/-! ### Existence of a finite transfer -/

theorem transfer_exists {σ w : ℝ} (hσ : 0 ≤ σ) {pol : Bool} {m : Medium}
    (g : Good σ m.n m.direction) (hc : m.direction ≠ 0) {l : Layer} (hl : l.Passive w) :
    ∃ k, (l.transfer w pol m).2 = some k := by
  by_cases hv : m.valid = true
  · have hr : ∃ a, refraction w m.direction (snellsLawScalar m.direction m.n (l.n w)) pol m.n
        (l.n w) none = some a :=
      ⟨_, refraction_eq_some.2 ⟨g.ne, hl.ne, momentum_add_ne_zero g (good_next hσ g hl) hc pol,
        momentum_ne_zero g.ne hc pol, rfl⟩⟩
    obtain ⟨a, ha⟩ := hr
    unfold Layer.transfer
    simp only
    rw [hv, hl.ideal, ha]
    simp only [if_true]
    split
    · exact ⟨_, rfl⟩
    · exact ⟨_, rfl⟩
  · exact ⟨1, (transfer_invalid_matrix (by simpa using hv)).1⟩

end Optika
