import Verif.Model.Layers
import Mathlib.Analysis.SpecialFunctions.Trigonometric.Bounds
import Mathlib.Analysis.SpecialFunctions.Trigonometric.DerivHyp
import Mathlib.Tactic.LinearCombination

/-! Helper lemmas on square roots, scalar refraction, and the 2×2 matrices of `matrices.py`. -/

namespace Optika
open Complex Matrix

/-! ### Principal square root -/

theorem csqrt_sq (z : ℂ) : csqrt z ^ 2 = z := by
  have := cpow_nat_inv_pow z (n := 2) two_ne_zero
  unfold csqrt
  convert this using 3
  norm_num

theorem csqrt_zero : csqrt 0 = 0 := by
  have := csqrt_sq 0
  simpa using this

theorem csqrt_eq_exp {z : ℂ} (hz : z ≠ 0) :
    csqrt z = exp (log z * (1 / 2)) := by
  unfold csqrt; rw [cpow_def_of_ne_zero hz]

theorem csqrt_quadrants (z : ℂ) :
    0 ≤ (csqrt z).re ∧ ((csqrt z).re = 0 → 0 ≤ (csqrt z).im) := by
  by_cases hz : z = 0
  · subst hz; simp [csqrt_zero]
  rw [csqrt_eq_exp hz]
  have him : (log z * (1 / 2)).im = arg z / 2 := by
    rw [mul_im]; simp [log_im]; ring
  rw [exp_re, exp_im, him]
  have h1 := neg_pi_lt_arg z
  have h2 := arg_le_pi z
  have hc : 0 ≤ Real.cos (arg z / 2) :=
    Real.cos_nonneg_of_mem_Icc ⟨by linarith, by linarith⟩
  refine ⟨mul_nonneg (Real.exp_pos _).le hc, ?_⟩
  intro h0
  have hc0 : Real.cos (arg z / 2) = 0 := by
    rcases mul_eq_zero.1 h0 with h | h
    · exact absurd h (Real.exp_pos _).ne'
    · exact h
  have harg : arg z / 2 = Real.pi / 2 := by
    by_contra hne
    have : arg z / 2 < Real.pi / 2 := lt_of_le_of_ne (by linarith) hne
    have := Real.cos_pos_of_mem_Ioo (x := arg z / 2) ⟨by linarith, this⟩
    linarith
  rw [harg, Real.sin_pi_div_two]
  have := Real.exp_pos (log z * (1 / 2)).re
  linarith

theorem csqrt_unique {z w : ℂ} (h : w ^ 2 = z) (hre : 0 ≤ w.re) (him : w.re = 0 → 0 ≤ w.im) :
    csqrt z = w := by
  have h2 := csqrt_sq z
  obtain ⟨c1, c2⟩ := csqrt_quadrants z
  have : (csqrt z - w) * (csqrt z + w) = 0 := by linear_combination h2 - h
  rcases mul_eq_zero.1 this with h3 | h3
  · exact sub_eq_zero.1 h3
  · have e : csqrt z = -w := eq_neg_of_add_eq_zero_left h3
    rw [e] at c1 c2
    simp only [neg_re, neg_im] at c1 c2
    have hr0 : w.re = 0 := by linarith
    have hi := him hr0
    have hi' := c2 (by linarith)
    have hi0 : w.im = 0 := by linarith
    have hw : w = 0 := Complex.ext hr0 hi0
    rw [e, hw]; simp

theorem csqrt_sq_of_re_pos {c : ℂ} (h : 0 < c.re) : csqrt (c ^ 2) = c :=
  csqrt_unique rfl h.le fun h0 => absurd h0 h.ne'

theorem csqrt_ofReal {x : ℝ} (h : 0 ≤ x) : csqrt (x : ℂ) = (Real.sqrt x : ℝ) := by
  apply csqrt_unique
  · rw [← ofReal_pow, Real.sq_sqrt h]
  · simp [Real.sqrt_nonneg]
  · simp

/-! ### Scalar refraction -/

theorem snellsLawScalar_eq (c n n' : ℂ) :
    snellsLawScalar c n n' = csqrt (1 - n ^ 2 * (1 - c ^ 2) / n' ^ 2) := by
  unfold snellsLawScalar
  simp only
  rw [div_pow, mul_pow, csqrt_sq]

theorem snellsLawScalar_sq (c n n' : ℂ) (h : n' ≠ 0) :
    n' ^ 2 * (1 - snellsLawScalar c n n' ^ 2) = n ^ 2 * (1 - c ^ 2) := by
  rw [snellsLawScalar_eq, csqrt_sq]
  field_simp
  ring

theorem snellsLawScalar_congr {c n d m : ℂ} (h : n ^ 2 * (1 - c ^ 2) = m ^ 2 * (1 - d ^ 2))
    (n' : ℂ) : snellsLawScalar c n n' = snellsLawScalar d m n' := by
  rw [snellsLawScalar_eq, snellsLawScalar_eq, h]

/-! ### Passive media -/

/-- Index in the first quadrant (passive), direction and wave number `n cos θ` in the first
quadrant (the wave travels to the right and decays), and the conserved transverse wave number. -/
structure Good (σ : ℝ) (n c : ℂ) : Prop where
  ne : n ≠ 0
  nre : 0 ≤ n.re
  nim : 0 ≤ n.im
  inv : n ^ 2 * (1 - c ^ 2) = σ
  cre : 0 ≤ c.re
  cim : 0 ≤ c.im
  wre : 0 ≤ (n * c).re
  wim : 0 ≤ (n * c).im

theorem good_of_root {σ : ℝ} (hσ : 0 ≤ σ) {n c : ℂ} (hn : n ≠ 0) (h1 : 0 ≤ n.re) (h2 : 0 ≤ n.im)
    (hc : c = csqrt (1 - σ / n ^ 2)) : Good σ n c := by
  have hc2 : c ^ 2 = 1 - σ / n ^ 2 := by rw [hc, csqrt_sq]
  obtain ⟨q1, q2⟩ := csqrt_quadrants (1 - σ / n ^ 2)
  rw [← hc] at q1 q2
  have hinv : n ^ 2 * (1 - c ^ 2) = σ := by rw [hc2]; field_simp; ring
  have hw2 : (n * c) ^ 2 = n ^ 2 - σ := by linear_combination -hinv
  -- imaginary part of c²
  have hns : 0 < normSq (n ^ 2) := normSq_pos.2 (pow_ne_zero 2 hn)
  have him : 0 ≤ (c ^ 2).im := by
    rw [hc2]
    have e : (1 - (σ : ℂ) / n ^ 2).im = σ * (n ^ 2).im / normSq (n ^ 2) := by
      rw [sub_im, div_im]; simp
    rw [e]
    apply div_nonneg (mul_nonneg hσ _) hns.le
    rw [sq, mul_im]; nlinarith
  have hcim : 0 ≤ c.im := by
    rcases eq_or_lt_of_le q1 with h0 | h0
    · exact q2 h0.symm
    · have : (c ^ 2).im = 2 * c.re * c.im := by rw [sq, mul_im]; ring
      rw [this] at him
      by_contra hneg
      push Not at hneg
      nlinarith
  have hwim : 0 ≤ (n * c).im := by rw [mul_im]; nlinarith [mul_nonneg h1 hcim, mul_nonneg h2 q1]
  have hwre : 0 ≤ (n * c).re := by
    have h3 : ((n * c) ^ 2).im = 2 * n.re * n.im := by
      rw [hw2, sub_im, ofReal_im, sq, mul_im]; ring
    have h4 : ((n * c) ^ 2).im = 2 * (n * c).re * (n * c).im := by
      rw [sq, mul_im (n * c)]; ring
    rcases eq_or_lt_of_le hwim with h0 | h0
    · -- the imaginary part vanishes
      have h5 : n.re * c.im + n.im * c.re = 0 := by rw [← mul_im]; exact h0.symm
      have h6 : n.re * c.im = 0 := by nlinarith [mul_nonneg h1 hcim, mul_nonneg h2 q1]
      have h7 : n.im * c.re = 0 := by nlinarith [mul_nonneg h1 hcim, mul_nonneg h2 q1]
      rw [mul_re]
      rcases mul_eq_zero.1 h6 with h8 | h8
      · rcases mul_eq_zero.1 h7 with h9 | h9
        · exact absurd (Complex.ext h8 h9) hn
        · -- n imaginary: c² = 1 + σ / (im n)² is positive
          have hnim : n.im ≠ 0 := fun h => hn (Complex.ext h8 h)
          exfalso
          have e1 : (c ^ 2).re = -(c.im ^ 2) := by rw [sq, mul_re, h9]; ring
          have e2 : (n ^ 2 * (1 - c ^ 2)).re = σ := by rw [hinv]; simp
          rw [mul_re, sub_re, one_re, e1] at e2
          have e3 : (n ^ 2).re = -(n.im ^ 2) := by rw [sq, mul_re, h8]; ring
          have e4 : (n ^ 2).im = 0 := by rw [sq, mul_im, h8]; ring
          rw [e3, e4] at e2
          have : 0 < n.im ^ 2 := by positivity
          nlinarith [sq_nonneg c.im, mul_nonneg this.le (sq_nonneg c.im)]
      · rw [h8]; nlinarith [mul_nonneg h1 q1]
    · by_contra hneg
      push Not at hneg
      have : 2 * n.re * n.im = 2 * (n * c).re * (n * c).im := by rw [← h3, h4]
      nlinarith [mul_nonneg h1 h2]
  exact ⟨hn, h1, h2, hinv, q1, hcim, hwre, hwim⟩

theorem good_snell {σ : ℝ} (hσ : 0 ≤ σ) {n c n' : ℂ} (h : n ^ 2 * (1 - c ^ 2) = σ) (hn : n' ≠ 0)
    (h1 : 0 ≤ n'.re) (h2 : 0 ≤ n'.im) : Good σ n' (snellsLawScalar c n n') := by
  apply good_of_root hσ hn h1 h2
  rw [snellsLawScalar_eq, h]

theorem good_ambient {n c : ℝ} (hn : 0 < n) (hc : 0 ≤ c) :
    Good (n ^ 2 * (1 - c ^ 2)) (n : ℂ) (c : ℂ) := by
  refine ⟨by exact_mod_cast hn.ne', ?_, ?_, by push_cast; ring, ?_, ?_, ?_, ?_⟩ <;>
    simp [hn.le, hc, mul_nonneg hn.le hc]

/-! ### Momenta and matrices -/

theorem momentum_s (c n : ℂ) : momentum true c n = n * c := by
  simp [momentum, polarizedDirection, mul_comm]

theorem momentum_p (c n : ℂ) :
    momentum false c n = (starRingEnd ℂ) (n * c) * ((1 / normSq n : ℝ) : ℂ) := by
  simp only [momentum, polarizedDirection, Bool.false_eq_true, if_false, map_mul, one_div]
  rw [Complex.inv_def]
  push_cast
  ring

theorem momentum_re_nonneg {σ : ℝ} {n c : ℂ} (h : Good σ n c) (pol : Bool) :
    0 ≤ (momentum pol c n).re := by
  cases pol
  · rw [momentum_p, re_mul_ofReal, conj_re]
    exact mul_nonneg h.wre (by have := normSq_nonneg n; positivity)
  · rw [momentum_s]; exact h.wre

/-- Real and imaginary parts of the momentum and of the wave number are proportional. -/
theorem momentum_balance {σ : ℝ} {n c : ℂ} (h : Good σ n c) (pol : Bool) :
    |(momentum pol c n).im| * |(n * c).re| = (momentum pol c n).re * (n * c).im := by
  cases pol
  · rw [momentum_p, re_mul_ofReal, im_mul_ofReal, conj_re, conj_im, abs_mul, abs_neg,
      abs_of_nonneg h.wim, abs_of_nonneg h.wre,
      abs_of_nonneg (a := 1 / normSq n) (by have := normSq_nonneg n; positivity)]
    ring
  · rw [momentum_s, abs_of_nonneg h.wim, abs_of_nonneg h.wre]; ring

theorem momentum_ne_zero {n c : ℂ} (hn : n ≠ 0) (hc : c ≠ 0) (pol : Bool) :
    momentum pol c n ≠ 0 := by
  cases pol
  · simp [momentum, polarizedDirection, hn, hc]
  · rw [momentum_s]; exact mul_ne_zero hn hc

theorem momentum_eq_zero {n c : ℂ} (hn : n ≠ 0) (pol : Bool) :
    momentum pol c n = 0 ↔ c = 0 := by
  constructor
  · intro h; by_contra hc; exact momentum_ne_zero hn hc pol h
  · rintro rfl; cases pol <;> simp [momentum, polarizedDirection]

/-- Momenta of passive media never cancel. -/
theorem momentum_add_ne_zero {σ τ : ℝ} {n c n' c' : ℂ} (h : Good σ n c) (h' : Good τ n' c')
    (hc : c ≠ 0) (pol : Bool) : momentum pol c n + momentum pol c' n' ≠ 0 := by
  intro h0
  have hre : (momentum pol c n).re + (momentum pol c' n').re = 0 := by rw [← add_re, h0, zero_re]
  have him : (momentum pol c n).im + (momentum pol c' n').im = 0 := by rw [← add_im, h0, zero_im]
  have r1 := momentum_re_nonneg h pol
  have r2 := momentum_re_nonneg h' pol
  have i12 : (momentum pol c n).im = 0 := by
    cases pol
    · rw [momentum_p, momentum_p] at him
      rw [im_mul_ofReal, im_mul_ofReal, conj_im, conj_im] at him
      rw [momentum_p, im_mul_ofReal, conj_im]
      have a1 : 0 ≤ (n * c).im * (1 / normSq n) :=
        mul_nonneg h.wim (by have := normSq_nonneg n; positivity)
      have a2 : 0 ≤ (n' * c').im * (1 / normSq n') :=
        mul_nonneg h'.wim (by have := normSq_nonneg n'; positivity)
      linarith
    · rw [momentum_s, momentum_s] at him
      rw [momentum_s]
      linarith [h.wim, h'.wim]
  exact momentum_ne_zero h.ne hc pol (Complex.ext (by simp; linarith) i12)

/-- The matrix of an ideal interface in terms of the momenta. -/
noncomputable def interfaceMatrix (qi qj : ℂ) : M2 :=
  !![(qi + qj) / (2 * qi), (qi - qj) / (2 * qi); (qi - qj) / (2 * qi), (qi + qj) / (2 * qi)]

theorem refraction_eq_some {w : ℝ} {ci cj ni nj : ℂ} {pol : Bool} {m : M2} :
    refraction w ci cj pol ni nj none = some m ↔
      ni ≠ 0 ∧ nj ≠ 0 ∧ momentum pol ci ni + momentum pol cj nj ≠ 0 ∧ momentum pol ci ni ≠ 0 ∧
      m = interfaceMatrix (momentum pol ci ni) (momentum pol cj nj) := by
  unfold refraction
  simp only [Option.elim_none, Option.bind_some]
  by_cases h : ni = 0 ∨ nj = 0 ∨ momentum pol ci ni + momentum pol cj nj = 0
  · rw [if_pos h]
    simp only [reduceCtorEq, false_iff]
    rintro ⟨h1, h2, h3, -, -⟩
    rcases h with h | h | h <;> contradiction
  · rw [if_neg h]
    push Not at h
    obtain ⟨h1, h2, h3⟩ := h
    by_cases hq : momentum pol ci ni = 0
    · rw [if_pos (by rw [hq]; simp)]
      simp [hq]
    · rw [if_neg (by simp [hq, h3])]
      simp only [Option.some.injEq, ne_eq, h1, not_false_eq_true, h2, h3, hq, true_and]
      rw [eq_comm]
      have : (!![1 / (2 * momentum pol ci ni / (momentum pol ci ni + momentum pol cj nj)),
          (momentum pol ci ni - momentum pol cj nj) / (momentum pol ci ni + momentum pol cj nj) /
            (2 * momentum pol ci ni / (momentum pol ci ni + momentum pol cj nj));
          (momentum pol ci ni - momentum pol cj nj) / (momentum pol ci ni + momentum pol cj nj) /
            (2 * momentum pol ci ni / (momentum pol ci ni + momentum pol cj nj)),
          1 / (2 * momentum pol ci ni / (momentum pol ci ni + momentum pol cj nj))] : M2) =
          interfaceMatrix (momentum pol ci ni) (momentum pol cj nj) := by
        unfold interfaceMatrix
        congr 1
        ext i j
        fin_cases i <;> fin_cases j <;> simp <;> field_simp
      rw [this]

theorem interfaceMatrix_mul {qi qj qk : ℂ} (hi : qi ≠ 0) (hj : qj ≠ 0) :
    interfaceMatrix qi qj * interfaceMatrix qj qk = interfaceMatrix qi qk := by
  unfold interfaceMatrix
  rw [Matrix.mul_fin_two]
  congr 1
  ext i j
  fin_cases i <;> fin_cases j <;> simp <;> field_simp <;> ring

theorem interfaceMatrix_self {q : ℂ} (h : q ≠ 0) : interfaceMatrix q q = 1 := by
  unfold interfaceMatrix
  rw [Matrix.one_fin_two]
  congr 1
  ext i j
  fin_cases i <;> fin_cases j <;> simp <;> field_simp <;> ring

theorem interfaceMatrix_det {qi qj : ℂ} (hi : qi ≠ 0) :
    (interfaceMatrix qi qj).det = qj / qi := by
  unfold interfaceMatrix
  rw [Matrix.det_fin_two_of]
  field_simp
  ring

theorem propagation_add (w : ℝ) (c : ℂ) (h1 h2 : ℝ) (n : ℂ) :
    propagation w c h1 n * propagation w c h2 n = propagation w c (h1 + h2) n := by
  unfold propagation
  simp only
  rw [Matrix.mul_fin_two]
  have e1 : exp (-I * (2 * Real.pi * h1 * n * c / w)) * exp (-I * (2 * Real.pi * h2 * n * c / w)) =
      exp (-I * (2 * Real.pi * (h1 + h2 : ℝ) * n * c / w)) := by
    rw [← Complex.exp_add]; congr 1; push_cast; ring
  have e2 : exp (I * (2 * Real.pi * h1 * n * c / w)) * exp (I * (2 * Real.pi * h2 * n * c / w)) =
      exp (I * (2 * Real.pi * (h1 + h2 : ℝ) * n * c / w)) := by
    rw [← Complex.exp_add]; congr 1; push_cast; ring
  simp only [e1, e2, mul_zero, add_zero, zero_mul, zero_add]

theorem propagation_zero (w : ℝ) (c n : ℂ) : propagation w c 0 n = 1 := by
  unfold propagation
  rw [Matrix.one_fin_two]
  simp

theorem propagation_det (w : ℝ) (c : ℂ) (h : ℝ) (n : ℂ) : (propagation w c h n).det = 1 := by
  unfold propagation
  simp only
  rw [Matrix.det_fin_two_of, ← Complex.exp_add]
  simp

/-- Modulus of the growing factor of a layer. -/
theorem norm_propagation (w : ℝ) (c : ℂ) (h : ℝ) (n : ℂ) :
    ‖propagation w c h n 0 0‖ = Real.exp (2 * Real.pi * h / w * (n * c).im) := by
  unfold propagation
  simp only [Matrix.cons_val_zero, Matrix.of_apply, Matrix.cons_val', Matrix.cons_val_fin_one]
  rw [Complex.norm_exp]
  congr 1
  have : -I * (2 * Real.pi * h * n * c / w) = ((2 * Real.pi * h / w : ℝ) : ℂ) * (-I * (n * c)) := by
    push_cast; ring
  rw [this, re_ofReal_mul]
  congr 1
  simp

end Optika

namespace Optika
open Complex Matrix

/-! ### Products that may not be finite -/

theorem mul?_some (a b : M2) : mul? (some a) (some b) = some (a * b) := rfl
theorem mul?_none_left (b : Option M2) : mul? none b = none := rfl
theorem mul?_none_right (a : Option M2) : mul? a none = none := by cases a <;> rfl
theorem mul?_one_left (b : Option M2) : mul? (some 1) b = b := by
  cases b
  · rfl
  · rw [mul?_some, one_mul]
theorem mul?_one_right (b : Option M2) : mul? b (some 1) = b := by
  cases b
  · rfl
  · rw [mul?_some, mul_one]
theorem mul?_assoc (a b c : Option M2) : mul? (mul? a b) c = mul? a (mul? b c) := by
  cases a <;> cases b <;> cases c <;> simp [mul?_some, mul?_none_left, mul?_none_right, mul_assoc]

/-! ### The loop over the layers -/

theorem transferAll_acc (w : ℝ) (p : Bool) (ls : List Stack) (m : Medium) (acc : Option M2) :
    transferAll w p ls m acc =
      ((transferAll w p ls m (some 1)).1, mul? acc (transferAll w p ls m (some 1)).2) := by
  induction ls generalizing m acc with
  | nil => simp [transferAll, mul?_one_right]
  | cons l ls ih =>
    simp only [transferAll]
    rw [ih, ih (acc := mul? (some 1) _), mul?_one_left, mul?_assoc]

theorem transferAll_append (w : ℝ) (p : Bool) (a b : List Stack) (m : Medium) (acc : Option M2) :
    transferAll w p (a ++ b) m acc =
      transferAll w p b (transferAll w p a m acc).1 (transferAll w p a m acc).2 := by
  induction a generalizing m acc with
  | nil => simp [transferAll]
  | cons l ls ih => simp only [List.cons_append, transferAll]; rw [ih]

/-- The medium on the right of a layer. -/
noncomputable def Layer.next (w : ℝ) (l : Layer) (m : Medium) : Medium :=
  ⟨l.n w, snellsLawScalar m.direction m.n (l.n w),
    m.valid && decide (‖propagation w (snellsLawScalar m.direction m.n (l.n w)) l.thickness
      (l.n w) 0 0‖ < 10 ^ 10)⟩

theorem Layer.transfer_fst (w : ℝ) (p : Bool) (l : Layer) (m : Medium) :
    (l.transfer w p m).1 = l.next w m := rfl

mutual
/-- The layers that the state passes through (a periodic sequence is passed twice). -/
def Stack.walk : Stack → List Layer
  | .layer l => [l]
  | .sequence ls => walkAll ls
  | .periodic ls _ => walkAll ls ++ walkAll ls
/-- See `Stack.walk`. -/
def walkAll : List Stack → List Layer
  | [] => []
  | l :: ls => l.walk ++ walkAll ls
end

mutual
theorem Stack.transfer_fst (w : ℝ) (p : Bool) : (s : Stack) → (m : Medium) →
    (s.transfer w p m).1 = s.walk.foldl (fun m l => l.next w m) m
  | .layer l, m => by simp [Stack.transfer, Stack.walk, Layer.transfer_fst]
  | .sequence ls, m => by
    simp only [Stack.transfer, Stack.walk]; exact transferAll_fst w p ls m _
  | .periodic ls n, m => by
    simp only [Stack.transfer, Stack.walk, List.foldl_append]
    rw [transferAll_fst w p ls, transferAll_fst w p ls]
theorem transferAll_fst (w : ℝ) (p : Bool) : (ls : List Stack) → (m : Medium) →
    (acc : Option M2) →
    (transferAll w p ls m acc).1 = (walkAll ls).foldl (fun m l => l.next w m) m
  | [], m, acc => by simp [transferAll, walkAll]
  | l :: ls, m, acc => by
    simp only [transferAll, walkAll, List.foldl_append]
    rw [transferAll_fst w p ls, Stack.transfer_fst w p l]
end

/-- The transverse wave number squared. -/
def Medium.transverse (m : Medium) : ℂ := m.n ^ 2 * (1 - m.direction ^ 2)

theorem next_transverse (w : ℝ) (l : Layer) (m : Medium) (h : l.n w ≠ 0) :
    (l.next w m).transverse = m.transverse :=
  snellsLawScalar_sq _ _ _ h

theorem walk_transverse (w : ℝ) (ls : List Layer) (m : Medium) (h : ∀ l ∈ ls, l.n w ≠ 0) :
    (ls.foldl (fun m l => l.next w m) m).transverse = m.transverse := by
  induction ls generalizing m with
  | nil => rfl
  | cons l ls ih =>
    rw [List.foldl_cons, ih _ fun l hl => h l (List.mem_cons_of_mem _ hl)]
    exact next_transverse w l m (h l List.mem_cons_self)

theorem next_congr (w : ℝ) (l : Layer) {m m' : Medium} (h : m.transverse = m'.transverse)
    (hv : m.valid = m'.valid) : l.next w m = l.next w m' := by
  unfold Layer.next
  rw [snellsLawScalar_congr h, hv]

theorem next_congr' (w : ℝ) (l : Layer) {m m' : Medium} (h : m.transverse = m'.transverse) :
    (l.next w m).n = (l.next w m').n ∧ (l.next w m).direction = (l.next w m').direction := by
  unfold Layer.next
  rw [snellsLawScalar_congr h]
  exact ⟨rfl, rfl⟩

/-- Whether a layer is transparent enough for a given transverse wave number. -/
noncomputable def Layer.ok (w : ℝ) (l : Layer) (σ : ℂ) : Bool :=
  decide (‖propagation w (csqrt (1 - σ / (l.n w) ^ 2)) l.thickness (l.n w) 0 0‖ < 10 ^ 10)

theorem next_valid (w : ℝ) (l : Layer) (m : Medium) :
    (l.next w m).valid = (m.valid && l.ok w m.transverse) := by
  unfold Layer.next Layer.ok
  rw [snellsLawScalar_eq]
  rfl

theorem walk_valid (w : ℝ) (ls : List Layer) (m : Medium) (h : ∀ l ∈ ls, l.n w ≠ 0) :
    (ls.foldl (fun m l => l.next w m) m).valid =
      (m.valid && ls.all fun l => l.ok w m.transverse) := by
  induction ls generalizing m with
  | nil => simp
  | cons l ls ih =>
    rw [List.foldl_cons, ih _ fun l hl => h l (List.mem_cons_of_mem _ hl),
      next_transverse w l m (h l List.mem_cons_self), next_valid, List.all_cons, Bool.and_assoc]

/-- Passing the same layers a second time ends in the same state. -/
theorem walk_idem (w : ℝ) (ls : List Layer) (m : Medium) (h : ∀ l ∈ ls, l.n w ≠ 0) :
    ls.foldl (fun m l => l.next w m) (ls.foldl (fun m l => l.next w m) m) =
      ls.foldl (fun m l => l.next w m) m := by
  rcases List.eq_nil_or_concat ls with rfl | ⟨init, last, rfl⟩
  · rfl
  rw [List.concat_eq_append] at *
  have h1 := walk_transverse w (init ++ [last]) m h
  have hv : ((init ++ [last]).foldl (fun m l => l.next w m)
      ((init ++ [last]).foldl (fun m l => l.next w m) m)).valid =
      ((init ++ [last]).foldl (fun m l => l.next w m) m).valid := by
    rw [walk_valid w _ _ h, walk_valid w _ _ h, h1]
    simp
  generalize hm' : (init ++ [last]).foldl (fun m l => l.next w m) m = m' at *
  have hi : ∀ l ∈ init, l.n w ≠ 0 := fun l hl => h l (List.mem_append_left _ hl)
  have e1 : ((init ++ [last]).foldl (fun m l => l.next w m) m').n = m'.n ∧
      ((init ++ [last]).foldl (fun m l => l.next w m) m').direction = m'.direction := by
    rw [← hm']
    simp only [List.foldl_append, List.foldl_cons, List.foldl_nil]
    apply next_congr'
    rw [walk_transverse w init _ hi, walk_transverse w init _ hi,
      next_transverse _ _ _ (h last (by simp)), walk_transverse w init _ hi]
  generalize (init ++ [last]).foldl (fun m l => l.next w m) m' = m'' at *
  cases m'; cases m''
  simp_all

/-- Repeating a period. -/
theorem transferAll_replicate (w : ℝ) (p : Bool) (ls : List Stack) (m : Medium)
    (h : ∀ l ∈ walkAll ls, l.n w ≠ 0) (k : ℕ) (acc : Option M2) :
    transferAll w p (List.replicate k ls).flatten (transferAll w p ls m (some 1)).1 acc =
      ((transferAll w p ls m (some 1)).1, if k = 0 then acc else
        mul? acc ((transferAll w p ls (transferAll w p ls m (some 1)).1 (some 1)).2.map
          (· ^ k))) := by
  have hs : (transferAll w p ls (transferAll w p ls m (some 1)).1 (some 1)).1 =
      (transferAll w p ls m (some 1)).1 := by
    rw [transferAll_fst, transferAll_fst]; exact walk_idem w _ _ h
  generalize hm : (transferAll w p ls m (some 1)).1 = m' at *
  induction k generalizing acc with
  | zero => simp [transferAll]
  | succ k ih =>
    have e1 : (transferAll w p ls m' acc) = (m', mul? acc (transferAll w p ls m' (some 1)).2) := by
      rw [transferAll_acc, hs]
    rw [List.replicate_succ, List.flatten_cons, transferAll_append, e1]
    refine (ih _).trans ?_
    simp only [Nat.add_eq_zero_iff, one_ne_zero, and_false, if_false, Prod.mk.injEq, true_and]
    by_cases hk : k = 0
    · subst hk
      simp
    · rw [if_neg hk]
      cases acc <;> cases (transferAll w p ls m' (some 1)).2 <;>
        simp [mul?_some, mul?_none_left, mul?_none_right, mul_assoc, pow_succ']

end Optika
