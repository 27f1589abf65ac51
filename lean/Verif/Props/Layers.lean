import Verif.Lemmas.Layers
import Verif.Props.Snell

/-!
# Layers of a coating (C28–C31)

Scalar refraction through a stack, the refraction and propagation matrices, sequences and
periodic sequences.
-/

namespace Optika
open Complex Matrix

/-! ### C28 -/

/-- **C28**: refracting a cosine through any chain of media ends with the same cosine as
refracting it directly from the first into the last medium. -/
theorem C28_path_independent (ns : List ℂ) (n c last : ℂ) (h : ∀ k ∈ ns, k ≠ 0) :
    (ns ++ [last]).foldl (fun (m : ℂ × ℂ) n' => (n', snellsLawScalar m.2 m.1 n')) (n, c) =
      (last, snellsLawScalar c n last) := by
  rw [List.foldl_append, List.foldl_cons, List.foldl_nil]
  refine Prod.ext rfl ?_
  apply snellsLawScalar_congr
  induction ns generalizing n c with
  | nil => rfl
  | cons k ks ih =>
    rw [List.foldl_cons, ih _ _ fun j hj => h j (List.mem_cons_of_mem _ hj)]
    exact snellsLawScalar_sq _ _ _ (h k List.mem_cons_self)

/-- **C28**: `n² sin²` is conserved, and the square of the result is the one and only number that
does so; of its two roots the one with non-negative real part is taken. -/
theorem C28_conserved (c n n' : ℂ) (h : n' ≠ 0) :
    n' ^ 2 * (1 - snellsLawScalar c n n' ^ 2) = n ^ 2 * (1 - c ^ 2) ∧
    0 ≤ (snellsLawScalar c n n').re ∧
    ∀ d : ℂ, n' ^ 2 * (1 - d ^ 2) = n ^ 2 * (1 - c ^ 2) →
      d = snellsLawScalar c n n' ∨ d = -snellsLawScalar c n n' := by
  refine ⟨snellsLawScalar_sq c n n' h, (csqrt_quadrants _).1, ?_⟩
  intro d hd
  have h1 := snellsLawScalar_sq c n n' h
  have h2 : d ^ 2 = snellsLawScalar c n n' ^ 2 := by
    have : n' ^ 2 * (d ^ 2 - snellsLawScalar c n n' ^ 2) = 0 := by linear_combination h1 - hd
    rcases mul_eq_zero.1 this with h3 | h3
    · exact absurd h3 (pow_ne_zero 2 h)
    · exact sub_eq_zero.1 h3
  exact sq_eq_sq_iff_eq_or_eq_neg.1 h2

/-- **C28**: light from a transparent medium decays in every passive medium (index with
non-negative real and imaginary part): the factor of a wave that advances by `z ≥ 0` has modulus at
most one. -/
theorem C28_decays {n c : ℝ} {n' : ℂ} (hc : c ^ 2 ≤ 1) (h : n' ≠ 0) (h1 : 0 ≤ n'.re)
    (h2 : 0 ≤ n'.im) {wavelength z : ℝ} (hw : 0 < wavelength) (hz : 0 ≤ z) :
    ‖exp (I * (2 * Real.pi / wavelength * n' * snellsLawScalar c n n' * z))‖ ≤ 1 := by
  have hg : Good (n ^ 2 * (1 - c ^ 2)) n' (snellsLawScalar c n n') :=
    good_snell (mul_nonneg (sq_nonneg n) (by linarith)) (by push_cast; ring) h h1 h2
  rw [Complex.norm_exp, Real.exp_le_one_iff]
  have : I * (2 * Real.pi / wavelength * n' * snellsLawScalar c n n' * z) =
      ((2 * Real.pi / wavelength * z : ℝ) : ℂ) * (I * (n' * snellsLawScalar c n n')) := by
    push_cast; ring
  rw [this, re_ofReal_mul, mul_re, I_re, I_im]
  have p : 0 ≤ 2 * Real.pi / wavelength * z := by have := Real.pi_pos; positivity
  have := mul_nonneg p hg.wim
  nlinarith

/-- **C28**: the direction carried through a stack of layers is the one obtained from the ambient
medium directly. -/
theorem C28_stack (w : ℝ) (p : Bool) (ls : List Layer) (last : Layer) (m : Medium)
    (h : ∀ l ∈ ls, l.n w ≠ 0) :
    ((Stack.sequence ((ls ++ [last]).map .layer)).transfer w p m).1.direction =
      snellsLawScalar m.direction m.n (last.n w) ∧
    ((Stack.sequence ((ls ++ [last]).map .layer)).transfer w p m).1.n = last.n w := by
  rw [Stack.transfer_fst]
  have e : ∀ ks : List Layer, walkAll (ks.map .layer) = ks := by
    intro ks
    induction ks with
    | nil => rfl
    | cons k ks ih => rw [List.map_cons, walkAll, Stack.walk, ih]; rfl
  rw [Stack.walk, e, List.foldl_append, List.foldl_cons, List.foldl_nil]
  exact ⟨snellsLawScalar_congr (walk_transverse w ls m h) _, rfl⟩

/-- **C28**: in transparent media the scalar form agrees with the vector form `snells_law`: it is
the cosine of the refracted ray. -/
theorem C28_agrees_with_vector_form {a u b : V3} {n1 n2 : ℝ} (ha : a.dot a = 1) (hu : u.dot u = 1)
    (h1 : 0 < n1) (h2 : 0 < n2) (hau : a.dot u < 0) (h : snellsLaw a n1 n2 false u = some b) :
    snellsLawScalar ((-(a.dot u) : ℝ) : ℂ) n1 n2 = ((-(b.dot u) : ℝ) : ℂ) := by
  obtain ⟨-, -, h3, -, h4, -⟩ := C01_refraction ha hu h1 h2 hau.ne h
  rw [snellsLawScalar_eq]
  apply csqrt_unique
  · have hn : (n2 : ℂ) ≠ 0 := by exact_mod_cast h2.ne'
    have h5 : (n2 : ℂ) ^ 2 * (1 - (b.dot u : ℂ) ^ 2) = n1 ^ 2 * (1 - (a.dot u : ℂ) ^ 2) := by
      exact_mod_cast h3
    push_cast
    field_simp
    linear_combination -h5
  · simp only [ofReal_re]; nlinarith
  · simp

/-- From vacuum at 45° through glass of index 2 into index √2: the cosine is √3/2, the same as
without the glass. -/
example : ([2] ++ [(Real.sqrt 2 : ℂ)]).foldl
    (fun (m : ℂ × ℂ) n' => (n', snellsLawScalar m.2 m.1 n')) (1, (Real.sqrt 2 / 2 : ℝ)) =
    ((Real.sqrt 2 : ℂ), ((Real.sqrt 3 / 2 : ℝ) : ℂ)) := by
  rw [C28_path_independent _ _ _ _ (by simp)]
  refine Prod.ext rfl ?_
  rw [snellsLawScalar_eq]
  have h2 : (Real.sqrt 2 : ℂ) ^ 2 = 2 := by
    rw [← ofReal_pow, Real.sq_sqrt (by norm_num)]; norm_num
  have h3 : (Real.sqrt 3 : ℂ) ^ 2 = 3 := by
    rw [← ofReal_pow, Real.sq_sqrt (by norm_num)]; norm_num
  apply csqrt_unique
  · push_cast; rw [div_pow, div_pow, h2, h3]; norm_num
  · simp only [ofReal_re]; positivity
  · simp

/-- Total internal reflection: from index 2 at grazing cosine 0 into vacuum the cosine is
imaginary, and the wave decays. -/
example : snellsLawScalar 0 2 1 = I * Real.sqrt 3 := by
  rw [snellsLawScalar_eq]
  have h3 : (Real.sqrt 3 : ℂ) ^ 2 = 3 := by
    rw [← ofReal_pow, Real.sq_sqrt (by norm_num)]; norm_num
  apply csqrt_unique
  · rw [mul_pow, h3, I_sq]; norm_num
  · simp
  · simp

/-! ### C29 -/

/-- **C29**: two interfaces on top of each other are one interface. -/
theorem C29_refraction_compose {w w' w'' : ℝ} {ci cj ck ni nj nk : ℂ} {pol : Bool} {a b : M2}
    (h1 : refraction w ci cj pol ni nj none = some a)
    (h2 : refraction w' cj ck pol nj nk none = some b)
    (hik : momentum pol ci ni + momentum pol ck nk ≠ 0) :
    refraction w'' ci ck pol ni nk none = some (a * b) := by
  rw [refraction_eq_some] at *
  obtain ⟨hi, hj, -, qi, rfl⟩ := h1
  obtain ⟨-, hk, -, qj, rfl⟩ := h2
  exact ⟨hi, hk, hik, qi, interfaceMatrix_mul qi qj⟩

/-- **C29**: there is no interface between a medium and itself. -/
theorem C29_refraction_self {w : ℝ} {c n : ℂ} {pol : Bool} (hn : n ≠ 0) (hc : c ≠ 0) :
    refraction w c c pol n n none = some 1 := by
  have h := momentum_ne_zero hn hc pol
  rw [refraction_eq_some]
  refine ⟨hn, hn, ?_, h, (interfaceMatrix_self h).symm⟩
  intro h0
  apply h
  linear_combination h0 / 2

/-- **C29**: the interface seen from the other side is the inverse. -/
theorem C29_refraction_inverse {w w' : ℝ} {ci cj ni nj : ℂ} {pol : Bool} {a b : M2}
    (h1 : refraction w ci cj pol ni nj none = some a)
    (h2 : refraction w' cj ci pol nj ni none = some b) : a * b = 1 ∧ b * a = 1 := by
  rw [refraction_eq_some] at *
  obtain ⟨hi, hj, -, qi, rfl⟩ := h1
  obtain ⟨-, hk, -, qj, rfl⟩ := h2
  rw [interfaceMatrix_mul qi qj, interfaceMatrix_mul qj qi, interfaceMatrix_self qi,
    interfaceMatrix_self qj]
  exact ⟨rfl, rfl⟩

/-- **C29**: for passive media lit from a transparent one at an angle that is not grazing the
coefficients exist. -/
theorem C29_refraction_exists {w n c : ℝ} {n' : ℂ} {pol : Bool} (hn : 0 < n) (hc : 0 < c)
    (hc1 : c ≤ 1) (h : n' ≠ 0) (h1 : 0 ≤ n'.re) (h2 : 0 ≤ n'.im) :
    ∃ a, refraction w c (snellsLawScalar c n n') pol n n' none = some a ∧ a 0 0 ≠ 0 := by
  have g1 := good_ambient hn hc.le
  have g2 := good_snell (mul_nonneg (sq_nonneg n) (by nlinarith)) g1.inv h h1 h2
  have hc' : (c : ℂ) ≠ 0 := by exact_mod_cast hc.ne'
  refine ⟨_, refraction_eq_some.2 ⟨g1.ne, h, momentum_add_ne_zero g1 g2 hc' pol,
    momentum_ne_zero g1.ne hc' pol, rfl⟩, ?_⟩
  simp only [interfaceMatrix, Matrix.of_apply, Matrix.cons_val', Matrix.cons_val_zero,
    Matrix.cons_val_fin_one]
  exact div_ne_zero (momentum_add_ne_zero g1 g2 hc' pol)
    (mul_ne_zero two_ne_zero (momentum_ne_zero g1.ne hc' pol))

/-- **C29**: propagation through two thicknesses is propagation through their sum, through none is
the identity, and back is the inverse. -/
theorem C29_propagation (w : ℝ) (c n : ℂ) (h1 h2 : ℝ) :
    propagation w c h1 n * propagation w c h2 n = propagation w c (h1 + h2) n ∧
    propagation w c 0 n = 1 ∧ propagation w c h1 n * propagation w c (-h1) n = 1 := by
  refine ⟨propagation_add w c h1 h2 n, propagation_zero w c n, ?_⟩
  rw [propagation_add, add_neg_cancel, propagation_zero]

/-- **C29**: a layer of the medium it is embedded in changes nothing but the phase. -/
theorem C29_same_medium (w : ℝ) (pol : Bool) (l : Layer) (m : Medium) (hv : m.valid = true)
    (hl : l.interface = none) (hn : l.n w = m.n) (h0 : m.n ≠ 0) (hc : 0 < m.direction.re)
    (hthin : Real.exp (2 * Real.pi * l.thickness / w * (m.n * m.direction).im) < 10 ^ 10) :
    l.transfer w pol m = (m, some (propagation w m.direction l.thickness m.n)) := by
  have hd : snellsLawScalar m.direction m.n m.n = m.direction := by
    rw [snellsLawScalar_eq]
    apply csqrt_unique _ hc.le fun h => absurd h hc.ne'
    field_simp
    ring
  have hcne : m.direction ≠ 0 := by rintro h; rw [h] at hc; simp at hc
  unfold Layer.transfer
  simp only
  rw [hn, hd, hv, hl, C29_refraction_self h0 hcne, norm_propagation]
  simp only [hthin, decide_true, Bool.and_self, if_true, Option.map_some, one_mul]
  cases m
  simp_all

/-- Vacuum to glass (3/2) to vacuum at normal incidence: the matrix of the first interface is
`[[5/4, -1/4], [-1/4, 5/4]]`. -/
example : refraction 1 1 1 true 1 (3 / 2) none =
    some !![5 / 4, -1 / 4; -1 / 4, 5 / 4] := by
  rw [refraction_eq_some]
  refine ⟨by norm_num, by norm_num, ?_, ?_, ?_⟩
  · rw [momentum_s, momentum_s]; norm_num
  · rw [momentum_s]; norm_num
  · rw [momentum_s, momentum_s]; unfold interfaceMatrix; norm_num

/-! ### C30 -/

/-- **C30**: an empty sequence does nothing, a sequence of one is its element, and a concatenation
is the product of the parts; the second part starts in the medium in which the first ends. -/
theorem C30_concatenation (w : ℝ) (p : Bool) (a b : List Stack) (s : Stack) (m : Medium) :
    (Stack.sequence []).transfer w p m = (m, some 1) ∧
    (Stack.sequence [s]).transfer w p m = s.transfer w p m ∧
    (Stack.sequence (a ++ b)).transfer w p m =
      (((Stack.sequence b).transfer w p ((Stack.sequence a).transfer w p m).1).1,
        mul? ((Stack.sequence a).transfer w p m).2
          ((Stack.sequence b).transfer w p ((Stack.sequence a).transfer w p m).1).2) := by
  refine ⟨by simp [Stack.transfer, transferAll],
    by simp [Stack.transfer, transferAll, mul?_one_left], ?_⟩
  simp only [Stack.transfer]
  rw [transferAll_append, transferAll_acc]

/-- **C30**: a sequence nested in a sequence is the same as its layers listed in place. -/
theorem C30_nesting (w : ℝ) (p : Bool) (a b c : List Stack) (m : Medium) :
    (Stack.sequence (a ++ [.sequence b] ++ c)).transfer w p m =
      (Stack.sequence (a ++ b ++ c)).transfer w p m := by
  simp only [Stack.transfer]
  rw [transferAll_append, transferAll_append, transferAll_append _ _ (a ++ b), transferAll_append]
  have : ∀ m acc, transferAll w p [.sequence b] m acc = transferAll w p b m acc := by
    intro m acc
    rw [transferAll_acc w p b]
    simp only [transferAll, Stack.transfer]
  rw [this]

mutual
/-- The layers of a stack from left to right, periods written out (specification). -/
def Stack.flat : Stack → List Layer
  | .layer l => [l]
  | .sequence ls => flatAll ls
  | .periodic ls num => (List.replicate num (flatAll ls)).flatten
/-- See `Stack.flat`. -/
def flatAll : List Stack → List Layer
  | [] => []
  | l :: ls => l.flat ++ flatAll ls
end

theorem thicknessAll_acc (ls : List Stack) (acc : ℝ) :
    thicknessAll ls acc = acc + thicknessAll ls 0 := by
  induction ls generalizing acc with
  | nil => simp [thicknessAll]
  | cons l ls ih => simp only [thicknessAll]; rw [ih, ih (0 + _)]; ring

mutual
theorem thickness_flat : (s : Stack) → s.thickness = (s.flat.map Layer.thickness).sum
  | .layer l => by simp [Stack.thickness, Stack.flat]
  | .sequence ls => by simp only [Stack.thickness, Stack.flat]; exact thickness_flatAll ls
  | .periodic ls num => by
    simp only [Stack.thickness, Stack.flat]
    rw [thickness_flatAll ls]
    induction num with
    | zero => simp
    | succ k ih =>
      rw [List.replicate_succ, List.flatten_cons, List.map_append, List.sum_append, ← ih]
      push_cast; ring
theorem thickness_flatAll : (ls : List Stack) →
    thicknessAll ls 0 = ((flatAll ls).map Layer.thickness).sum
  | [] => by simp [thicknessAll, flatAll]
  | l :: ls => by
    simp only [thicknessAll, flatAll]
    rw [thicknessAll_acc, thickness_flatAll ls, thickness_flat l, List.map_append, List.sum_append]
    ring
end

/-- **C30**: the thickness of any stack is the sum of the thicknesses of all its layers, a layer of
a periodic sequence counted once for every period. -/
theorem C30_thickness (s : Stack) : s.thickness = (s.flat.map Layer.thickness).sum :=
  thickness_flat s

/-- A stack with a periodic part: 10 + 3 × (2 + 1) = 19. -/
example (f : ℝ → ℂ) : (Stack.sequence [.layer ⟨f, 10, none⟩,
    .periodic [.layer ⟨f, 2, none⟩, .layer ⟨f, 1, none⟩] 3]).thickness = 19 := by
  rw [C30_thickness]
  simp [Stack.flat, flatAll, List.replicate]
  norm_num

/-! ### C31 -/

/-- **C31**: from two periods on, a periodic sequence is the list of its layers repeated, in
matrix, final medium and mask. -/
theorem C31_two_or_more (w : ℝ) (p : Bool) (ls : List Stack) (m : Medium) (num : ℕ)
    (h : ∀ l ∈ walkAll ls, l.n w ≠ 0) (hnum : 2 ≤ num) :
    (Stack.periodic ls num).transfer w p m =
      (Stack.sequence (List.replicate num ls).flatten).transfer w p m := by
  obtain ⟨k, rfl⟩ : ∃ k, num = k + 2 := ⟨num - 2, by omega⟩
  simp only [Stack.transfer]
  have hs : (transferAll w p ls (transferAll w p ls m (some 1)).1 (some 1)).1 =
      (transferAll w p ls m (some 1)).1 := by
    rw [transferAll_fst, transferAll_fst]; exact walk_idem w _ _ h
  rw [List.replicate_succ, List.flatten_cons, transferAll_append,
    transferAll_replicate w p ls m h (k + 1), hs, if_neg (by omega)]
  have e : (((k + 2 : ℕ) : ℤ) - 1) = ((k + 1 : ℕ) : ℤ) := by push_cast; ring
  rw [e]
  simp only [zpow_natCast]

/-- **C31**, one period: the same, provided that a second period would be finite.
Full claim: for every number of periods.  Missing: zero periods, and one period that ends exactly
at the critical angle; both are wrong in the code, see the counterexamples. -/
theorem C31_periodic_partial (w : ℝ) (p : Bool) (ls : List Stack) (m : Medium) (num : ℕ)
    (h : ∀ l ∈ walkAll ls, l.n w ≠ 0) (hnum : 1 ≤ num)
    (hfin : num = 1 → ((Stack.sequence (ls ++ ls)).transfer w p m).2 ≠ none) :
    (Stack.periodic ls num).transfer w p m =
      (Stack.sequence (List.replicate num ls).flatten).transfer w p m := by
  by_cases h2 : 2 ≤ num
  · exact C31_two_or_more w p ls m num h h2
  · have h1 : num = 1 := by omega
    subst h1
    have hf := hfin rfl
    simp only [Stack.transfer] at hf ⊢
    rw [transferAll_append, transferAll_acc] at hf
    have hs : (transferAll w p ls (transferAll w p ls m (some 1)).1 (some 1)).1 =
        (transferAll w p ls m (some 1)).1 := by
      rw [transferAll_fst, transferAll_fst]; exact walk_idem w _ _ h
    rw [hs]
    simp only [List.replicate_one, List.flatten_cons, List.flatten_nil, List.append_nil,
      Nat.cast_one, sub_self, zpow_zero]
    simp only at hf
    cases h3 : (transferAll w p ls (transferAll w p ls m (some 1)).1 (some 1)).2 with
    | none => rw [h3, mul?_none_right] at hf; exact absurd rfl hf
    | some b =>
      simp only [Option.map_some, mul?_one_right]

/-- **C31**: whenever the code returns a finite matrix for one or more periods it is that of the
repeated list. -/
theorem C31_finite_result_partial (w : ℝ) (p : Bool) (ls : List Stack) (m : Medium) (num : ℕ)
    (h : ∀ l ∈ walkAll ls, l.n w ≠ 0) (hnum : 1 ≤ num) {a : M2}
    (ha : ((Stack.periodic ls num).transfer w p m).2 = some a) :
    (Stack.periodic ls num).transfer w p m =
      (Stack.sequence (List.replicate num ls).flatten).transfer w p m := by
  apply C31_periodic_partial w p ls m num h hnum
  rintro rfl hf
  simp only [Stack.transfer] at hf ha
  rw [transferAll_append, transferAll_acc] at hf
  simp only at hf
  generalize transferAll w p ls m (some 1) = t at *
  generalize transferAll w p ls t.1 (some 1) = u at *
  cases h1 : t.2 with
  | none => rw [h1] at ha; simp [mul?_none_left] at ha
  | some x =>
    cases h2 : u.2 with
    | none => rw [h2] at ha; simp [mul?_none_right] at ha
    | some y => rw [h1, h2] at hf; simp [mul?_some] at hf

mutual
/-- Every periodic sequence in a stack has at least one period. -/
def Stack.Counted : Stack → Prop
  | .layer _ => True
  | .sequence ls => CountedAll ls
  | .periodic ls num => 1 ≤ num ∧ CountedAll ls
/-- See `Stack.Counted`. -/
def CountedAll : List Stack → Prop
  | [] => True
  | l :: ls => l.Counted ∧ CountedAll ls
end

theorem walkAll_layers (ks : List Layer) : walkAll (ks.map .layer) = ks := by
  induction ks with
  | nil => rfl
  | cons k ks ih => rw [List.map_cons, walkAll, Stack.walk, ih]; rfl

mutual
theorem transfer_flat (w : ℝ) (p : Bool) : (s : Stack) → (m : Medium) → s.Counted →
    (∀ l ∈ s.flat, l.n w ≠ 0) → (s.transfer w p m).2 ≠ none →
    s.transfer w p m = transferAll w p (s.flat.map .layer) m (some 1)
  | .layer l, m, _, _, _ => by
    simp [Stack.transfer, Stack.flat, transferAll, mul?_one_left]
  | .sequence ls, m, hc, hn, hs => by
    simp only [Stack.transfer, Stack.flat, Stack.Counted] at *
    exact transferAll_flat w p ls m hc hn hs
  | .periodic ls num, m, hc, hn, hs => by
    simp only [Stack.Counted] at hc
    obtain ⟨h1, hc⟩ := hc
    have hn' : ∀ l ∈ flatAll ls, l.n w ≠ 0 := by
      intro l hl
      apply hn
      simp only [Stack.flat, List.mem_flatten, List.mem_replicate]
      exact ⟨_, ⟨by omega, rfl⟩, hl⟩
    have hs' := hs
    simp only [Stack.transfer] at hs
    have hs1 : (transferAll w p ls m (some 1)).2 ≠ none := by
      intro h; rw [h] at hs; exact hs (mul?_none_left _)
    have e1 := transferAll_flat w p ls m hc hn' hs1
    have hs2 : (transferAll w p ls (transferAll w p ls m (some 1)).1 (some 1)).2 ≠ none := by
      intro h; rw [h] at hs; exact hs (mul?_none_right _)
    have e2 := transferAll_flat w p ls (transferAll w p ls m (some 1)).1 hc hn' hs2
    have e3 : (Stack.periodic ls num).transfer w p m =
        (Stack.periodic ((flatAll ls).map .layer) num).transfer w p m := by
      simp only [Stack.transfer]
      rw [e2, e1]
    obtain ⟨a, ha⟩ := Option.ne_none_iff_exists'.1 (e3 ▸ hs')
    rw [e3, C31_finite_result_partial w p _ m num (by rw [walkAll_layers]; exact hn') h1 ha]
    simp only [Stack.transfer, Stack.flat, List.map_flatten, List.map_replicate]
theorem transferAll_flat (w : ℝ) (p : Bool) : (ls : List Stack) → (m : Medium) → CountedAll ls →
    (∀ l ∈ flatAll ls, l.n w ≠ 0) → (transferAll w p ls m (some 1)).2 ≠ none →
    transferAll w p ls m (some 1) = transferAll w p ((flatAll ls).map .layer) m (some 1)
  | [], m, _, _, _ => by simp [transferAll, flatAll]
  | l :: ls, m, hc, hn, hs => by
    simp only [CountedAll] at hc
    simp only [flatAll, List.mem_append] at hn
    simp only [transferAll] at hs ⊢
    rw [mul?_one_left, transferAll_acc] at hs ⊢
    have hs1 : (l.transfer w p m).2 ≠ none := by
      intro h; rw [h] at hs; exact hs (mul?_none_left _)
    have hs2 : (transferAll w p ls (l.transfer w p m).1 (some 1)).2 ≠ none := by
      intro h; rw [h] at hs; exact hs (mul?_none_right _)
    have e1 := transfer_flat w p l m hc.1 (fun k hk => hn k (Or.inl hk)) hs1
    have e2 := transferAll_flat w p ls _ hc.2 (fun k hk => hn k (Or.inr hk)) hs2
    rw [e2, e1]
    simp only [flatAll, List.map_append]
    rw [transferAll_append, ← transferAll_acc]
end

/-- **C30**, **C31**: however sequences and periodic sequences are nested (with at least one period
each), a finite transfer is that of the plain list of all layers with the periods written out. -/
theorem C31_any_nesting_partial (w : ℝ) (p : Bool) (s : Stack) (m : Medium) (hc : s.Counted)
    (hn : ∀ l ∈ s.flat, l.n w ≠ 0) {a : M2} (ha : (s.transfer w p m).2 = some a) :
    s.transfer w p m = (Stack.sequence (s.flat.map .layer)).transfer w p m := by
  rw [transfer_flat w p s m hc hn (by rw [ha]; simp)]
  simp only [Stack.transfer]

/-- **C31** is violated for zero periods: the code still moves into the medium of the period. -/
theorem C31_zero_periods_counterexample :
    ∃ ls : List Stack, ((Stack.periodic ls 0).transfer 1 true ⟨1, 1, true⟩).1.n ≠
      ((Stack.sequence (List.replicate 0 ls).flatten).transfer 1 true ⟨1, 1, true⟩).1.n := by
  refine ⟨[.layer ⟨fun _ => 2, 1, none⟩], ?_⟩
  rw [Stack.transfer_fst, Stack.transfer_fst]
  simp [Stack.walk, walkAll, Layer.next]

/-- **C31** is violated for one period that ends exactly at the critical angle: light at 30° in an
index of 2 on a single layer of index 1.  The list has a finite matrix, the periodic sequence has
not. -/
theorem C31_critical_angle_counterexample :
    ∃ (ls : List Stack) (m : Medium), (∀ l ∈ walkAll ls, l.n 1 ≠ 0) ∧
      ((Stack.periodic ls 1).transfer 1 true m).2 = none ∧
      ((Stack.sequence (List.replicate 1 ls).flatten).transfer 1 true m).2 ≠ none := by
  have h3 : ((Real.sqrt 3 / 2 : ℝ) : ℂ) ^ 2 = 3 / 4 := by
    rw [← ofReal_pow, div_pow, Real.sq_sqrt (by norm_num)]; push_cast; norm_num
  have hpos : ((Real.sqrt 3 / 2 : ℝ) : ℂ) ≠ 0 := by
    intro h; rw [h] at h3; norm_num at h3
  have hs : snellsLawScalar ((Real.sqrt 3 / 2 : ℝ) : ℂ) 2 1 = 0 := by
    rw [snellsLawScalar_eq, h3]; norm_num [csqrt_zero]
  have hs' : snellsLawScalar 0 1 1 = 0 := by
    rw [snellsLawScalar_eq]; norm_num [csqrt_zero]
  have hp : ‖propagation 1 0 1 1 0 0‖ < 10 ^ 10 := by
    rw [norm_propagation]; norm_num
  let l : Layer := ⟨fun _ => 1, 1, none⟩
  have t1 : l.transfer 1 true ⟨2, ((Real.sqrt 3 / 2 : ℝ) : ℂ), true⟩ =
      (⟨1, 0, true⟩, (refraction 1 ((Real.sqrt 3 / 2 : ℝ) : ℂ) 0 true 2 1 none).map
        (· * propagation 1 0 1 1)) := by
    unfold Layer.transfer
    simp only [l, hs]
    simp only [hp, decide_true, Bool.and_self, if_true]
  have t2 : (l.transfer 1 true ⟨1, 0, true⟩).2 = none := by
    unfold Layer.transfer
    simp only [l, hs']
    simp only [hp, decide_true, Bool.and_self, if_true]
    have : refraction 1 0 0 true 1 1 none = none := by
      unfold refraction
      simp [momentum_s]
    rw [this]; rfl
  refine ⟨[.layer l], ⟨2, ((Real.sqrt 3 / 2 : ℝ) : ℂ), true⟩, ?_, ?_, ?_⟩
  · simp [walkAll, Stack.walk, l]
  · simp only [Stack.transfer, transferAll, t1, mul?_one_left, t2]
    simp [mul?_none_right]
  · simp only [Stack.transfer, transferAll, t1, mul?_one_left, List.replicate_one,
      List.flatten_cons, List.flatten_nil, List.append_nil]
    have : refraction 1 ((Real.sqrt 3 / 2 : ℝ) : ℂ) 0 true 2 1 none =
        some (interfaceMatrix (2 * ((Real.sqrt 3 / 2 : ℝ) : ℂ)) (1 * 0)) := by
      rw [refraction_eq_some]
      simp only [momentum_s]
      refine ⟨by norm_num, by norm_num, ?_, mul_ne_zero (by norm_num) hpos, trivial⟩
      simpa using hpos
    rw [this]
    simp

/-- Three periods of two layers are six layers. -/
example (w : ℝ) (p : Bool) (a b : Layer) (m : Medium) (ha : a.n w ≠ 0) (hb : b.n w ≠ 0) :
    (Stack.periodic [.layer a, .layer b] 3).transfer w p m =
      (Stack.sequence [.layer a, .layer b, .layer a, .layer b, .layer a, .layer b]).transfer
        w p m := by
  rw [C31_two_or_more w p _ m 3 (by simp [walkAll, Stack.walk, ha, hb]) (by norm_num)]
  rfl

end Optika
