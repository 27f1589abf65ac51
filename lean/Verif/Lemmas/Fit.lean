import Verif.Model.Fit
import Mathlib.LinearAlgebra.Matrix.ToLinearEquiv
import Mathlib.LinearAlgebra.Finsupp.LinearCombination
import Mathlib.Algebra.MvPolynomial.Funext
import Mathlib.Algebra.MvPolynomial.Degrees
import Mathlib.Algebra.Algebra.Operations
import Mathlib.Algebra.Algebra.Pi
import Mathlib.LinearAlgebra.Matrix.DotProduct

/-!
# Least squares
-/

namespace Optika
open Matrix

/-- Functions of wavelength and position which are polynomials of degree at most `d`. -/
def PolyFun (d : ℕ) : Submodule ℝ (Spectral → ℝ) :=
  Submodule.span ℝ (Set.range fun e : fitExponents d => fitMonomial e)

theorem mem_exponents {d : ℕ} {e : ℕ × ℕ × ℕ} : e ∈ fitExponents d ↔ e.1 + e.2.1 + e.2.2 ≤ d := by
  unfold fitExponents
  simp only [Finset.mem_filter, Finset.mem_product, Finset.mem_range]
  constructor
  · exact fun h => h.2
  · intro h
    exact ⟨⟨by omega, by omega, by omega⟩, h⟩

theorem mem_polyFun {d : ℕ} {f : Spectral → ℝ} : f ∈ PolyFun d ↔
    ∃ c : fitExponents d → ℝ, ∀ p, f p = ∑ e, c e * fitMonomial e p := by
  unfold PolyFun
  rw [Submodule.mem_span_range_iff_exists_fun]
  constructor
  · rintro ⟨c, rfl⟩
    exact ⟨c, fun p => by simp⟩
  · rintro ⟨c, hc⟩
    refine ⟨c, ?_⟩
    funext p
    rw [hc]
    simp

theorem monomial_mem {d : ℕ} {e : ℕ × ℕ × ℕ} (h : e.1 + e.2.1 + e.2.2 ≤ d) :
    fitMonomial e ∈ PolyFun d :=
  Submodule.subset_span ⟨⟨e, mem_exponents.2 h⟩, rfl⟩

theorem polyFun_mono {d d' : ℕ} (h : d ≤ d') : PolyFun d ≤ PolyFun d' := by
  unfold PolyFun
  apply Submodule.span_le.2
  rintro _ ⟨e, rfl⟩
  exact monomial_mem (le_trans (mem_exponents.1 e.2) h)

theorem polyFun_mul {a b : ℕ} {f g : Spectral → ℝ} (hf : f ∈ PolyFun a) (hg : g ∈ PolyFun b) :
    f * g ∈ PolyFun (a + b) := by
  have h := Submodule.mul_mem_mul hf hg
  unfold PolyFun at h
  rw [Submodule.span_mul_span] at h
  refine Submodule.span_le.2 ?_ h
  rintro _ ⟨_, ⟨e, rfl⟩, _, ⟨e', rfl⟩, rfl⟩
  have he := mem_exponents.1 e.2
  have he' := mem_exponents.1 e'.2
  have : (fun e : fitExponents a => fitMonomial e) e * (fun e : fitExponents b => fitMonomial e) e'
      = fitMonomial (e.1.1 + e'.1.1, e.1.2.1 + e'.1.2.1, e.1.2.2 + e'.1.2.2) := by
    funext p
    simp only [Pi.mul_apply, fitMonomial, pow_add]
    ring
  show (fun e : fitExponents a => fitMonomial e) e * (fun e : fitExponents b => fitMonomial e) e' ∈ _
  rw [this]
  apply monomial_mem
  dsimp only
  omega

theorem polyFun_one : (1 : Spectral → ℝ) ∈ PolyFun 0 := by
  have : (1 : Spectral → ℝ) = fitMonomial (0, 0, 0) := by funext p; simp [fitMonomial]
  rw [this]
  exact monomial_mem (by simp)

theorem polyFun_pow {f : Spectral → ℝ} (hf : f ∈ PolyFun 1) (n : ℕ) : f ^ n ∈ PolyFun n := by
  induction n with
  | zero => rw [pow_zero]; exact polyFun_one
  | succ n ih => rw [pow_succ]; exact polyFun_mul ih hf

theorem polyFun_const (a : ℝ) (d : ℕ) : (fun _ => a) ∈ PolyFun d := by
  have : (fun _ : Spectral => a) = a • (1 : Spectral → ℝ) := by funext p; simp
  rw [this]
  exact Submodule.smul_mem _ _ (polyFun_mono (Nat.zero_le d) polyFun_one)

theorem polyFun_coord : (fun p : Spectral => p.wavelength) ∈ PolyFun 1 ∧
    (fun p : Spectral => p.x) ∈ PolyFun 1 ∧ (fun p : Spectral => p.y) ∈ PolyFun 1 := by
  refine ⟨?_, ?_, ?_⟩
  · have : (fun p : Spectral => p.wavelength) = fitMonomial (1, 0, 0) := by
      funext p; simp [fitMonomial]
    rw [this]; exact monomial_mem (by simp)
  · have : (fun p : Spectral => p.x) = fitMonomial (0, 1, 0) := by
      funext p; simp [fitMonomial]
    rw [this]; exact monomial_mem (by simp)
  · have : (fun p : Spectral => p.y) = fitMonomial (0, 0, 1) := by
      funext p; simp [fitMonomial]
    rw [this]; exact monomial_mem (by simp)

/-- Polynomials in functions of degree one. -/
theorem polyFun_comp {d : ℕ} {f : Spectral → ℝ} (hf : f ∈ PolyFun d) {a b c : Spectral → ℝ}
    (ha : a ∈ PolyFun 1) (hb : b ∈ PolyFun 1) (hc : c ∈ PolyFun 1) :
    (fun p => f ⟨a p, b p, c p⟩) ∈ PolyFun d := by
  obtain ⟨k, hk⟩ := mem_polyFun.1 hf
  have : (fun p => f ⟨a p, b p, c p⟩) = ∑ e : fitExponents d,
      k e • (a ^ e.1.1 * b ^ e.1.2.1 * c ^ e.1.2.2) := by
    funext p
    rw [hk]
    simp [fitMonomial]
  rw [this]
  apply Submodule.sum_mem
  intro e _
  apply Submodule.smul_mem
  exact polyFun_mono (mem_exponents.1 e.2)
    (polyFun_mul (polyFun_mul (polyFun_pow ha _) (polyFun_pow hb _)) (polyFun_pow hc _))

theorem polyFun_sub {d : ℕ} {f : Spectral → ℝ} (hf : f ∈ PolyFun d) (k : Spectral) :
    (fun p => f (p.sub k)) ∈ PolyFun d := by
  apply polyFun_comp hf (a := fun p => p.wavelength - k.wavelength) (b := fun p => p.x - k.x)
    (c := fun p => p.y - k.y)
  · exact Submodule.sub_mem _ polyFun_coord.1 (polyFun_const _ _)
  · exact Submodule.sub_mem _ polyFun_coord.2.1 (polyFun_const _ _)
  · exact Submodule.sub_mem _ polyFun_coord.2.2 (polyFun_const _ _)

theorem polyFun_add {d : ℕ} {f : Spectral → ℝ} (hf : f ∈ PolyFun d) (k : Spectral) :
    (fun p => f (p.add k)) ∈ PolyFun d := by
  apply polyFun_comp hf (a := fun p => p.wavelength + k.wavelength) (b := fun p => p.x + k.x)
    (c := fun p => p.y + k.y)
  · exact Submodule.add_mem _ polyFun_coord.1 (polyFun_const _ _)
  · exact Submodule.add_mem _ polyFun_coord.2.1 (polyFun_const _ _)
  · exact Submodule.add_mem _ polyFun_coord.2.2 (polyFun_const _ _)

/-- The coordinates of a point. -/
def Spectral.coord (p : Spectral) : Fin 3 → ℝ := ![p.wavelength, p.x, p.y]

theorem polyFun_eval {d : ℕ} (q : MvPolynomial (Fin 3) ℝ) (hq : q.totalDegree ≤ d) :
    (fun p => MvPolynomial.eval p.coord q) ∈ PolyFun d := by
  have : (fun p => MvPolynomial.eval (Spectral.coord p) q)
      = ∑ s ∈ q.support, q.coeff s • fitMonomial (s 0, s 1, s 2) := by
    funext p
    rw [MvPolynomial.eval_eq']
    simp only [Finset.sum_apply, Pi.smul_apply, smul_eq_mul, Fin.prod_univ_three, fitMonomial,
      Spectral.coord]
    rfl
  rw [this]
  apply Submodule.sum_mem
  intro s hs
  apply Submodule.smul_mem
  apply monomial_mem
  have h1 := MvPolynomial.le_totalDegree hs
  have h2 : s.sum (fun _ e => e) = s 0 + s 1 + s 2 := by
    rw [Finsupp.sum_fintype _ _ (fun _ => rfl), Fin.sum_univ_three]
  dsimp only
  omega

/-- Every function in `PolyFun` comes from a polynomial. -/
theorem polyFun_exists {d : ℕ} {f : Spectral → ℝ} (hf : f ∈ PolyFun d) :
    ∃ q : MvPolynomial (Fin 3) ℝ, q.totalDegree ≤ d ∧ ∀ p, f p = MvPolynomial.eval p.coord q := by
  obtain ⟨c, hc⟩ := mem_polyFun.1 hf
  refine ⟨∑ e : fitExponents d, MvPolynomial.C (c e) * (MvPolynomial.X 0 ^ e.1.1
    * MvPolynomial.X 1 ^ e.1.2.1 * MvPolynomial.X 2 ^ e.1.2.2), ?_, ?_⟩
  · apply MvPolynomial.totalDegree_finsetSum_le
    intro e _
    have he := mem_exponents.1 e.2
    refine le_trans (MvPolynomial.totalDegree_mul _ _) ?_
    rw [MvPolynomial.totalDegree_C, zero_add]
    refine le_trans (MvPolynomial.totalDegree_mul _ _) ?_
    have h1 := MvPolynomial.totalDegree_mul (MvPolynomial.X 0 ^ e.1.1 : MvPolynomial (Fin 3) ℝ)
      (MvPolynomial.X 1 ^ e.1.2.1)
    simp only [MvPolynomial.totalDegree_X_pow] at h1 ⊢
    omega
  · intro p
    rw [hc]
    simp [fitMonomial, Spectral.coord]

/-- Monomials are independent. -/
theorem monomials_independent {d : ℕ} {c : fitExponents d → ℝ}
    (h : ∀ p : Spectral, ∑ e, c e * fitMonomial e p = 0) : c = 0 := by
  let s : ℕ × ℕ × ℕ → Fin 3 →₀ ℕ := fun e => Finsupp.equivFunOnFinite.symm ![e.1, e.2.1, e.2.2]
  have hs : Function.Injective s := by
    intro a b hab
    have h0 := DFunLike.congr_fun hab 0
    have h1 := DFunLike.congr_fun hab 1
    have h2 := DFunLike.congr_fun hab 2
    simp [s] at h0 h1 h2
    exact Prod.ext h0 (Prod.ext h1 h2)
  let q : MvPolynomial (Fin 3) ℝ := ∑ e : fitExponents d, MvPolynomial.monomial (s e) (c e)
  have hq : q = 0 := by
    apply MvPolynomial.funext
    intro x
    have := h ⟨x 0, x 1, x 2⟩
    rw [map_zero, ← this]
    simp only [q, map_sum, MvPolynomial.eval_monomial]
    apply Finset.sum_congr rfl
    intro e _
    rw [Finsupp.prod_fintype _ _ (fun _ => pow_zero _), Fin.prod_univ_three]
    simp [s, fitMonomial]
  funext e
  have := congrArg (MvPolynomial.coeff (s e)) hq
  simp only [q, MvPolynomial.coeff_sum, MvPolynomial.coeff_monomial, MvPolynomial.coeff_zero] at this
  rw [Finset.sum_eq_single e] at this
  · simpa using this
  · intro b _ hb
    apply if_neg
    intro hh
    exact hb (Subtype.ext (hs hh))
  · intro hh
    exact absurd (Finset.mem_univ e) hh

/-- The points determine a polynomial of degree `d`. -/
def Unisolvent (d : ℕ) (points : List Spectral) : Prop :=
  ∀ q : MvPolynomial (Fin 3) ℝ, q.totalDegree ≤ d →
    (∀ p ∈ points, MvPolynomial.eval p.coord q = 0) → q = 0

theorem unisolvent_iff {d : ℕ} {points : List Spectral} : Unisolvent d points ↔
    ∀ g ∈ PolyFun d, (∀ p ∈ points, g p = 0) → g = 0 := by
  constructor
  · intro h g hg h0
    obtain ⟨q, hq, hgq⟩ := polyFun_exists hg
    have := h q hq fun p hp => by rw [← hgq]; exact h0 p hp
    funext p
    rw [hgq, this]
    simp
  · intro h q hq h0
    have := h _ (polyFun_eval q hq) h0
    apply MvPolynomial.funext
    intro x
    have h2 := congrFun this ⟨x 0, x 1, x 2⟩
    have e : Spectral.coord ⟨x 0, x 1, x 2⟩ = x := by
      funext i
      fin_cases i <;> rfl
    rw [e] at h2
    simpa using h2

theorem gram_zero {m n : Type} [Fintype m] [Fintype n] (a : Matrix m n ℝ) (c : n → ℝ)
    (h : (aᵀ * a) *ᵥ c = 0) : a *ᵥ c = 0 := by
  have h1 : (a *ᵥ c) ⬝ᵥ (a *ᵥ c) = 0 := by
    rw [← Matrix.mulVec_mulVec] at h
    rw [dotProduct_mulVec, ← mulVec_transpose, h, zero_dotProduct]
  exact dotProduct_self_eq_zero.1 h1

theorem design_mulVec {d : ℕ} {center : Spectral} {points : List (Spectral × ℝ)}
    (c : fitExponents d → ℝ) (i : Fin points.length) :
    (fitDesign d center points *ᵥ c) i = ∑ e, c e * fitMonomial e (points[i].1.sub center) := by
  show ∑ e : fitExponents d, fitMonomial e (points[i].1.sub center) * c e = _
  apply Finset.sum_congr rfl
  intro e _
  rw [mul_comm]

theorem sub_add_spectral (p k : Spectral) : (p.sub k).add k = p := by
  simp [Spectral.sub, Spectral.add]

theorem add_sub_spectral (p k : Spectral) : (p.add k).sub k = p := by
  simp [Spectral.sub, Spectral.add]

/-- Polynomials, in coordinates relative to a centre. -/
theorem polyFun_centred {d : ℕ} {g : Spectral → ℝ} (hg : g ∈ PolyFun d) (k : Spectral) :
    ∃ c : fitExponents d → ℝ, ∀ p, g p = ∑ e, c e * fitMonomial e (p.sub k) := by
  obtain ⟨c, hc⟩ := mem_polyFun.1 (polyFun_add hg k)
  refine ⟨c, fun p => ?_⟩
  rw [← hc, sub_add_spectral]

theorem centred_mem {d : ℕ} (c : fitExponents d → ℝ) (k : Spectral) :
    (fun p : Spectral => ∑ e, c e * fitMonomial e (p.sub k)) ∈ PolyFun d :=
  polyFun_sub (f := fun p => ∑ e, c e * fitMonomial e p) (mem_polyFun.2 ⟨c, fun _ => rfl⟩) k

theorem unisolvent_det {d : ℕ} {center : Spectral} {points : List (Spectral × ℝ)} :
    ((fitDesign d center points)ᵀ * fitDesign d center points).det ≠ 0 ↔
      Unisolvent d (points.map Prod.fst) := by
  rw [unisolvent_iff]
  constructor
  · intro h g hg h0
    obtain ⟨c, hc⟩ := polyFun_centred hg center
    have h1 : fitDesign d center points *ᵥ c = 0 := by
      funext i
      rw [design_mulVec, ← hc]
      exact h0 _ (List.mem_map.2 ⟨points[i], List.getElem_mem _, rfl⟩)
    have h2 : c = 0 := by
      by_contra hne
      exact h (Matrix.exists_mulVec_eq_zero_iff.1 ⟨c, hne, by
        rw [← Matrix.mulVec_mulVec, h1, mulVec_zero]⟩)
    funext p
    rw [hc, h2]
    simp
  · intro h hdet
    obtain ⟨c, hne, hc⟩ := Matrix.exists_mulVec_eq_zero_iff.2 hdet
    have h1 := gram_zero _ _ hc
    have h2 := h _ (centred_mem c center) (by
      intro p hp
      obtain ⟨q, hq, rfl⟩ := List.mem_map.1 hp
      obtain ⟨i, hi, rfl⟩ := List.getElem_of_mem hq
      have := congrFun h1 ⟨i, hi⟩
      rw [design_mulVec] at this
      exact this)
    apply hne
    apply monomials_independent
    intro p
    have := congrFun h2 (p.add center)
    rw [add_sub_spectral] at this
    exact this

/-- What a least-squares fit is, without reference to how it is computed. -/
theorem polyFit_iff {d : ℕ} {center : Spectral} {points : List (Spectral × ℝ)}
    {f : Spectral → ℝ} : polyFit d center points = some f ↔
    f ∈ PolyFun d ∧ Unisolvent d (points.map Prod.fst) ∧
      ∀ g ∈ PolyFun d, (points.map fun q => (f q.1 - q.2) * g q.1).sum = 0 := by
  classical
  have key : ∀ f, polyFit d center points = some f → f ∈ PolyFun d ∧
      Unisolvent d (points.map Prod.fst) ∧
      ∀ g ∈ PolyFun d, (points.map fun q => (f q.1 - q.2) * g q.1).sum = 0 := by
    intro f h
    unfold polyFit at h
    dsimp only at h
    split_ifs at h with hdet
    injection h with h
    subst h
    refine ⟨centred_mem _ _, unisolvent_det.1 hdet, ?_⟩
    intro g hg
    obtain ⟨c, hc⟩ := polyFun_centred hg center
    set a := fitDesign d center points with ha
    set y : Fin points.length → ℝ := fun i => (points.get i).2 with hy
    have hn : aᵀ *ᵥ (a *ᵥ ((aᵀ * a)⁻¹ *ᵥ (aᵀ *ᵥ y)) - y) = 0 := by
      rw [mulVec_sub, Matrix.mulVec_mulVec, Matrix.mulVec_mulVec,
        Matrix.mul_nonsing_inv _ (isUnit_iff_ne_zero.2 hdet), one_mulVec, sub_self]
    rw [← Fin.sum_univ_fun_getElem]
    have e : ∀ i : Fin points.length,
        ((∑ e, ((aᵀ * a)⁻¹ *ᵥ (aᵀ *ᵥ y)) e * fitMonomial e (points[i].1.sub center))
          - points[i].2) * g points[i].1
        = (a *ᵥ ((aᵀ * a)⁻¹ *ᵥ (aᵀ *ᵥ y)) - y) i * (a *ᵥ c) i := by
      intro i
      rw [Pi.sub_apply, ha, design_mulVec, design_mulVec, ← hc]
      rfl
    refine Eq.trans (Finset.sum_congr rfl fun i _ => e i) ?_
    show (a *ᵥ ((aᵀ * a)⁻¹ *ᵥ (aᵀ *ᵥ y)) - y) ⬝ᵥ (a *ᵥ c) = 0
    rw [dotProduct_mulVec, ← mulVec_transpose, hn, zero_dotProduct]
  constructor
  · exact key f
  · rintro ⟨hf, hu, ho⟩
    have hdet := (unisolvent_det (center := center) (points := points)).2 hu
    obtain ⟨f', hf'⟩ : ∃ f', polyFit d center points = some f' := by
      unfold polyFit
      dsimp only
      rw [if_neg hdet]
      exact ⟨_, rfl⟩
    obtain ⟨h1, -, h3⟩ := key f' hf'
    rw [hf']
    congr 1
    have hd := Submodule.sub_mem _ h1 hf
    have hz := unisolvent_iff.1 hu (f' - f) hd ?_
    · exact sub_eq_zero.1 hz
    · have hs : (points.map fun q => (f' - f) q.1 * (f' - f) q.1).sum = 0 := by
        have e1 := h3 _ hd
        have e2 := ho _ hd
        rw [← Fin.sum_univ_fun_getElem] at e1 e2 ⊢
        have e3 := congrArg₂ (fun a b : ℝ => a - b) e1 e2
        simp only [sub_zero] at e3
        rw [← Finset.sum_sub_distrib] at e3
        rw [← e3]
        apply Finset.sum_congr rfl
        intro i _
        simp only [Pi.sub_apply]
        ring
      intro p hp
      obtain ⟨q, hq, rfl⟩ := List.mem_map.1 hp
      rw [← Fin.sum_univ_fun_getElem] at hs
      have := (Finset.sum_eq_zero_iff_of_nonneg (fun i _ => mul_self_nonneg _)).1 hs
      obtain ⟨i, hi, rfl⟩ := List.getElem_of_mem hq
      exact mul_self_eq_zero.1 (this ⟨i, hi⟩ (Finset.mem_univ _))

end Optika
