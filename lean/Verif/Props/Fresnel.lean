import Verif.Spec.Fresnel
import Verif.Props.Multilayer

/-!
# A bare interface (C56)
-/

namespace Optika
open Complex Matrix

/-- What the code computes for a substrate without layers. -/
theorem bare_efficiency (w : ℝ) (pol : Bool) (c n : ℂ) (s : Layer) (hs : s.interface = none)
    (hn : n ≠ 0) (hns : s.n w ≠ 0)
    (hq : momentum pol c n + momentum pol (snellsLawScalar c n (s.n w)) (s.n w) ≠ 0)
    (hc : momentum pol c n ≠ 0) :
    multilayerEfficiency w pol c n (.sequence []) (some s) = some
      (‖(momentum pol c n - momentum pol (snellsLawScalar c n (s.n w)) (s.n w))
          / (momentum pol c n + momentum pol (snellsLawScalar c n (s.n w)) (s.n w))‖ ^ 2,
        ‖2 * momentum pol c n
          / (momentum pol c n + momentum pol (snellsLawScalar c n (s.n w)) (s.n w))‖ ^ 2
          * (momentum pol (snellsLawScalar c n (s.n w)) (s.n w) / momentum pol c n).re) := by
  have ht : 2 * momentum pol c n
      / (momentum pol c n + momentum pol (snellsLawScalar c n (s.n w)) (s.n w)) ≠ 0 :=
    div_ne_zero (mul_ne_zero two_ne_zero hc) hq
  have hp : ∀ d n, propagation w d 0 n = 1 := by
    intro d n
    unfold propagation
    simp [Matrix.one_fin_two]
  have hnorm : ‖(1 : M2) 0 0‖ < 10 ^ 10 := by norm_num
  have hr : refraction w c (snellsLawScalar c n (s.n w)) pol n (s.n w) s.interface = some
      (!![1 / (2 * momentum pol c n
          / (momentum pol c n + momentum pol (snellsLawScalar c n (s.n w)) (s.n w))),
        ((momentum pol c n - momentum pol (snellsLawScalar c n (s.n w)) (s.n w))
          / (momentum pol c n + momentum pol (snellsLawScalar c n (s.n w)) (s.n w)))
        / (2 * momentum pol c n
          / (momentum pol c n + momentum pol (snellsLawScalar c n (s.n w)) (s.n w)));
        ((momentum pol c n - momentum pol (snellsLawScalar c n (s.n w)) (s.n w))
          / (momentum pol c n + momentum pol (snellsLawScalar c n (s.n w)) (s.n w)))
        / (2 * momentum pol c n
          / (momentum pol c n + momentum pol (snellsLawScalar c n (s.n w)) (s.n w))),
        1 / (2 * momentum pol c n
          / (momentum pol c n + momentum pol (snellsLawScalar c n (s.n w)) (s.n w)))]) := by
    unfold refraction
    dsimp only
    rw [if_neg (by push Not; exact ⟨hn, hns, hq⟩), hs]
    simp only [Option.elim_none, Option.bind_some, if_neg ht]
  have htr : multilayerCoefficients w pol c n (.sequence []) (some s) = some
      ((momentum pol c n - momentum pol (snellsLawScalar c n (s.n w)) (s.n w))
          / (momentum pol c n + momentum pol (snellsLawScalar c n (s.n w)) (s.n w)),
        2 * momentum pol c n
          / (momentum pol c n + momentum pol (snellsLawScalar c n (s.n w)) (s.n w))) := by
    unfold multilayerCoefficients multilayerTransfer
    simp only [Stack.transfer, transferAll, substrateLayer, Option.elim_some, Layer.transfer,
      if_true, hp, hnorm, decide_true, Bool.and_self, mul_one, Option.map_id', mul?_one_left]
    rw [hr]
    generalize 2 * momentum pol c n
      / (momentum pol c n + momentum pol (snellsLawScalar c n (s.n w)) (s.n w)) = t at *
    simp [ht]
  unfold multilayerEfficiency
  rw [htr]
  simp only [Option.bind_some, substrateLayer, Option.elim_some, if_neg hc]

/-- Snell's law for the cosine of the wave behind the interface, which travels or decays away from
it. -/
structure Refracted (n₁ c₁ n₂ c₂ : ℂ) : Prop where
  snell : n₂ ^ 2 * (1 - c₂ ^ 2) = n₁ ^ 2 * (1 - c₁ ^ 2)
  forward : 0 ≤ c₂.re
  evanescent : c₂.re = 0 → 0 ≤ c₂.im

theorem Refracted.eq {n₁ c₁ n₂ c₂ : ℂ} (h : Refracted n₁ c₁ n₂ c₂) (hn : n₂ ≠ 0) :
    snellsLawScalar c₁ n₁ n₂ = c₂ := by
  rw [snellsLawScalar_eq]
  apply csqrt_unique _ h.forward h.evanescent
  have := h.snell
  rw [eq_sub_iff_add_eq]
  field_simp
  linear_combination -h.snell

/-- **C56**: for light polarized perpendicular to the plane of incidence, a substrate without
coating reflects and transmits what the continuity of the fields requires, whether it is
transparent, absorbing, or totally reflecting. -/
theorem C56_s {w n c : ℝ} (hn : 0 < n) (hc : 0 < c) (hc1 : c ≤ 1) {s : Layer}
    (hs : s.interface = none) (hns : s.n w ≠ 0) (hre : 0 ≤ (s.n w).re) (him : 0 ≤ (s.n w).im)
    {c₂ : ℂ} (hc₂ : Refracted n c (s.n w) c₂) {r t : ℂ} (h : ContinuousS n c (s.n w) c₂ r t) :
    multilayerEfficiency w true c n (.sequence []) (some s)
      = some (‖r‖ ^ 2, (s.n w * c₂).re / (n * c) * ‖t‖ ^ 2) := by
  have hσ : 0 ≤ n ^ 2 * (1 - c ^ 2) := mul_nonneg (sq_nonneg n) (by nlinarith)
  have g := good_snell hσ (good_ambient hn hc.le).inv hns hre him
  have hb := bare_efficiency w true c n s hs (by exact_mod_cast hn.ne') hns
  rw [hc₂.eq hns] at g hb
  have e1 : momentum true (c : ℂ) n = ((n * c : ℝ) : ℂ) := by
    simp [momentum, polarizedDirection, mul_comm]
  have e2 : momentum true c₂ (s.n w) = s.n w * c₂ := by
    simp [momentum, polarizedDirection, mul_comm]
  have hpos : 0 < n * c := by positivity
  have hq : ((n * c : ℝ) : ℂ) + s.n w * c₂ ≠ 0 := by
    intro h0
    have := congrArg re h0
    have := g.wre
    simp only [add_re, ofReal_re, zero_re] at *
    linarith
  have hq1 : ((n * c : ℝ) : ℂ) ≠ 0 := by exact_mod_cast hpos.ne'
  rw [e1, e2] at hb
  rw [hb hq hq1]
  obtain ⟨h1, h2⟩ := h
  have hr : r = (((n * c : ℝ) : ℂ) - s.n w * c₂) / (((n * c : ℝ) : ℂ) + s.n w * c₂) := by
    rw [eq_div_iff hq]
    push_cast
    linear_combination (s.n w * c₂) * h1 - h2
  have ht : t = 2 * ((n * c : ℝ) : ℂ) / (((n * c : ℝ) : ℂ) + s.n w * c₂) := by
    rw [eq_div_iff hq]
    push_cast
    linear_combination (-(n * c : ℂ)) * h1 - h2
  rw [hr, ht, div_ofReal_re, mul_comm (_ ^ 2) ((s.n w * c₂).re / (n * c))]

/-- **C56**: the same for light polarized in the plane of incidence, if the cosine behind the
interface is real: transparent substrates below the critical angle, and normal incidence.  Missing:
other cosines, for which the claim fails (`C56_p_counterexample`). -/
theorem C56_p_partial {w n c : ℝ} (hn : 0 < n) (hc : 0 < c) (hc1 : c ≤ 1) {s : Layer}
    (hs : s.interface = none) (hns : s.n w ≠ 0) (hre : 0 ≤ (s.n w).re) (him : 0 ≤ (s.n w).im)
    {c₂ : ℝ} (hc₂ : Refracted n c (s.n w) c₂) {r t : ℂ} (h : ContinuousP n c (s.n w) c₂ r t) :
    multilayerEfficiency w false c n (.sequence []) (some s)
      = some (‖r‖ ^ 2, (s.n w * c₂).re / (n * c) * ‖t‖ ^ 2) := by
  have hσ : 0 ≤ n ^ 2 * (1 - c ^ 2) := mul_nonneg (sq_nonneg n) (by nlinarith)
  have g := good_snell hσ (good_ambient hn hc.le).inv hns hre him
  have hb := bare_efficiency w false c n s hs (by exact_mod_cast hn.ne') hns
  rw [hc₂.eq hns] at g hb
  have e1 : momentum false (c : ℂ) n = ((c / n : ℝ) : ℂ) := by
    simp [momentum, polarizedDirection, div_eq_mul_inv]
  have e2 : momentum false c₂ (s.n w) = c₂ / s.n w := by
    simp [momentum, polarizedDirection, div_eq_mul_inv]
  have hpos : 0 < c / n := by positivity
  have hm := momentum_re_nonneg g false
  rw [e2] at hm
  have hnc : (n : ℂ) ≠ 0 := by exact_mod_cast hn.ne'
  have hq : ((c / n : ℝ) : ℂ) + c₂ / s.n w ≠ 0 := by
    intro h0
    have := congrArg re h0
    simp only [add_re, ofReal_re, zero_re] at *
    linarith
  have hq1 : ((c / n : ℝ) : ℂ) ≠ 0 := by exact_mod_cast hpos.ne'
  rw [e1, e2] at hb
  rw [hb hq hq1]
  obtain ⟨h1, h2⟩ := h
  have hr : r = (((c / n : ℝ) : ℂ) - c₂ / s.n w) / (((c / n : ℝ) : ℂ) + c₂ / s.n w) := by
    rw [eq_div_iff hq]
    push_cast
    field_simp
    linear_combination (c₂ : ℂ) * h2 - (s.n w) * h1
  have ht : t = n / s.n w * (2 * ((c / n : ℝ) : ℂ) / (((c / n : ℝ) : ℂ) + c₂ / s.n w)) := by
    rw [← mul_div_assoc, eq_div_iff hq]
    push_cast
    field_simp
    linear_combination (-n : ℂ) * h1 - (c : ℂ) * h2
  rw [hr, ht, div_ofReal_re, norm_mul, mul_pow, norm_div (n : ℂ), div_pow ‖(n : ℂ)‖]
  congr 2
  have hN : ‖s.n w‖ ^ 2 = normSq (s.n w) := (normSq_eq_norm_sq _).symm
  have hN0 : normSq (s.n w) ≠ 0 := by simpa using hns
  rw [hN, Complex.div_re, ofReal_re, ofReal_im, norm_real, Real.norm_of_nonneg hn.le, re_mul_ofReal]
  field_simp
  ring

/-- Water at Brewster's angle: light polarized in the plane of incidence is not reflected. -/
example : multilayerEfficiency 1 false ((3 / 5 : ℝ) : ℂ) ((1 : ℝ) : ℂ) (.sequence [])
      (some ⟨fun _ => 4 / 3, 1, none⟩) = some (0, 1)
    ∧ multilayerEfficiency 1 true ((3 / 5 : ℝ) : ℂ) ((1 : ℝ) : ℂ) (.sequence [])
      (some ⟨fun _ => 4 / 3, 1, none⟩) = some (49 / 625, 576 / 625) := by
  have hR : Refracted ((1 : ℝ) : ℂ) ((3 / 5 : ℝ) : ℂ) (4 / 3) ((4 / 5 : ℝ) : ℂ) := by
    refine ⟨by push_cast; norm_num, ?_, ?_⟩
    · rw [ofReal_re]; norm_num
    · rw [ofReal_re]; norm_num
  have hp : ContinuousP ((1 : ℝ) : ℂ) ((3 / 5 : ℝ) : ℂ) (4 / 3) ((4 / 5 : ℝ) : ℂ) 0 (3 / 4) :=
    ⟨by push_cast; norm_num, by push_cast; norm_num⟩
  have hs : ContinuousS ((1 : ℝ) : ℂ) ((3 / 5 : ℝ) : ℂ) (4 / 3) ((4 / 5 : ℝ) : ℂ) (-7 / 25)
      (18 / 25) := ⟨by norm_num, by push_cast; norm_num⟩
  have e : ((4 / 3 : ℂ) * ((4 / 5 : ℝ) : ℂ)).re = 16 / 15 := by
    rw [re_mul_ofReal]; norm_num
  constructor
  · rw [C56_p_partial (s := ⟨fun _ => 4 / 3, 1, none⟩) (w := 1) one_pos (by norm_num) (by norm_num)
      rfl (by norm_num) (by norm_num) (by norm_num) hR hp]
    rw [e]
    norm_num
  · rw [C56_s (s := ⟨fun _ => 4 / 3, 1, none⟩) (w := 1) one_pos (by norm_num) (by norm_num)
      rfl (by norm_num) (by norm_num) (by norm_num) hR hs]
    rw [e]
    norm_num

/-- **C56** fails for light polarized in the plane of incidence on an absorbing substrate: the code
conjugates the cosine but not the index (`matrices.py` lines 130–131; the documentation has no
conjugate).  At an index of `(1 + i) / 2` and the cosine 1/4 the reflectivity is 53/85, the code
returns 65/73. -/
theorem C56_p_counterexample :
    let s : Layer := ⟨fun _ => (1 + I) / 2, 1, none⟩
    let c₂ : ℂ := (5 + 3 * I) / 4
    ∃ r t : ℂ, Refracted ((1 : ℝ) : ℂ) ((1 / 4 : ℝ) : ℂ) (s.n 1) c₂
      ∧ ContinuousP ((1 : ℝ) : ℂ) ((1 / 4 : ℝ) : ℂ) (s.n 1) c₂ r t ∧ ‖r‖ ^ 2 = 53 / 85
      ∧ ∃ T, multilayerEfficiency 1 false ((1 / 4 : ℝ) : ℂ) ((1 : ℝ) : ℂ) (.sequence []) (some s)
        = some (65 / 73, T) := by
  intro s c₂
  have hI : I ^ 2 = -1 := I_sq
  have hd : (9 - 2 * I : ℂ) ≠ 0 := fun h => by simpa using congrArg im h
  have h1 : (1 + I : ℂ) ≠ 0 := fun h => by simpa using congrArg im h
  have hn : s.n 1 ≠ 0 := div_ne_zero h1 two_ne_zero
  have hR : Refracted ((1 : ℝ) : ℂ) ((1 / 4 : ℝ) : ℂ) (s.n 1) c₂ := by
    refine ⟨?_, by norm_num [c₂], by norm_num [c₂]⟩
    simp only [s, c₂]
    push_cast
    linear_combination (-(69 / 64 : ℂ) - 3 / 4 * I - 9 / 64 * I ^ 2) * hI
  refine ⟨(-7 + 2 * I) / (9 - 2 * I), (4 - 4 * I) / (9 - 2 * I) / 2, hR, ⟨?_, ?_⟩, ?_, ?_⟩
  · simp only [c₂]
    push_cast
    field_simp
    linear_combination 12 * hI
  · simp only [s]
    push_cast
    field_simp
    linear_combination 4 * hI
  · rw [norm_div, div_pow, ← normSq_eq_norm_sq, ← normSq_eq_norm_sq]
    norm_num [normSq_apply]
  · have e1 : momentum false ((1 / 4 : ℝ) : ℂ) ((1 : ℝ) : ℂ) = 1 / 4 := by
      simp only [momentum, polarizedDirection, Bool.false_eq_true, if_false, conj_ofReal]
      push_cast
      norm_num
    have e2 : momentum false c₂ (s.n 1) = 1 / 2 - 2 * I := by
      simp only [momentum, polarizedDirection, Bool.false_eq_true, if_false, s, c₂, map_div₀,
        map_add, map_mul, conj_I, map_ofNat]
      field_simp
      linear_combination 16 * hI
    have hb := bare_efficiency 1 false ((1 / 4 : ℝ) : ℂ) ((1 : ℝ) : ℂ) s rfl (by norm_num) hn
    rw [hR.eq hn, e1, e2] at hb
    have hq : (1 / 4 + (1 / 2 - 2 * I) : ℂ) ≠ 0 := fun h => by simpa using congrArg im h
    have e3 : ‖(1 / 4 - (1 / 2 - 2 * I)) / (1 / 4 + (1 / 2 - 2 * I))‖ ^ 2 = (65 / 73 : ℝ) := by
      rw [norm_div, div_pow, ← normSq_eq_norm_sq, ← normSq_eq_norm_sq]
      norm_num [normSq_apply]
    rw [e3] at hb
    exact ⟨_, hb hq (by norm_num)⟩

end Optika
