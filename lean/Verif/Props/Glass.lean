import Verif.Model.Glass
import Verif.Props.Snell
import Verif.Lemmas.Surface
import Mathlib.Tactic.Positivity
import Mathlib.Tactic.NormNum

/-!
# Glass dispersion (C53)

The resonances of a glass are the wavelengths `sqrt c`.
-/

namespace Optika

/-- A glass with resonances at positive squared wavelengths, and all strengths positive. -/
structure Glass.Physical (g : Glass) : Prop where
  b1 : 0 < g.b1
  b2 : 0 < g.b2
  b3 : 0 < g.b3
  c1 : 0 < g.c1
  c2 : 0 < g.c2
  c3 : 0 < g.c3

/-- No resonance is between two wavelengths (or at one of them). -/
def Glass.NoResonance (g : Glass) (w v : ℝ) : Prop :=
  ∀ c, c = g.c1 ∨ c = g.c2 ∨ c = g.c3 → c < w ^ 2 ∨ v ^ 2 < c

theorem nBk7_physical : nBk7.Physical := by
  constructor <;> norm_num [nBk7]

theorem f2_physical : f2.Physical := by
  constructor <;> norm_num [f2]

theorem glass_index_iff {g : Glass} {rays : Ray} {n : ℝ} :
    g.index rays = some n ↔ rays.wavelength ^ 2 ≠ g.c1 ∧ rays.wavelength ^ 2 ≠ g.c2
      ∧ rays.wavelength ^ 2 ≠ g.c3 ∧ 0 ≤ n
      ∧ n ^ 2 = 1 + g.b1 * rays.wavelength ^ 2 / (rays.wavelength ^ 2 - g.c1)
        + g.b2 * rays.wavelength ^ 2 / (rays.wavelength ^ 2 - g.c2)
        + g.b3 * rays.wavelength ^ 2 / (rays.wavelength ^ 2 - g.c3) := by
  unfold Glass.index
  simp only [Option.bind_eq_bind, Option.bind_eq_some_iff, div?_eq_some, sqrt?_eq_some, sub_ne_zero]
  constructor
  · rintro ⟨t1, ⟨h1, rfl⟩, t2, ⟨h2, rfl⟩, t3, ⟨h3, rfl⟩, h, rfl⟩
    refine ⟨h1, h2, h3, Real.sqrt_nonneg _, ?_⟩
    rw [Real.sq_sqrt h]
    ring
  · rintro ⟨h1, h2, h3, hn, h⟩
    refine ⟨_, ⟨h1, rfl⟩, _, ⟨h2, rfl⟩, _, ⟨h3, rfl⟩, ?_, ?_⟩
    · nlinarith [sq_nonneg n]
    · rw [show (1 : ℝ) + (_ + _ + _) = n ^ 2 by rw [h]; ring, Real.sqrt_sq hn]

/-- **C53**: the index follows the Sellmeier equation: it is the root of the sum over the
resonances, and not defined only at a resonance or where the sum is negative. -/
theorem C53_sellmeier (g : Glass) (rays : Ray) (n : ℝ) :
    g.material.index rays = some n ↔ rays.wavelength ^ 2 ≠ g.c1 ∧ rays.wavelength ^ 2 ≠ g.c2
      ∧ rays.wavelength ^ 2 ≠ g.c3 ∧ 0 ≤ n
      ∧ n ^ 2 = 1 + g.b1 * rays.wavelength ^ 2 / (rays.wavelength ^ 2 - g.c1)
        + g.b2 * rays.wavelength ^ 2 / (rays.wavelength ^ 2 - g.c2)
        + g.b3 * rays.wavelength ^ 2 / (rays.wavelength ^ 2 - g.c3) :=
  glass_index_iff

theorem sellmeier_term {b c w v : ℝ} (hb : 0 < b) (hc : 0 < c) (hwv : w < v)
    (h : c < w ∨ v < c) : b * v / (v - c) < b * w / (w - c) := by
  have key : ∀ x, x ≠ c → b * x / (x - c) = b + b * c / (x - c) := by
    intro x hx
    have : x - c ≠ 0 := sub_ne_zero.2 hx
    field_simp
    ring
  have hbc : 0 < b * c := mul_pos hb hc
  rcases h with h | h
  · rw [key v (by linarith), key w h.ne']
    have : b * c / (v - c) < b * c / (w - c) :=
      div_lt_div_of_pos_left hbc (by linarith) (by linarith)
    linarith
  · rw [key v h.ne, key w (by linarith)]
    have : b * c / (c - w) < b * c / (c - v) :=
      div_lt_div_of_pos_left hbc (by linarith) (by linarith)
    have e1 : b * c / (v - c) = -(b * c / (c - v)) := by rw [← div_neg, neg_sub]
    have e2 : b * c / (w - c) = -(b * c / (c - w)) := by rw [← div_neg, neg_sub]
    linarith

/-- **C53** (normal dispersion): between neighbouring resonances longer waves have a smaller
index. -/
theorem C53_normal_dispersion {g : Glass} (hg : g.Physical) {red blue : Ray} {nr nb : ℝ}
    (hb : 0 ≤ blue.wavelength) (hlt : blue.wavelength < red.wavelength)
    (hres : g.NoResonance blue.wavelength red.wavelength)
    (hnr : g.material.index red = some nr) (hnb : g.material.index blue = some nb) : nr < nb := by
  obtain ⟨-, -, -, hr0, hr⟩ := glass_index_iff.1 hnr
  obtain ⟨-, -, -, hb0, hb'⟩ := glass_index_iff.1 hnb
  have hsq : blue.wavelength ^ 2 < red.wavelength ^ 2 := by nlinarith
  have h1 := sellmeier_term hg.b1 hg.c1 hsq (hres _ (Or.inl rfl))
  have h2 := sellmeier_term hg.b2 hg.c2 hsq (hres _ (Or.inr (Or.inl rfl)))
  have h3 := sellmeier_term hg.b3 hg.c3 hsq (hres _ (Or.inr (Or.inr rfl)))
  have : nr ^ 2 < nb ^ 2 := by rw [hr, hb']; linarith
  exact lt_of_pow_lt_pow_left₀ 2 hb0 this

/-- **C53**: above all resonances the index is defined and greater than one. -/
theorem C53_greater_than_one_partial {g : Glass} (hg : g.Physical) {rays : Ray}
    (h1 : g.c1 < rays.wavelength ^ 2) (h2 : g.c2 < rays.wavelength ^ 2)
    (h3 : g.c3 < rays.wavelength ^ 2) : ∃ n, g.material.index rays = some n ∧ 1 < n := by
  have hw : 0 < rays.wavelength ^ 2 := hg.c1.trans h1
  have p1 := div_pos (mul_pos hg.b1 hw) (sub_pos.2 h1)
  have p2 := div_pos (mul_pos hg.b2 hw) (sub_pos.2 h2)
  have p3 := div_pos (mul_pos hg.b3 hw) (sub_pos.2 h3)
  refine ⟨Real.sqrt (1 + g.b1 * rays.wavelength ^ 2 / (rays.wavelength ^ 2 - g.c1)
        + g.b2 * rays.wavelength ^ 2 / (rays.wavelength ^ 2 - g.c2)
        + g.b3 * rays.wavelength ^ 2 / (rays.wavelength ^ 2 - g.c3)), ?_, ?_⟩
  · exact glass_index_iff.2 ⟨h1.ne', h2.ne', h3.ne', Real.sqrt_nonneg _, Real.sq_sqrt (by linarith)⟩
  · rw [Real.lt_sqrt (by norm_num)]
    linarith

theorem sellmeier_term_le {b c w v : ℝ} (hb : 0 < b) (hc : 0 < c) (hwv : w ≤ v)
    (h : c < w ∨ v < c) : b * v / (v - c) ≤ b * w / (w - c) := by
  rcases hwv.lt_or_eq with h' | rfl
  · exact (sellmeier_term hb hc h' h).le
  · rfl

theorem sellmeier_term_gt {b c w : ℝ} (hb : 0 < b) (hc : 0 < c) (h : c < w) :
    b < b * w / (w - c) := by
  rw [lt_div_iff₀ (by linarith)]
  nlinarith

/-- **C53**: the two glasses of the catalogue have indices between 1 and 2 from 0.25 to 5
micrometres, and flint (F2) has a higher index than crown (N-BK7). -/
theorem C53_catalogue {rays : Ray} (h1 : 1 / 4 ≤ rays.wavelength) (h2 : rays.wavelength ≤ 5) :
    ∃ n m, nBk7.material.index rays = some n ∧ f2.material.index rays = some m
      ∧ 1 < n ∧ n < m ∧ m < 2 := by
  have hw1 : 1 / 16 ≤ rays.wavelength ^ 2 := by nlinarith
  have hw2 : rays.wavelength ^ 2 ≤ 25 := by nlinarith
  generalize hw : rays.wavelength ^ 2 = w at hw1 hw2
  have k1 := sellmeier_term_gt (w := w) nBk7_physical.b1 nBk7_physical.c1 (by norm_num [nBk7]; linarith)
  have k2 := sellmeier_term_gt (w := w) nBk7_physical.b2 nBk7_physical.c2 (by norm_num [nBk7]; linarith)
  have k3 := sellmeier_term_le nBk7_physical.b3 nBk7_physical.c3 hw2 (Or.inr (by norm_num [nBk7]))
  have l1 := sellmeier_term_le nBk7_physical.b1 nBk7_physical.c1 hw1 (Or.inl (by norm_num [nBk7]))
  have m1 := sellmeier_term_gt (w := w) f2_physical.b1 f2_physical.c1 (by norm_num [f2]; linarith)
  have q1 := sellmeier_term_le f2_physical.b1 f2_physical.c1 hw1 (Or.inl (by norm_num [f2]))
  have q2 := sellmeier_term_le f2_physical.b2 f2_physical.c2 hw1 (Or.inl (by norm_num [f2]))
  have q3 : f2.b3 * w / (w - f2.c3) < 0 :=
    div_neg_of_pos_of_neg (mul_pos f2_physical.b3 (by linarith)) (by norm_num [f2]; linarith)
  have d2 : nBk7.b2 * w / (w - nBk7.c2) - 1 / 20 < f2.b2 * w / (w - f2.c2) := by
    have p1 : 0 < w - nBk7.c2 := by norm_num [nBk7]; linarith
    have p2 : 0 < w - f2.c2 := by norm_num [f2]; linarith
    rw [sub_lt_iff_lt_add, div_add' _ _ _ p2.ne', div_lt_div_iff₀ p1 p2]
    norm_num [nBk7, f2] at p1 p2 ⊢
    nlinarith
  have d3 : nBk7.b3 * w / (w - nBk7.c3) < f2.b3 * w / (w - f2.c3) := by
    have p1 : 0 < nBk7.c3 - w := by norm_num [nBk7]; linarith
    have p2 : 0 < f2.c3 - w := by norm_num [f2]; linarith
    rw [← neg_lt_neg_iff, ← div_neg, ← div_neg, neg_sub, neg_sub, div_lt_div_iff₀ p2 p1]
    norm_num [nBk7, f2] at p1 p2 ⊢
    nlinarith
  have hn : 1 < 1 + nBk7.b1 * w / (w - nBk7.c1) + nBk7.b2 * w / (w - nBk7.c2)
      + nBk7.b3 * w / (w - nBk7.c3) := by
    norm_num [nBk7] at k1 k2 k3 ⊢
    linarith
  have hm : 1 + f2.b1 * w / (w - f2.c1) + f2.b2 * w / (w - f2.c2) + f2.b3 * w / (w - f2.c3)
      < 4 := by
    norm_num [f2] at q1 q2 q3 ⊢
    linarith
  have hnm : 1 + nBk7.b1 * w / (w - nBk7.c1) + nBk7.b2 * w / (w - nBk7.c2)
      + nBk7.b3 * w / (w - nBk7.c3)
      < 1 + f2.b1 * w / (w - f2.c1) + f2.b2 * w / (w - f2.c2) + f2.b3 * w / (w - f2.c3) := by
    have : nBk7.b1 * w / (w - nBk7.c1) + 1 / 20 < f2.b1 * w / (w - f2.c1) := by
      refine lt_of_le_of_lt (add_le_add_left l1 _) (lt_of_le_of_lt ?_ m1)
      norm_num [nBk7, f2]
    linarith
  have idx : ∀ {g : Glass}, w ≠ g.c1 → w ≠ g.c2 → w ≠ g.c3 →
      1 < 1 + g.b1 * w / (w - g.c1) + g.b2 * w / (w - g.c2) + g.b3 * w / (w - g.c3) →
      g.index rays = some (Real.sqrt
        (1 + g.b1 * w / (w - g.c1) + g.b2 * w / (w - g.c2) + g.b3 * w / (w - g.c3))) := by
    intro g e1 e2 e3 h
    rw [glass_index_iff, hw]
    exact ⟨e1, e2, e3, Real.sqrt_nonneg _, Real.sq_sqrt (by linarith)⟩
  refine ⟨_, _, idx ?_ ?_ ?_ hn, idx ?_ ?_ ?_ (hn.trans hnm), ?_, ?_, ?_⟩
  rotate_left 6
  · rw [Real.lt_sqrt (by norm_num)]; linarith
  · exact Real.sqrt_lt_sqrt (by linarith) hnm
  · rw [Real.sqrt_lt' (by norm_num)]; linarith
  all_goals norm_num [nBk7, f2]; intro h; linarith

/-- A red and a blue ray in N-BK7 meet the hypotheses of `C53_normal_dispersion`. -/
example : nBk7.NoResonance 0.4 0.7 := by
  rintro c (rfl | rfl | rfl) <;> norm_num [nBk7]

/-- The limits of C53: N-BK7 has no index at ten micrometres, just below its infrared resonance
(the square root of a negative number). -/
theorem C53_infrared_counterexample (rays : Ray) (h : rays.wavelength = 10) :
    nBk7.material.index rays = none := by
  rw [Option.eq_none_iff_forall_ne_some]
  intro n hn
  obtain ⟨-, -, -, -, h'⟩ := glass_index_iff.1 hn
  rw [h] at h'
  norm_num [nBk7] at h'
  nlinarith [sq_nonneg n]

/-- Disagreement with C53: on the second of two cemented glasses the index is evaluated at the
wavelength multiplied by the index of the first one, so it is smaller than the index of that glass
at the vacuum wavelength, for every pair of surfaces and every ray. -/
theorem C53_cemented_counterexample {s1 s2 : Surface} {g1 g2 : Glass} (hg2 : g2.Physical)
    (h1 : s1.material = g1.material) (h2 : s2.material = g2.material) {r out : Ray}
    (hi : r.index = 1) (hw : 0 < r.wavelength) (h : propagateSurfaces [s1, s2] r = some out)
    {n1 n2 : ℝ} (hn1 : g1.material.index r = some n1) (hgt : 1 < n1)
    (hn2 : g2.material.index r = some n2)
    (hres : g2.NoResonance r.wavelength (r.wavelength * n1)) :
    out.index < n2 := by
  have idx : ∀ (g : Glass) (a b : Ray), a.wavelength = b.wavelength → g.index a = g.index b := by
    intro g a b hab
    unfold Glass.index
    rw [hab]
  rw [propagateSurfaces_cons, Option.bind_eq_some_iff] at h
  obtain ⟨m, hm, h⟩ := h
  rw [propagateSurfaces_cons, Option.bind_eq_some_iff] at h
  obtain ⟨o, ho, h⟩ := h
  rw [propagateSurfaces_nil, Option.some.injEq] at h
  subst h
  rw [Surface.propagate_eq, Option.map_eq_some_iff] at hm ho
  obtain ⟨m', hm, rfl⟩ := hm
  obtain ⟨o', ho, rfl⟩ := ho
  obtain ⟨q, normal, r1, k, b, e1, e2, att, -, -, -, -, w1, -, -, -, -, i1, -, -, -, -, -, -,
    ow, -, -, -, -, oi, -⟩ := propagateLocal_eq_some hm
  obtain ⟨q', normal', r1', k', b', e1', e2', att', -, -, -, -, w1', -, -, -, -, i1', -, -, -, -, -,
    -, -, -, -, -, -, oi', -⟩ := propagateLocal_eq_some ho
  rw [h1] at i1
  rw [h2] at i1'
  have ek : k = n1 := by
    have e : g1.index r1 = g1.index r := idx g1 _ _ w1
    have i1 : g1.index r1 = some k := i1
    rw [e] at i1
    exact Option.some.inj (i1.symm.trans hn1)
  have ew : r1'.wavelength = r.wavelength * n1 := by
    rw [w1']
    show m'.wavelength = _
    rw [ow]
    show r.wavelength * k / r.index = _
    rw [hi, ek, div_one]
  show o'.index < n2
  rw [oi']
  refine C53_normal_dispersion hg2 (red := r1') (blue := r) hw.le ?_ ?_ i1' hn2
  · rw [ew]; nlinarith
  · rw [ew]; exact hres

/-- Two cemented glasses and a ray along the axis that meet the hypotheses. -/
example :
    let g1 : Glass := ⟨3, 0, 0, 0, 0, 0⟩
    let g2 : Glass := ⟨1, 1, 1, 1 / 2, 1 / 2, 1 / 2⟩
    let r : Ray := ⟨1, ⟨0, 0, -1⟩, ⟨0, 0, 1⟩, 1, 0, 1, true⟩
    g2.Physical ∧ g1.material.index r = some 2 ∧ g2.material.index r = some (Real.sqrt 7)
      ∧ g2.NoResonance 1 2
      ∧ ∃ out, propagateSurfaces [⟨flatSag, g1.material, none, none, none⟩,
        ⟨flatSag, g2.material, none, none, none⟩] r = some out
        ∧ out.index = Real.sqrt (31 / 7) := by
  intro g1 g2 r
  have hs : ∀ n1 n2 : ℝ, 0 < n1 → 0 < n2 →
      snellsLaw ⟨0, 0, 1⟩ n1 n2 false ⟨0, 0, -1⟩ = some ⟨0, 0, 1⟩ := by
    intro n1 n2 h1 h2
    rw [snellsLaw_iff (m := false) (by simp [V3.dot]) h1 h2 (by simp [V3.dot])]
    refine ⟨⟨by simp [V3.dot], ?_⟩, by simp [SameSide, V3.dot]⟩
    ext <;> simp [V3.tang, V3.dot]
  have p : (0 : ℝ) < Real.sqrt (31 / 7) := Real.sqrt_pos.2 (by norm_num)
  have e : Real.sqrt (31 / 7) ^ 2 = 31 / 7 := Real.sq_sqrt (by norm_num)
  generalize Real.sqrt (31 / 7) = s at p e
  have hi1 : g1.index ⟨1, ⟨0, 0, 0⟩, ⟨0, 0, 1⟩, 1, 0, 1, true⟩ = some 2 := by
    rw [glass_index_iff]; norm_num [g1]
  have hi2 : g2.index ⟨2, ⟨0, 0, 0⟩, ⟨0, 0, 1⟩, 1, 0, 2, true⟩ = some s := by
    rw [glass_index_iff, e]; norm_num [g2]; exact p.le
  refine ⟨by constructor <;> norm_num [g2], ?_, ?_, ?_,
    ⟨⟨s, ⟨0, 0, 0⟩, ⟨0, 0, 1⟩, 1, 0, s, true⟩, ?_, rfl⟩⟩
  · exact hi1
  · show g2.index r = _
    rw [glass_index_iff]; norm_num [g2, r]
  · rintro c (rfl | rfl | rfl) <;> norm_num [g2]
  · simp [propagateSurfaces_cons, propagateSurfaces_nil, Surface.propagate,
      Surface.propagateLocal, Sag.propagate, flatSag, flatIntercept, div?, Surface.interact,
      flatNormal, Surface.effectiveRay, Surface.rulingFactor, Glass.material, Surface.clip, r,
      hi1, hi2, hs 1 2 (by norm_num) (by norm_num), hs 2 s (by norm_num) p]
    rw [if_neg p.ne', Option.bind_some, if_neg (by positivity), Option.bind_some, Option.bind_some,
      propagateSurfaces_nil]
    congr 2
    field_simp

end Optika
