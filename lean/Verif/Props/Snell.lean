import Verif.Spec.Optics
import Verif.Lemmas.Snell

/-!
# C01–C05: the vector form of Snell's law
-/

namespace Optika
open V3

/-- Exact characterisation of `snells_law`: for any incident vector `a` not parallel to the
surface, the result is the one and only vector which is phase matched and leaves on the
required side (transmitted: the side `a` was heading to; reflected: the side it came from). -/
theorem snellsLaw_iff {a u : V3} {n1 n2 : ℝ} (m : Bool) (hu : u.dot u = 1) (h1 : 0 < n1)
    (h2 : 0 < n2) (hau : a.dot u ≠ 0) (b : V3) :
    snellsLaw a n1 n2 m u = some b ↔
      PhaseMatched a b n1 n2 u 0 ∧ if m then OppositeSide a b u else SameSide a b u := by
  rw [snellsLaw_eq_some]
  constructor
  · rintro ⟨-, -, hs, hb⟩
    set s := Real.sqrt ((n2 / n1) ^ 2 + a.dot u ^ 2 - a.dot a) with hsdef
    have hs0 : 0 ≤ s := Real.sqrt_nonneg _
    have hss : s ^ 2 = (n2 / n1) ^ 2 + a.dot u ^ 2 - a.dot a := Real.sq_sqrt hs
    set c := copysign1 (a.dot u) with hc
    have hcc : c * c = 1 := copysign1_sq _
    have hca : 0 ≤ c * a.dot u := copysign1_mul_self_nonneg _
    set e : ℝ := (if m then -1 else 1) with he
    have hee : e * e = 1 := by rw [he]; cases m <;> norm_num
    have hbu : b.dot u = (n1 / n2) * (e * c * s) := by
      rw [hb, smul_dot, add_dot, smul_dot, hu]; ring
    refine ⟨⟨?_, ?_⟩, ?_⟩
    · have : b.dot b = (n1 / n2) ^ 2 * (a.dot a - a.dot u ^ 2 + (e * e) * (c * c) * s ^ 2) := by
        have h3 : b.dot b = (n1 / n2) ^ 2 * (a.dot a + 2 * (-(a.dot u) + e * c * s) * a.dot u
            + (-(a.dot u) + e * c * s) ^ 2 * u.dot u) := by
          rw [hb]; simp only [dot, smul_x, smul_y, smul_z, add_x, add_y, add_z]; ring
        rw [h3, hu]; ring
      rw [this, hee, hcc, hss]; field_simp; ring
    · have hut : b.tang u = (n1 / n2) • a.tang u := by
        unfold tang; rw [hbu]
        rw [hb]; ext <;> simp <;> ring
      rw [hut]; ext <;> simp <;> field_simp
    · have hr : 0 < n1 / n2 := div_pos h1 h2
      cases m
      · simp only [Bool.false_eq_true, if_false, SameSide, hbu, he]
        have : a.dot u * (n1 / n2 * (1 * c * s)) = n1 / n2 * s * (c * a.dot u) := by ring
        rw [this]; positivity
      · simp only [if_true, OppositeSide, hbu, he]
        have : a.dot u * (n1 / n2 * (-1 * c * s)) = -(n1 / n2 * s * (c * a.dot u)) := by ring
        rw [this]
        have : 0 ≤ n1 / n2 * s * (c * a.dot u) := by positivity
        linarith
  · rintro ⟨⟨hunit, htan⟩, hside⟩
    have hbt : b = (n1 / n2) • a.tang u + (b.dot u) • u := by
      have hx := congrArg V3.x htan
      have hy := congrArg V3.y htan
      have hz := congrArg V3.z htan
      simp only [smul_x, smul_y, smul_z, add_x, add_y, add_z, zero_x, zero_y, zero_z, tang,
        sub_x, sub_y, sub_z] at hx hy hz
      ext
      · simp only [smul_x, add_x, tang, sub_x]; field_simp; linarith
      · simp only [smul_y, add_y, tang, sub_y]; field_simp; linarith
      · simp only [smul_z, add_z, tang, sub_z]; field_simp; linarith
    have hnorm : (b.dot u) ^ 2 = (n1 / n2) ^ 2 * ((n2 / n1) ^ 2 + a.dot u ^ 2 - a.dot a) := by
      have h3 : b.dot b = (n1 / n2) ^ 2 * (a.dot a - 2 * a.dot u ^ 2 + a.dot u ^ 2 * u.dot u)
          + 2 * (n1 / n2) * (b.dot u) * (a.dot u - a.dot u * u.dot u)
          + (b.dot u) ^ 2 * u.dot u := by
        conv_lhs => rw [hbt]
        simp only [dot, smul_x, smul_y, smul_z, add_x, add_y, add_z, tang, sub_x, sub_y, sub_z]
        ring
      rw [hunit, hu] at h3
      have h4 : (n1 / n2) ^ 2 * (n2 / n1) ^ 2 = 1 := by field_simp
      linear_combination -h3 - h4
    have hr : 0 < n1 / n2 := div_pos h1 h2
    have hs : 0 ≤ (n2 / n1) ^ 2 + a.dot u ^ 2 - a.dot a := by
      by_contra hneg
      push Not at hneg
      have := mul_neg_of_pos_of_neg (pow_pos hr 2) hneg
      nlinarith [sq_nonneg (b.dot u)]
    refine ⟨h2.ne', h1.ne', hs, ?_⟩
    have habs : |b.dot u| = (n1 / n2) * Real.sqrt ((n2 / n1) ^ 2 + a.dot u ^ 2 - a.dot a) := by
      rw [← Real.sqrt_sq_eq_abs, hnorm, Real.sqrt_mul (sq_nonneg _), Real.sqrt_sq hr.le]
    generalize Real.sqrt ((n2 / n1) ^ 2 + a.dot u ^ 2 - a.dot a) = s at habs
    have hbu : b.dot u = (n1 / n2) * ((if m then -1 else 1) * copysign1 (a.dot u) * s) := by
      unfold copysign1
      rcases lt_or_gt_of_ne hau with h | h
      · cases m
        · simp only [Bool.false_eq_true, if_false, SameSide] at hside ⊢
          have : b.dot u ≤ 0 := by
            by_contra hcon; push Not at hcon
            nlinarith [mul_neg_of_neg_of_pos h hcon]
          rw [abs_of_nonpos this] at habs
          rw [if_pos h]; linarith
        · simp only [if_true, OppositeSide] at hside ⊢
          have : 0 ≤ b.dot u := by
            by_contra hcon; push Not at hcon
            nlinarith [mul_pos_of_neg_of_neg h hcon]
          rw [abs_of_nonneg this] at habs
          rw [if_pos h]; linarith
      · have hn : ¬ a.dot u < 0 := by linarith
        cases m
        · simp only [Bool.false_eq_true, if_false, SameSide] at hside ⊢
          have : 0 ≤ b.dot u := by
            by_contra hcon; push Not at hcon
            nlinarith [mul_neg_of_pos_of_neg h hcon]
          rw [abs_of_nonneg this] at habs
          rw [if_neg hn]; linarith
        · simp only [if_true, OppositeSide] at hside ⊢
          have : b.dot u ≤ 0 := by
            by_contra hcon; push Not at hcon
            nlinarith [mul_pos h hcon]
          rw [abs_of_nonpos this] at habs
          rw [if_neg hn]; linarith
    rw [hbt, hbu]
    vring

/-- **C01**: refraction of a ray.  Unit length, `n2 sin θ2 = n1 sin θ1` together with the plane
of incidence as one vector equation, the planar sine law for the magnitudes, and the ray
continues to the side it was heading to. -/
theorem C01_refraction {a u b : V3} {n1 n2 : ℝ} (ha : a.dot a = 1) (hu : u.dot u = 1)
    (h1 : 0 < n1) (h2 : 0 < n2) (hau : a.dot u ≠ 0) (h : snellsLaw a n1 n2 false u = some b) :
    b.dot b = 1 ∧
    n2 • b.tang u = n1 • a.tang u ∧
    n2 ^ 2 * (1 - (b.dot u) ^ 2) = n1 ^ 2 * (1 - (a.dot u) ^ 2) ∧
    (a.cross u).dot b = 0 ∧
    0 ≤ a.dot u * b.dot u ∧
    (n1 ^ 2 * (1 - (a.dot u) ^ 2) < n2 ^ 2 → 0 < a.dot u * b.dot u) := by
  obtain ⟨⟨hb, ht⟩, hside⟩ := (snellsLaw_iff false hu h1 h2 hau b).1 h
  have ht' : n2 • b.tang u = n1 • a.tang u := by rw [ht]; vring
  have hsq : n2 ^ 2 * (1 - (b.dot u) ^ 2) = n1 ^ 2 * (1 - (a.dot u) ^ 2) := by
    have h3 := congrArg (fun v => v.dot v) ht'
    have e : ∀ (k : ℝ) (v : V3), v.dot v = 1 →
        (k • v.tang u).dot (k • v.tang u) = k ^ 2 * (1 - (v.dot u) ^ 2) := by
      intro k v hv
      rw [smul_dot, dot_smul]
      have : (v.tang u).dot (v.tang u) = v.dot v - 2 * (v.dot u) ^ 2 + (v.dot u) ^ 2 * u.dot u := by
        simp only [tang, dot, sub_x, sub_y, sub_z, smul_x, smul_y, smul_z]; ring
      rw [this, hv, hu]; ring
    simp only [e _ _ hb, e _ _ ha] at h3
    exact h3
  refine ⟨hb, ht', hsq, ?_, by simpa [SameSide] using hside, ?_⟩
  · have h3 : n2 * (a.cross u).dot b = (a.cross u).dot (n2 • b.tang u) := by
      simp only [tang, dot, sub_x, sub_y, sub_z, smul_x, smul_y, smul_z, cross_x, cross_y, cross_z]
      ring
    rw [ht'] at h3
    have h4 : (a.cross u).dot (n1 • a.tang u) = 0 := by
      simp only [tang, dot, sub_x, sub_y, sub_z, smul_x, smul_y, smul_z, cross_x, cross_y, cross_z]
      ring
    rw [h4] at h3
    rcases mul_eq_zero.1 h3 with h | h
    · exact absurd h h2.ne'
    · exact h
  · intro hlt
    simp only [Bool.false_eq_true, if_false, SameSide] at hside
    rcases hside.lt_or_eq with h | h
    · exact h
    · exfalso
      have hb0 : b.dot u = 0 := by
        rcases mul_eq_zero.1 h.symm with h | h
        · exact absurd h hau
        · exact h
      rw [hb0] at hsq
      nlinarith

/-- A ray travelling along `+z` at 45° onto a plane with normal `-z`, from vacuum into an index
of `√2`, is refracted to 30°. -/
example : snellsLaw ⟨Real.sqrt 2 / 2, 0, Real.sqrt 2 / 2⟩ 1 (Real.sqrt 2) false ⟨0, 0, -1⟩
    = some ⟨1 / 2, 0, Real.sqrt 3 / 2⟩ := by
  have h2 : Real.sqrt 2 * Real.sqrt 2 = 2 := Real.mul_self_sqrt (by norm_num)
  have h3 : Real.sqrt 3 * Real.sqrt 3 = 3 := Real.mul_self_sqrt (by norm_num)
  have p2 : 0 < Real.sqrt 2 := Real.sqrt_pos.2 (by norm_num)
  have p3 : 0 < Real.sqrt 3 := Real.sqrt_pos.2 (by norm_num)
  rw [snellsLaw_iff]
  · refine ⟨⟨?_, ?_⟩, ?_⟩
    · simp only [dot]; nlinarith
    · apply V3.ext <;> vsimp <;> simp only [dot] <;> nlinarith
    · simp only [Bool.false_eq_true, if_false, SameSide, dot]; nlinarith [mul_pos p2 p3]
  · simp [dot]
  · norm_num
  · exact p2
  · simp only [dot]; nlinarith

/-- **C02**: reflection by a mirror in a single medium is `a - 2 (a·u) u`. -/
theorem C02_reflection {a u : V3} {n : ℝ} (ha : a.dot a = 1) (hn : n ≠ 0) :
    snellsLaw a n n true u = some (a - (2 * a.dot u) • u) := by
  rw [snellsLaw_eq_some]
  have e : (n / n) ^ 2 + a.dot u ^ 2 - a.dot a = a.dot u ^ 2 := by
    rw [ha, div_self hn]; ring
  rw [e, Real.sqrt_sq_eq_abs, div_self hn]
  refine ⟨hn, hn, sq_nonneg _, ?_⟩
  have : copysign1 (a.dot u) * |a.dot u| = a.dot u := by
    unfold copysign1
    split
    · rename_i h; rw [abs_of_neg h]; ring
    · rename_i h; push Not at h; rw [abs_of_nonneg h]; ring
  simp only [if_true]
  have e2 : -a.dot u + -1 * copysign1 (a.dot u) * |a.dot u| = - (2 * a.dot u) := by
    linear_combination -this
  rw [e2]
  vring

/-- The consequences of the reflection formula named in C02. -/
theorem C02_reflection_consequences {a u b : V3} {n : ℝ} (ha : a.dot a = 1) (hu : u.dot u = 1)
    (hn : n ≠ 0) (h : snellsLaw a n n true u = some b) :
    b.dot b = 1 ∧ b.tang u = a.tang u ∧ b.dot u = -a.dot u := by
  rw [C02_reflection ha hn, Option.some.injEq] at h
  have hbu : b.dot u = -a.dot u := by
    rw [← h, sub_dot, smul_dot, hu]; ring
  refine ⟨?_, ?_, hbu⟩
  · have : b.dot b = a.dot a - 4 * (a.dot u) ^ 2 + 4 * (a.dot u) ^ 2 * u.dot u := by
      rw [← h]; simp only [dot, sub_x, sub_y, sub_z, smul_x, smul_y, smul_z]; ring
    rw [this, ha, hu]; ring
  · unfold tang; rw [hbu, ← h]; vring

/-- A mirror at 45° turns a ray from `+z` to `+x`. -/
example : snellsLaw ⟨0, 0, 1⟩ 1 1 true ⟨Real.sqrt 2 / 2, 0, -(Real.sqrt 2 / 2)⟩
    = some ⟨1, 0, 0⟩ := by
  have h2 : Real.sqrt 2 * Real.sqrt 2 = 2 := Real.mul_self_sqrt (by norm_num)
  rw [C02_reflection (by simp [dot]) (by norm_num)]
  simp only [Option.some.injEq]
  apply V3.ext <;> vsimp <;> simp only [dot] <;> nlinarith

/-- **C03**: flipping the normal does not change the result (including the cases without a
finite result). -/
theorem C03_normal_flip_partial (a u : V3) (n1 n2 : ℝ) (m : Bool) (hau : a.dot u ≠ 0) :
    snellsLaw a n1 n2 m (-u) = snellsLaw a n1 n2 m u := by
  have hflip : ∀ (v b : V3), a.dot v ≠ 0 → snellsLaw a n1 n2 m v = some b →
      snellsLaw a n1 n2 m (-v) = some b := by
    intro v b hv h
    rw [snellsLaw_eq_some] at h ⊢
    obtain ⟨h2, h1, hs, hb⟩ := h
    rw [dot_neg, neg_sq, copysign1_neg hv]
    refine ⟨h2, h1, hs, ?_⟩
    rw [hb]
    vring
  have hau' : a.dot (-u) ≠ 0 := by rw [dot_neg]; exact neg_ne_zero.2 hau
  have hneg : -(-u) = u := by vring
  cases h : snellsLaw a n1 n2 m u with
  | some b => exact hflip u b hau h
  | none =>
    cases h' : snellsLaw a n1 n2 m (-u) with
    | none => rfl
    | some b =>
      have := hflip (-u) b hau' h'
      rw [hneg, h] at this
      exact absurd this (by simp)

/-- The hypothesis of `C03_normal_flip_partial` is needed: for a ray grazing the surface
(`a·u = 0`) the sign convention of `copysign` decides, and the two orientations differ. -/
theorem C03_grazing_counterexample :
    snellsLaw ⟨1, 0, 0⟩ 1 2 false (-(⟨0, 0, 1⟩ : V3)) ≠ snellsLaw ⟨1, 0, 0⟩ 1 2 false ⟨0, 0, 1⟩ := by
  intro h
  have hd : (⟨1, 0, 0⟩ : V3).dot ⟨0, 0, 1⟩ = 0 := by simp [dot]
  have hd' : (⟨1, 0, 0⟩ : V3).dot (-⟨0, 0, 1⟩) = 0 := by simp [dot]
  have e1 : snellsLaw ⟨1, 0, 0⟩ 1 2 false ⟨0, 0, 1⟩ = some ⟨1 / 2, 0, Real.sqrt 3 / 2⟩ := by
    rw [snellsLaw_eq_some, hd]
    refine ⟨by norm_num, by norm_num, by simp [dot], ?_⟩
    have : (2 / 1 : ℝ) ^ 2 + 0 ^ 2 - (⟨1, 0, 0⟩ : V3).dot ⟨1, 0, 0⟩ = 3 := by simp [dot]; norm_num
    rw [this]
    apply V3.ext <;> vsimp <;> simp [copysign1] <;> ring
  rw [e1, snellsLaw_eq_some, hd'] at h
  obtain ⟨-, -, -, h⟩ := h
  have h := congrArg V3.z h
  have : (2 / 1 : ℝ) ^ 2 + 0 ^ 2 - (⟨1, 0, 0⟩ : V3).dot ⟨1, 0, 0⟩ = 3 := by simp [dot]; norm_num
  rw [this] at h
  have p3 : 0 < Real.sqrt 3 := Real.sqrt_pos.2 (by norm_num)
  simp [copysign1] at h
  linarith

/-- Non-vacuity of `C03_normal_flip_partial`: normal incidence on glass. -/
example : (⟨0, 0, 1⟩ : V3).dot ⟨0, 0, -1⟩ ≠ 0 := by simp [dot]

/-- **C04**: reversibility of refraction.  A ray that is transmitted below the critical angle
(`b·u ≠ 0`), sent back, retraces its path. -/
theorem C04_reversible {a u b : V3} {n1 n2 : ℝ} (ha : a.dot a = 1) (hu : u.dot u = 1)
    (h1 : 0 < n1) (h2 : 0 < n2) (hau : a.dot u ≠ 0) (h : snellsLaw a n1 n2 false u = some b)
    (hcrit : n1 ^ 2 * (1 - (a.dot u) ^ 2) < n2 ^ 2) :
    snellsLaw (-b) n2 n1 false u = some (-a) := by
  obtain ⟨-, ht, -, -, -, hpos⟩ := C01_refraction ha hu h1 h2 hau h
  have hpos := hpos hcrit
  have hbu : b.dot u ≠ 0 := by rintro h0; rw [h0] at hpos; simp at hpos
  rw [snellsLaw_iff false hu h2 h1 (by rw [neg_dot]; exact neg_ne_zero.2 hbu)]
  refine ⟨⟨?_, ?_⟩, ?_⟩
  · rw [neg_dot, dot_neg, ha]; ring
  · have e : ∀ v : V3, (-v).tang u = -(v.tang u) := by
      intro v; unfold tang; rw [neg_dot]; vring
    rw [e, e]
    have hx := congrArg V3.x ht
    have hy := congrArg V3.y ht
    have hz := congrArg V3.z ht
    simp only [smul_x, smul_y, smul_z] at hx hy hz
    ext <;> simp <;> linarith
  · simp only [Bool.false_eq_true, if_false, SameSide, neg_dot]
    nlinarith

/-- **C04**, reflection: a reflected ray sent back retraces its path. -/
theorem C04_reversible_mirror {a u b : V3} {n : ℝ} (ha : a.dot a = 1) (hu : u.dot u = 1)
    (hn : n ≠ 0) (h : snellsLaw a n n true u = some b) :
    snellsLaw (-b) n n true u = some (-a) := by
  obtain ⟨hb, -, hbu⟩ := C02_reflection_consequences ha hu hn h
  rw [C02_reflection (by rw [neg_dot, dot_neg, hb]; ring) hn]
  rw [C02_reflection ha hn, Option.some.injEq] at h
  rw [neg_dot, hbu, ← h]
  simp only [Option.some.injEq]
  vring

/-- Non-vacuity of C04: 45° incidence from vacuum into glass satisfies the guard. -/
example : (1 : ℝ) ^ 2 * (1 - ((⟨Real.sqrt 2 / 2, 0, Real.sqrt 2 / 2⟩ : V3).dot ⟨0, 0, -1⟩) ^ 2)
    < (3 / 2 : ℝ) ^ 2 := by
  have h2 : Real.sqrt 2 * Real.sqrt 2 = 2 := Real.mul_self_sqrt (by norm_num)
  simp only [dot]; nlinarith

/-- **C05**: the result is not finite exactly under total internal reflection, i.e. when the
tangential part of the incident wave vector exceeds the new index. -/
theorem C05_total_internal_reflection {a u : V3} {n1 n2 : ℝ} (m : Bool) (hu : u.dot u = 1)
    (h1 : 0 < n1) (h2 : 0 < n2) :
    snellsLaw a n1 n2 m u = none ↔ n2 ^ 2 < n1 ^ 2 * (a.tang u).dot (a.tang u) := by
  have e : (a.tang u).dot (a.tang u) = a.dot a - (a.dot u) ^ 2 := by
    have : (a.tang u).dot (a.tang u) = a.dot a - 2 * (a.dot u) ^ 2 + (a.dot u) ^ 2 * u.dot u := by
      simp only [tang, dot, sub_x, sub_y, sub_z, smul_x, smul_y, smul_z]; ring
    rw [this, hu]; ring
  have key : 0 ≤ (n2 / n1) ^ 2 + a.dot u ^ 2 - a.dot a ↔
      n1 ^ 2 * (a.tang u).dot (a.tang u) ≤ n2 ^ 2 := by
    rw [e]
    have : (n2 / n1) ^ 2 + a.dot u ^ 2 - a.dot a
        = (n2 ^ 2 - n1 ^ 2 * (a.dot a - a.dot u ^ 2)) / n1 ^ 2 := by field_simp; ring
    rw [this, div_nonneg_iff]
    have := pow_pos h1 2
    constructor
    · rintro (⟨h, -⟩ | ⟨-, h⟩) <;> linarith
    · intro h; left; exact ⟨by linarith, this.le⟩
  rw [Option.eq_none_iff_forall_ne_some]
  constructor
  · intro h
    by_contra hcon
    push Not at hcon
    exact h _ (snellsLaw_eq_some.2 ⟨h2.ne', h1.ne', key.2 hcon, rfl⟩)
  · intro h b hb
    have := key.1 (snellsLaw_eq_some.1 hb).2.2.1
    linarith

/-- **C05**: refraction into a denser (or equal) medium, and reflection in one medium, always
have a finite result. -/
theorem C05_denser_never_fails {a u : V3} {n1 n2 : ℝ} (m : Bool) (ha : a.dot a = 1)
    (hu : u.dot u = 1) (h1 : 0 < n1) (h12 : n1 ≤ n2) : ∃ b, snellsLaw a n1 n2 m u = some b := by
  have h2 : 0 < n2 := lt_of_lt_of_le h1 h12
  rw [← Option.isSome_iff_exists, Option.isSome_iff_ne_none, Ne,
    C05_total_internal_reflection m hu h1 h2]
  have : (a.tang u).dot (a.tang u) = 1 - (a.dot u) ^ 2 := by
    have : (a.tang u).dot (a.tang u) = a.dot a - 2 * (a.dot u) ^ 2 + (a.dot u) ^ 2 * u.dot u := by
      simp only [tang, dot, sub_x, sub_y, sub_z, smul_x, smul_y, smul_z]; ring
    rw [this, ha, hu]; ring
  rw [this]
  nlinarith [sq_nonneg (a.dot u), mul_nonneg (sq_nonneg n1) (sq_nonneg (a.dot u))]

/-- Non-vacuity of C05: 60° inside glass of index 2 against vacuum is totally reflected. -/
example : snellsLaw ⟨Real.sqrt 3 / 2, 0, 1 / 2⟩ 2 1 false ⟨0, 0, -1⟩ = none := by
  have h3 : Real.sqrt 3 * Real.sqrt 3 = 3 := Real.mul_self_sqrt (by norm_num)
  rw [C05_total_internal_reflection false (by simp [dot]) (by norm_num) (by norm_num)]
  simp only [dot, tang, sub_x, sub_y, sub_z, smul_x, smul_y, smul_z]
  nlinarith

end Optika
