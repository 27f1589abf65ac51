import Verif.Props.Reverse
import Verif.Props.Parabola

/-!
# C86: paraboloids and cylinders can be passed both ways
-/

namespace Optika
open V3

theorem parabolaIntercept_onLine {f : ℝ} {o u q : V3} (h : parabolaIntercept f o u = some q) : OnLine o u q := by
  unfold parabolaIntercept at h
  split at h <;> simp only [Option.bind_eq_bind, Option.bind_eq_some_iff, Option.pure_def, Option.some.injEq] at h
  · obtain ⟨-, -, t, -, rfl⟩ := h
    exact ⟨t, by ext <;> vsimp <;> ring⟩
  · obtain ⟨t, -, rfl⟩ := h
    exact ⟨t, by ext <;> vsimp <;> ring⟩

theorem cylinderIntercept_onLine {r : ℝ} {o u q : V3} (h : cylinderIntercept r o u = some q) : OnLine o u q := by
  unfold cylinderIntercept at h
  simp only at h
  split at h <;> simp only [Option.bind_eq_bind, Option.bind_eq_some_iff, Option.pure_def, Option.some.injEq] at h <;>
  · obtain ⟨t, -, rfl⟩ := h
    exact ⟨t, by ext <;> vsimp <;> ring⟩

/-- A line that leaves a point of a paraboloid on the side that the code looks for strikes it there. -/
theorem parabola_again {f : ℝ} {q d n : V3} (hon : OnGraph (parabolaHeight f) q) (hn : parabolaNormal f q = some n)
    (hexact : d.x ^ 2 + d.y ^ 2 = 0 ∨ 1e-10 < d.x ^ 2 + d.y ^ 2) (hd : d.z * d.dot n < 0) :
    parabolaIntercept f q d = some q := by
  obtain ⟨hf, hq⟩ := onGraph_parabola.1 hon
  obtain ⟨n', k, hn', rfl, -⟩ := parabolaNormal_eq hf q hon
  rw [hn', Option.some.injEq] at hn
  subst hn
  have hnz : k * f > 0 := by
    have hm : parabolaNormal f q = some (k • ⟨q.x, q.y, -(2 * f)⟩) := hn'
    unfold parabolaNormal at hm
    have h2f : 2 * f ≠ 0 := by simpa using hf
    have hpos : (0 : ℝ) < (q.x / (2 * f)) ^ 2 + (q.y / (2 * f)) ^ 2 + 1 := by positivity
    simp only [div?_of_ne h2f, Option.bind_eq_bind, Option.bind_some, Option.pure_def, sqrt?_of_nonneg hpos.le,
      Option.some.injEq] at hm
    have hz := congrArg V3.z hm
    simp only [smul_z] at hz
    have hs := Real.sqrt_pos.2 hpos
    generalize Real.sqrt _ = s at *
    have : k * f = 1 / (2 * s) := by
      field_simp at hz ⊢
      linarith
    rw [this]; positivity
  have hz0 : d.z ≠ 0 := fun h => by rw [h] at hd; simp at hd
  have hfin : ∀ t : ℝ, t = 0 → (⟨q.x + d.x * t, q.y + d.y * t, q.z + d.z * t⟩ : V3) = q := by
    rintro t rfl; ext <;> simp
  unfold parabolaIntercept
  rcases hexact with h | h
  · rw [if_neg (by rw [h]; norm_num), div?_of_ne (by positivity)]
    simp only [Option.bind_eq_bind, Option.bind_some, Option.pure_def, Option.some.injEq]
    apply hfin
    rw [hq]; simp
  · rw [if_pos h]
    have e : -(q.y * d.x) ^ 2 - (q.x * d.y) ^ 2 + 2 * q.y * d.y * (q.x * d.x - 2 * f * d.z)
        + 4 * f * (q.z * (d.x ^ 2 + d.y ^ 2) - q.x * d.x * d.z + f * d.z ^ 2)
        = (2 * f * d.z - q.x * d.x - q.y * d.y) ^ 2 := by linear_combination -(d.x ^ 2 + d.y ^ 2) * hq
    have hA : d.x ^ 2 + d.y ^ 2 ≠ 0 := by norm_num at h; linarith
    rw [e, sqrt?_of_nonneg (sq_nonneg _), Real.sqrt_sq_eq_abs]
    simp only [Option.bind_eq_bind, Option.bind_some, div?_of_ne hA, Option.pure_def, Option.some.injEq]
    apply hfin
    have hm : 0 < (f * d.z) * (2 * f * d.z - q.x * d.x - q.y * d.y) := by
      have h1 : d.dot (k • (⟨q.x, q.y, -(2 * f)⟩ : V3)) = -k * (2 * f * d.z - q.x * d.x - q.y * d.y) := by
        simp only [V3.dot, smul_x, smul_y, smul_z]; ring
      rw [h1] at hd
      generalize 2 * f * d.z - q.x * d.x - q.y * d.y = m at *
      have hk2 : 0 < k ^ 2 := by
        have : k ≠ 0 := fun h => by rw [h] at hnz; simp at hnz
        positivity
      have h2 : 0 < k * f * (d.z * (k * m)) := mul_pos hnz (by linarith)
      have h3 : k ^ 2 * (f * d.z * m) = k * f * (d.z * (k * m)) := by ring
      rw [← h3] at h2
      exact (pos_iff_pos_of_mul_pos h2).1 hk2
    have ht : -q.x * d.x - q.y * d.y + 2 * f * d.z = 2 * f * d.z - q.x * d.x - q.y * d.y := by ring
    rw [ht]
    generalize 2 * f * d.z - q.x * d.x - q.y * d.y = m at *
    rcases mul_pos_iff.1 hm with ⟨a, b⟩ | ⟨a, b⟩
    · rw [sgn_of_pos a, abs_of_pos b]; simp
    · rw [sgn_of_neg a, abs_of_neg b]; simp

/-- The same for a cylinder. -/
theorem cylinder_again {r : ℝ} {q d n : V3} (hon : OnGraph (cylinderHeight r) q) (hn : cylinderNormal r q = some n)
    (hd : d.z * d.dot n < 0) : n.dot n = 1 ∧ cylinderIntercept r q d = some q := by
  obtain ⟨hr, hq, hrz⟩ := onGraph_cylinder.1 hon
  have hs0 : 0 ≤ (r - q.z) / r := by
    rw [div_nonneg_iff]
    rcases lt_or_gt_of_ne hr with h | h
    · right; exact ⟨by nlinarith, h.le⟩
    · left; exact ⟨by nlinarith, h.le⟩
  have hnorm : 1 - (q.x / r) ^ 2 = ((r - q.z) / r) ^ 2 := by field_simp; linarith
  have hN : n = ⟨q.x / r, 0, -((r - q.z) / r)⟩ := by
    unfold cylinderNormal at hn
    simp only [div?_of_ne hr, Option.bind_eq_bind, Option.bind_some, Option.pure_def, hnorm,
      sqrt?_of_nonneg (sq_nonneg _), Real.sqrt_sq hs0, Option.some.injEq] at hn
    exact hn.symm
  subst hN
  refine ⟨by simp only [V3.dot]; linarith [hnorm], ?_⟩
  have he : d.dot ⟨q.x / r, 0, -((r - q.z) / r)⟩ = (d.x * q.x - d.z * (r - q.z)) / r := by
    simp only [V3.dot]; field_simp; ring
  rw [he] at hd
  generalize hm : d.x * q.x - d.z * (r - q.z) = m at *
  have hneg : (r * d.z) * m < 0 := by
    have h1 : (r * d.z) * m = r ^ 2 * (d.z * (m / r)) := by field_simp
    rw [h1]
    exact mul_neg_of_pos_of_neg (by positivity) hd
  have hm0 : m ≠ 0 := fun h => by rw [h] at hneg; simp at hneg
  have hdisc : ((-d.z) * (-d.z) + d.x * d.x) * r ^ 2 - ((0 - q.x) * (-d.z) + (r - q.z) * d.x) ^ 2 = m ^ 2 := by
    rw [← hm]; linear_combination -(d.x ^ 2 + d.z ^ 2) * hq
  have hA : (-d.z) * (-d.z) + d.x * d.x ≠ 0 := by
    intro h0
    have hx : d.x = 0 := by nlinarith [sq_nonneg d.x, sq_nonneg d.z]
    have hz : d.z = 0 := by nlinarith [sq_nonneg d.x, sq_nonneg d.z]
    rw [hz] at hneg; simp at hneg
  unfold cylinderIntercept
  simp only [V3.cross, V3.dot, sub_x, sub_y, sub_z, mul_zero, mul_one, zero_sub, sub_zero, zero_mul, add_zero]
  have hm2 : 0 < m ^ 2 := by positivity
  have e1 : (-d.z * -d.z + d.x * d.x) * r ^ 2 - (-q.x * -d.z + (r - q.z) * d.x) ^ 2 = m ^ 2 := by
    rw [← hdisc]; ring
  rw [e1, if_pos hm2, Real.sqrt_sq_eq_abs, div?_of_ne hA]
  simp only [Option.bind_eq_bind, Option.bind_some, Option.pure_def, Option.some.injEq]
  have ht : -d.z * -(r - q.z) + d.x * -q.x = -m := by rw [← hm]; ring
  rw [ht]
  have h0 : -m - sgn (r * d.z) * |m| = 0 := by
    rcases mul_neg_iff.1 hneg with ⟨a, b⟩ | ⟨a, b⟩
    · rw [sgn_of_pos a, abs_of_neg b]; ring
    · rw [sgn_of_neg a, abs_of_pos b]; ring
  rw [h0]
  ext <;> simp

/-- **C86**, the condition: a paraboloid can be passed both ways if the ray leaves it as in `C86_sphere`, and its direction is not
among those that the code wrongly takes to be parallel to the axis. -/
theorem C86_parabola {s : Surface} {r out : Ray} {f : ℝ} (hs : s.sag = parabolaSag f) (rules : RulesBothWays s r out)
    (clips : ∀ a, s.aperture = some a → a.unit = .length)
    (before : 0 < r.index) (after : 0 < out.index)
    (mirror : s.material.isMirror = true → out.index = r.index)
    (hr : (s.frame.ivec out.direction).x ^ 2 + (s.frame.ivec out.direction).y ^ 2 = 0 ∨
      1e-10 < (s.frame.ivec out.direction).x ^ 2 + (s.frame.ivec out.direction).y ^ 2)
    (hon : OnGraph (parabolaHeight f) (s.frame.ipoint out.position))
    (hn : ∀ n, (parabolaSag f).normal (s.frame.ipoint out.position) = some n →
      (s.frame.ivec r.direction).dot n ≠ 0 ∧
      (s.frame.ivec out.direction).z * (s.frame.ivec out.direction).dot n < 0) : TwoWay s r out := by
  obtain ⟨n, k, hN, rfl, hk⟩ := parabolaNormal_eq (onGraph_parabola.1 hon).1 _ hon
  obtain ⟨h1, h2⟩ := hn _ hN
  refine ⟨rules, clips, ?_, fun t => ?_, ?_, before, after, mirror⟩
  · rw [hs]; intro o u q h; exact parabolaIntercept_onLine h
  · rw [hs, (C85_parabola f hr _ _).2]; exact parabola_again hon hN hr h2
  · rw [hs]
    intro n hn'
    have : some (k • (⟨(s.frame.ipoint out.position).x, (s.frame.ipoint out.position).y, -(2 * f)⟩ : V3)) = some n := by
      rw [← hN, ← hn']; rfl
    rw [Option.some.injEq] at this
    subst this
    refine ⟨?_, h1, fun h0 => by rw [h0] at h2; simp at h2⟩
    have hg := (onGraph_parabola.1 hon).2
    simp only [V3.dot, smul_x, smul_y, smul_z]
    linear_combination hk + k ^ 2 * hg

/-- **C86**, the condition: a cylinder can be passed both ways if the ray leaves it as in `C86_sphere`. -/
theorem C86_cylinder {s : Surface} {r out : Ray} {R : ℝ} (hs : s.sag = cylinderSag R) (rules : RulesBothWays s r out)
    (clips : ∀ a, s.aperture = some a → a.unit = .length)
    (before : 0 < r.index) (after : 0 < out.index)
    (mirror : s.material.isMirror = true → out.index = r.index)
    (hon : OnGraph (cylinderHeight R) (s.frame.ipoint out.position))
    (hn : ∀ n, (cylinderSag R).normal (s.frame.ipoint out.position) = some n →
      (s.frame.ivec r.direction).dot n ≠ 0 ∧
      (s.frame.ivec out.direction).z * (s.frame.ivec out.direction).dot n < 0) : TwoWay s r out := by
  have hdef : ∃ n, cylinderNormal R (s.frame.ipoint out.position) = some n := by
    obtain ⟨hr, hq, -⟩ := onGraph_cylinder.1 hon
    generalize s.frame.ipoint out.position = q at *
    have hnorm : 1 - (q.x / R) ^ 2 = ((R - q.z) / R) ^ 2 := by field_simp; linarith
    refine ⟨⟨q.x / R, 0, -Real.sqrt (((R - q.z) / R) ^ 2)⟩, ?_⟩
    · unfold cylinderNormal
      simp only [div?_of_ne hr, Option.bind_eq_bind, Option.bind_some, Option.pure_def, hnorm,
        sqrt?_of_nonneg (sq_nonneg _)]
  obtain ⟨n, hN⟩ := hdef
  obtain ⟨h1, h2⟩ := hn _ hN
  refine ⟨rules, clips, ?_, fun t => ?_, ?_, before, after, mirror⟩
  · rw [hs]; intro o u q h; exact cylinderIntercept_onLine h
  · rw [hs, (C85_cylinder R _ _ _).2]; exact (cylinder_again hon hN h2).2
  · rw [hs]
    intro n' hn'
    obtain ⟨h3, h4⟩ := hn _ hn'
    exact ⟨(cylinder_again hon hn' h4).1, h3, fun h0 => by rw [h0] at h4; simp at h4⟩

/-- **C86**, the condition: a conic surface can be passed both ways by the rays that leave on a line which meets it once
(see `C85_conic_counterexample` for the others), and whose direction is not among those for which the code solves an approximate
equation. -/
theorem C86_conic_partial {s : Surface} {r out : Ray} {R k : ℝ} (hs : s.sag = conicSag R k) (rules : RulesBothWays s r out)
    (clips : ∀ a, s.aperture = some a → a.unit = .length)
    (before : 0 < r.index) (after : 0 < out.index)
    (mirror : s.material.isMirror = true → out.index = r.index) (hd : out.direction ≠ 0)
    (hr : let d := s.frame.ivec out.direction
      (1 / R) * (d.x ^ 2 + d.y ^ 2 + (1 + k) * d.z ^ 2) = 0 ∨ 1e-12 ≤ |(1 / R) * (d.x ^ 2 + d.y ^ 2 + (1 + k) * d.z ^ 2)|)
    (hon : OnGraph (conicHeight R k) (s.frame.ipoint out.position))
    (honce : ∀ q, OnLine (s.frame.ipoint out.position) (s.frame.ivec out.direction) q → OnGraph (conicHeight R k) q →
      q = s.frame.ipoint out.position)
    (hn : ∀ n, (conicSag R k).normal (s.frame.ipoint out.position) = some n →
      (s.frame.ivec r.direction).dot n ≠ 0 ∧ (s.frame.ivec out.direction).dot n ≠ 0) : TwoWay s r out := by
  have hd0 : s.frame.ivec out.direction ≠ 0 := fun h0 => hd (by
    have := congrArg s.frame.vec h0
    rw [Rigid.vec_ivec] at this
    rw [this]
    show s.frame.rot.mulVec 0 = 0
    ext <;> simp [M3.mulVec, V3.dot])
  have self : OnLine (s.frame.ipoint out.position) (s.frame.ivec out.direction) (s.frame.ipoint out.position) :=
    ⟨0, by vring⟩
  refine ⟨rules, clips, ?_, fun t => ?_, ?_, before, after, mirror⟩
  · rw [hs]
    intro o u q h
    have h : conicIntercept R k o u = some q := h
    unfold conicIntercept at h
    simp only [Option.bind_eq_bind, Option.bind_eq_some_iff, Option.pure_def, Option.some.injEq] at h
    obtain ⟨-, -, t, -, rfl⟩ := h
    exact ⟨t, by ext <;> vsimp <;> ring⟩
  · rw [hs, (C85_conic_partial hr hd0 (fun q q' h1 h2 h3 h4 => (honce q h1 h3).trans (honce q' h2 h4).symm) t).2]
    obtain ⟨q, hq⟩ := C08_conic_complete hr hd0 ⟨_, self, hon⟩
    obtain ⟨hg, t', ht, -⟩ := C08_conic_sound hr hd0 hq
    show conicIntercept R k _ _ = _
    rw [hq, honce q ⟨t', ht⟩ hg]
  · rw [hs]
    intro n hn'
    refine ⟨?_, hn n hn'⟩
    have h : conicNormal R k (s.frame.ipoint out.position) = some n := hn'
    unfold conicNormal at h
    simp only [Option.bind_eq_bind, Option.bind_eq_some_iff, Option.pure_def, Option.some.injEq, div?_eq_some] at h
    obtain ⟨c, -, g, -, a, -, b, -, x, ⟨hl, rfl⟩, y, ⟨-, rfl⟩, z, ⟨-, rfl⟩, rfl⟩ := h
    have hl2 := V3.len_sq ⟨a, b, -1⟩
    simp only [V3.dot] at hl2 ⊢
    field_simp
    linarith

/-- A ray along the axis of a parabolic and of a cylindrical mirror meets the conditions. -/
example : TwoWay ⟨parabolaSag 1, mirror, none, none, none⟩ ⟨1, ⟨0, 0, 1⟩, ⟨0, 0, -1⟩, 1, 0, 1, true⟩
      ⟨1, 0, ⟨0, 0, 1⟩, 1, 0, 1, true⟩ ∧
    TwoWay ⟨cylinderSag 1, mirror, none, none, none⟩ ⟨1, ⟨0, 0, 1⟩, ⟨0, 0, -1⟩, 1, 0, 1, true⟩
      ⟨1, 0, ⟨0, 0, 1⟩, 1, 0, 1, true⟩ := by
  have hi : ∀ s : Sag, (⟨s, mirror, none, none, none⟩ : Surface).frame = Rigid.id := fun _ => rfl
  have h1 : ∀ v : V3, Rigid.id.ipoint v = v := Rigid.id_ipoint
  have h2 : ∀ v : V3, Rigid.id.ivec v = v := Rigid.id_ivec
  constructor
  · refine C86_parabola rfl (RulesBothWays.plain rfl _ _) (by simp) (by simp) (by simp) (by simp) ?_ ?_ ?_
    · simp [hi, h2]
    · rw [onGraph_parabola]; simp [hi, h1]
    · intro n hn
      simp only [hi, h1] at hn
      have : n = ⟨0, 0, -1⟩ := by
        simp [parabolaSag, parabolaNormal, div?, sqrt?] at hn
        have h10 : ¬ (1 : ℝ) < 0 := by norm_num
        rw [if_neg h10, Option.bind_some, Option.some.injEq] at hn
        rw [← hn]
        norm_num
      rw [this]
      simp [hi, h2, V3.dot]
  · refine C86_cylinder (R := 1) rfl (RulesBothWays.plain rfl _ _) (by simp) (by simp) (by simp) (by simp) ?_ ?_
    · rw [onGraph_cylinder]; simp [hi, h1]
    · intro n hn
      simp only [hi, h1] at hn
      have : n = ⟨0, 0, -1⟩ := by
        simp [cylinderSag, cylinderNormal, div?, sqrt?] at hn
        have h10 : ¬ (1 : ℝ) < 0 := by norm_num
        simpa [h10, eq_comm] using hn
      rw [this]
      simp [hi, h2, V3.dot]

/-- So does one along the axis of a hyperbolic mirror. -/
example : TwoWay ⟨conicSag 1 (-2), mirror, none, none, none⟩ ⟨1, ⟨0, 0, 1⟩, ⟨0, 0, -1⟩, 1, 0, 1, true⟩
    ⟨1, 0, ⟨0, 0, 1⟩, 1, 0, 1, true⟩ := by
  have hi : (⟨conicSag 1 (-2), mirror, none, none, none⟩ : Surface).frame = Rigid.id := rfl
  have h1 : ∀ v : V3, Rigid.id.ipoint v = v := Rigid.id_ipoint
  have h2 : ∀ v : V3, Rigid.id.ivec v = v := Rigid.id_ivec
  have hz : OnGraph (conicHeight 1 (-2)) 0 := by
    rw [onGraph_conic]; norm_num
  refine C86_conic_partial (R := 1) (k := -2) rfl (RulesBothWays.plain rfl _ _) (by simp) (by simp) (by simp) (by simp) ?_ ?_ ?_ ?_ ?_
  · intro h
    have := congrArg V3.z h
    simp at this
  · simp only [hi, h2]; right; norm_num
  · simp only [hi, h1]; exact hz
  · simp only [hi, h1, h2]
    rintro q ⟨t, rfl⟩ hg
    obtain ⟨-, h3, h4⟩ := onGraph_conic.1 hg
    vsimp at h3 h4 ⊢
    have : t = 0 := by
      have : t * (2 + t) = 0 := by linarith
      rcases mul_eq_zero.1 this with h | h
      · exact h
      · exfalso; linarith
    subst this
    ext <;> simp
  · intro n hn
    simp only [hi, h1] at hn
    have : n = ⟨0, 0, -1⟩ := by
      have hn : conicNormal 1 (-2) 0 = some n := hn
      simp [conicNormal, div?, sqrt?, V3.len, V3.dot] at hn
      norm_num at hn
      rw [← hn]
    rw [this]
    simp [hi, h2, V3.dot]

end Optika
