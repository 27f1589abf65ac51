import Verif.Props.SolvedSag
import Verif.Props.Sags

/-!
# C85: the point that a ray strikes depends only on its line
-/

namespace Optika
open V3

/-- The point that is found on a line with direction `u` depends neither on the point of the line
where the ray starts nor on the sense in which the line is followed. -/
def StrikesByLine (intercept : V3 → V3 → Option V3) (u : V3) : Prop :=
  ∀ (o : V3) (s : ℝ), intercept (o + s • u) u = intercept o u ∧
    intercept (o + s • u) (-u) = intercept o u

/-- **C85**, plane. -/
theorem C85_flat (u : V3) : StrikesByLine flatSag.intercept u := by
  intro o s
  change flatIntercept _ _ = flatIntercept _ _ ∧ flatIntercept _ _ = flatIntercept _ _
  unfold flatIntercept
  by_cases hz : u.z = 0
  · simp [div?, hz]
  · rw [div?_of_ne hz, div?_of_ne hz, div?_of_ne (by simpa using hz)]
    simp only [Option.bind_eq_bind, Option.bind_some, Option.pure_def, Option.some.injEq]
    constructor <;> ext <;> vsimp <;> field_simp <;> ring

theorem sgn_neg (x : ℝ) : sgn (-x) = -sgn x := by
  rcases lt_trichotomy x 0 with h | rfl | h
  · rw [sgn_of_neg h, sgn_of_pos (by linarith)]; norm_num
  · simp [sgn_zero]
  · rw [sgn_of_pos h, sgn_of_neg (by linarith)]

/-- **C85**, sphere. -/
theorem C85_sphere (r : ℝ) {u : V3} (hu : u.dot u = 1) :
    StrikesByLine (sphereSag r).intercept u := by
  intro o s
  change sphereIntercept _ _ _ = sphereIntercept _ _ _ ∧ sphereIntercept _ _ _ = sphereIntercept _ _ _
  simp only [V3.dot] at hu
  have e1 : (u.x * (o.x + s * u.x) + u.y * (o.y + s * u.y) + u.z * (o.z + s * u.z - r)) ^ 2
      - ((o.x + s * u.x) ^ 2 + (o.y + s * u.y) ^ 2 + (o.z + s * u.z - r) ^ 2 - r ^ 2)
      = (u.x * o.x + u.y * o.y + u.z * (o.z - r)) ^ 2
      - (o.x ^ 2 + o.y ^ 2 + (o.z - r) ^ 2 - r ^ 2) := by
    have : u.x * (o.x + s * u.x) + u.y * (o.y + s * u.y) + u.z * (o.z + s * u.z - r)
      = u.x * o.x + u.y * o.y + u.z * (o.z - r) + s := by linear_combination s * hu
    rw [this]
    linear_combination -s ^ 2 * hu
  have e2 : (-u.x * (o.x + s * u.x) + -u.y * (o.y + s * u.y) + -u.z * (o.z + s * u.z - r)) ^ 2
      - ((o.x + s * u.x) ^ 2 + (o.y + s * u.y) ^ 2 + (o.z + s * u.z - r) ^ 2 - r ^ 2)
      = (u.x * o.x + u.y * o.y + u.z * (o.z - r)) ^ 2
      - (o.x ^ 2 + o.y ^ 2 + (o.z - r) ^ 2 - r ^ 2) := by
    rw [← e1]; ring
  have e3 : sgn (r * -u.z) = -sgn (r * u.z) := by rw [← sgn_neg]; congr 1; ring
  unfold sphereIntercept
  simp only [add_x, add_y, add_z, smul_x, smul_y, smul_z, neg_x, neg_y, neg_z, e1, e2, e3]
  generalize sqrt? _ = q
  cases q with
  | none => simp
  | some q =>
    simp only [Option.bind_eq_bind, Option.bind_some, Option.pure_def, Option.some.injEq]
    constructor <;> ext <;> simp only
    · linear_combination (-s * u.x) * hu
    · linear_combination (-s * u.y) * hu
    · linear_combination (-s * u.z) * hu
    · linear_combination (-s * u.x) * hu
    · linear_combination (-s * u.y) * hu
    · linear_combination (-s * u.z) * hu

/-- **C85**, paraboloid, for the rays that the code does not take to be parallel to the axis without
being so. -/
theorem C85_parabola (f : ℝ) {u : V3}
    (hexact : u.x ^ 2 + u.y ^ 2 = 0 ∨ 1e-10 < u.x ^ 2 + u.y ^ 2) :
    StrikesByLine (parabolaSag f).intercept u := by
  intro o s
  change parabolaIntercept _ _ _ = parabolaIntercept _ _ _
    ∧ parabolaIntercept _ _ _ = parabolaIntercept _ _ _
  unfold parabolaIntercept
  simp only [add_x, add_y, add_z, smul_x, smul_y, smul_z, neg_x, neg_y, neg_z, neg_sq]
  rcases hexact with h | h
  · have hx : u.x = 0 := by nlinarith [sq_nonneg u.x, sq_nonneg u.y]
    have hy : u.y = 0 := by nlinarith [sq_nonneg u.x, sq_nonneg u.y]
    have h0 : ¬ ((1e-10 : ℝ) < 0) := by norm_num
    simp only [gt_iff_lt, h, h0, if_false]
    by_cases hz : 4 * f * u.z = 0
    · have : 4 * f * -u.z = 0 := by linarith
      simp [div?, hz, this]
    · have : 4 * f * -u.z ≠ 0 := fun h => hz (by linarith)
      have hf : f ≠ 0 := by rintro rfl; simp at hz
      have hz : u.z ≠ 0 := by rintro h; simp [h] at hz
      simp only [hx, hy, mul_zero, neg_zero, add_zero, zero_mul]
      rw [div?_of_ne ‹_›, div?_of_ne ‹_›, div?_of_ne (by simp_all)]
      simp only [Option.bind_eq_bind, Option.bind_some, Option.pure_def, Option.some.injEq]
      constructor <;> ext <;> simp only <;> field_simp <;> ring
  · have hp : 0 < u.x ^ 2 + u.y ^ 2 := lt_trans (by norm_num) h
    simp only [gt_iff_lt, h, if_true]
    have e1 : -((o.y + s * u.y) * u.x) ^ 2 - ((o.x + s * u.x) * u.y) ^ 2
          + 2 * (o.y + s * u.y) * u.y * ((o.x + s * u.x) * u.x - 2 * f * u.z)
        + 4 * f * ((o.z + s * u.z) * (u.x ^ 2 + u.y ^ 2) - (o.x + s * u.x) * u.x * u.z + f * u.z ^ 2)
        = -(o.y * u.x) ^ 2 - (o.x * u.y) ^ 2 + 2 * o.y * u.y * (o.x * u.x - 2 * f * u.z)
        + 4 * f * (o.z * (u.x ^ 2 + u.y ^ 2) - o.x * u.x * u.z + f * u.z ^ 2) := by ring
    have e2 : -((o.y + s * u.y) * -u.x) ^ 2 - ((o.x + s * u.x) * -u.y) ^ 2
          + 2 * (o.y + s * u.y) * -u.y * ((o.x + s * u.x) * -u.x - 2 * f * -u.z)
        + 4 * f * ((o.z + s * u.z) * (u.x ^ 2 + u.y ^ 2) - (o.x + s * u.x) * -u.x * -u.z + f * u.z ^ 2)
        = -(o.y * u.x) ^ 2 - (o.x * u.y) ^ 2 + 2 * o.y * u.y * (o.x * u.x - 2 * f * u.z)
        + 4 * f * (o.z * (u.x ^ 2 + u.y ^ 2) - o.x * u.x * u.z + f * u.z ^ 2) := by ring
    have e3 : sgn (f * -u.z) = -sgn (f * u.z) := by rw [← sgn_neg]; congr 1; ring
    rw [e1, e2, e3]
    generalize sqrt? _ = q
    cases q with
    | none => simp
    | some q =>
      simp only [Option.bind_eq_bind, Option.bind_some, Option.pure_def]
      rw [div?_of_ne hp.ne', div?_of_ne hp.ne', div?_of_ne hp.ne']
      simp only [Option.bind_some, Option.some.injEq]
      constructor <;> ext <;> simp only <;> field_simp <;> ring

/-- **C85**, cylinder. -/
theorem C85_cylinder (r : ℝ) (u : V3) : StrikesByLine (cylinderSag r).intercept u := by
  intro o s
  change cylinderIntercept _ _ _ = cylinderIntercept _ _ _
    ∧ cylinderIntercept _ _ _ = cylinderIntercept _ _ _
  unfold cylinderIntercept
  simp only [V3.cross, V3.dot, add_x, add_y, add_z, smul_x, smul_y, smul_z, neg_x, neg_y, neg_z, sub_x,
    sub_y, sub_z, mul_zero, mul_one, zero_sub, sub_zero, add_zero, zero_mul, zero_add, neg_mul, mul_neg,
    neg_neg]
  have e3 : sgn (-(r * u.z)) = -sgn (r * u.z) := sgn_neg _
  have e1 : ((o.x + s * u.x) * u.z + (r - (o.z + s * u.z)) * u.x) ^ 2
    = (o.x * u.z + (r - o.z) * u.x) ^ 2 := by ring
  have e2 : (-((o.x + s * u.x) * u.z) + -((r - (o.z + s * u.z)) * u.x)) ^ 2
    = (o.x * u.z + (r - o.z) * u.x) ^ 2 := by ring
  rw [e1, e2, e3]
  split_ifs with h
  · have hp : u.z * u.z + u.x * u.x ≠ 0 := by
      intro h0
      rw [h0] at h
      nlinarith [sq_nonneg (o.x * u.z + (r - o.z) * u.x)]
    rw [div?_of_ne hp, div?_of_ne hp, div?_of_ne hp]
    simp only [Option.bind_eq_bind, Option.bind_some, Option.pure_def, Option.some.injEq]
    generalize Real.sqrt _ = q
    have hi : (u.z * u.z + u.x * u.x) * (u.z * u.z + u.x * u.x)⁻¹ = 1 := mul_inv_cancel₀ hp
    constructor <;> ext <;> simp only
    · linear_combination (-s * u.x) * hi
    · linear_combination (-s * u.y) * hi
    · linear_combination (-s * u.z) * hi
    · linear_combination (-s * u.x) * hi
    · linear_combination (-s * u.y) * hi
    · linear_combination (-s * u.z) * hi
  · by_cases hz : u.z = 0
    · simp [div?, hz]
    · rw [div?_of_ne hz, div?_of_ne hz, div?_of_ne (by simpa using hz)]
      simp only [Option.bind_eq_bind, Option.bind_some, Option.pure_def, Option.some.injEq]
      constructor <;> ext <;> simp only <;> field_simp <;> ring

/-- **C85**, sags with a transformation. -/
theorem C85_transformed (s : Sag) (g : Rigid) {u : V3}
    (h : StrikesByLine s.intercept (g.ivec u)) :
    StrikesByLine (s.withTransformation g).intercept u ∧
      StrikesByLine (flatSagWithTransformation g).intercept u := by
  have e (o : V3) (t : ℝ) : g.ipoint (o + t • u) = g.ipoint o + t • g.ivec u := by
    simp only [Rigid.ipoint, Rigid.ivec, M3.mulVec_sub, M3.mulVec_add, M3.mulVec_smul]
    vring
  have e' : g.ivec (-u) = -g.ivec u := by
    have := M3.mulVec_smul g.rot.transpose (-1) u
    have h1 : (-1 : ℝ) • u = -u := by vring
    have h2 : (-1 : ℝ) • g.rot.transpose.mulVec u = -g.rot.transpose.mulVec u := by vring
    rw [h1, h2] at this
    exact this
  constructor
  · intro o t
    obtain ⟨h1, h2⟩ := h (g.ipoint o) t
    change Option.map _ _ = Option.map _ _ ∧ Option.map _ _ = Option.map _ _
    rw [e, e', h1, h2]
    exact ⟨rfl, rfl⟩
  · intro o t
    obtain ⟨h1, h2⟩ := C85_flat (g.ivec u) (g.ipoint o) t
    change flatIntercept _ _ = flatIntercept _ _ at h1
    change flatIntercept _ _ = flatIntercept _ _ at h2
    change Option.map _ _ = Option.map _ _ ∧ Option.map _ _ = Option.map _ _
    rw [e, e', h1, h2]
    exact ⟨rfl, rfl⟩

/-- **C85** is false of conic surfaces: of the two points of a line on the surface the code takes the
one that is nearer to the start of the ray.  The hemisphere of radius one below `z = 1`, and a ray that
crosses it at the height `2 / 5`. -/
theorem C85_conic_counterexample :
    (conicSag 1 0).intercept ⟨1, 0, 2 / 5⟩ ⟨1, 0, 0⟩ = some ⟨4 / 5, 0, 2 / 5⟩ ∧
    (conicSag 1 0).intercept ((⟨1, 0, 2 / 5⟩ : V3) + (-2 : ℝ) • ⟨1, 0, 0⟩) ⟨1, 0, 0⟩
      = some ⟨-4 / 5, 0, 2 / 5⟩ := by
  have hs : Real.sqrt (64 / 25) = 8 / 5 := by
    rw [show (64 / 25 : ℝ) = (8 / 5) ^ 2 by norm_num]; exact Real.sqrt_sq (by norm_num)
  have r1 : conicRoot 1 1 ⟨1, 0, 2 / 5⟩ ⟨1, 0, 0⟩ (-1) = some (-9 / 5) := by
    unfold conicRoot; norm_num [hs, div?]
  have r2 : conicRoot 1 1 ⟨1, 0, 2 / 5⟩ ⟨1, 0, 0⟩ 1 = some (-1 / 5) := by
    unfold conicRoot; norm_num [hs, div?]
  have r3 : conicRoot 1 1 ⟨-1, 0, 2 / 5⟩ ⟨1, 0, 0⟩ (-1) = some (1 / 5) := by
    unfold conicRoot; norm_num [hs, div?]
  have r4 : conicRoot 1 1 ⟨-1, 0, 2 / 5⟩ ⟨1, 0, 0⟩ 1 = some (9 / 5) := by
    unfold conicRoot; norm_num [hs, div?]
  have ho : ((⟨1, 0, 2 / 5⟩ : V3) + (-2 : ℝ) • ⟨1, 0, 0⟩) = ⟨-1, 0, 2 / 5⟩ := by
    ext <;> vsimp <;> norm_num
  rw [ho]
  change conicIntercept _ _ _ _ = _ ∧ conicIntercept _ _ _ _ = _
  unfold conicIntercept conicPath
  simp only [div?_of_ne (one_ne_zero), Option.bind_eq_bind, Option.bind_some, div_one, add_zero]
  rw [r1, r2, r3, r4]
  constructor
  · norm_num [abs_of_pos, abs_of_neg]
  · norm_num [abs_of_pos, abs_of_neg]

theorem OnLine.iff_moved {o u q : V3} (s : ℝ) : OnLine (o + s • u) u q ↔ OnLine o u q := by
  constructor
  · rintro ⟨t, rfl⟩; exact ⟨s + t, by vring⟩
  · rintro ⟨t, rfl⟩; exact ⟨t - s, by vring⟩

theorem OnLine.iff_neg {o u q : V3} : OnLine o (-u) q ↔ OnLine o u q := by
  constructor
  · rintro ⟨t, rfl⟩; exact ⟨-t, by vring⟩
  · rintro ⟨t, rfl⟩; exact ⟨-t, by vring⟩

/-- **C85**, conic, for the lines that meet the surface only once, and outside of the rays for which the
code solves an approximate equation (C08). -/
theorem C85_conic_partial {R k : ℝ} {o u : V3}
    (hexact : (1 / R) * (u.x ^ 2 + u.y ^ 2 + (1 + k) * u.z ^ 2) = 0 ∨
      1e-12 ≤ |(1 / R) * (u.x ^ 2 + u.y ^ 2 + (1 + k) * u.z ^ 2)|) (hu : u ≠ 0)
    (honce : ∀ q q', OnLine o u q → OnLine o u q' → OnGraph (conicHeight R k) q →
      OnGraph (conicHeight R k) q' → q = q') (s : ℝ) :
    (conicSag R k).intercept (o + s • u) u = (conicSag R k).intercept o u ∧
      (conicSag R k).intercept (o + s • u) (-u) = (conicSag R k).intercept o u := by
  have hu' : -u ≠ 0 := fun h => hu (by
    have hx := congrArg V3.x h; have hy := congrArg V3.y h; have hz := congrArg V3.z h
    vsimp at hx hy hz
    ext <;> vsimp <;> linarith)
  have hexact' : (1 / R) * ((-u).x ^ 2 + (-u).y ^ 2 + (1 + k) * (-u).z ^ 2) = 0 ∨
      1e-12 ≤ |(1 / R) * ((-u).x ^ 2 + (-u).y ^ 2 + (1 + k) * (-u).z ^ 2)| := by simpa using hexact
  have key : ∀ o' u', (∀ q, OnLine o' u' q ↔ OnLine o u q) → u' ≠ 0 →
      ((1 / R) * (u'.x ^ 2 + u'.y ^ 2 + (1 + k) * u'.z ^ 2) = 0 ∨
      1e-12 ≤ |(1 / R) * (u'.x ^ 2 + u'.y ^ 2 + (1 + k) * u'.z ^ 2)|) →
      conicIntercept R k o' u' = conicIntercept R k o u := by
    intro o' u' hl h0 he
    have on : ∀ {o u q}, u ≠ 0 → ((1 / R) * (u.x ^ 2 + u.y ^ 2 + (1 + k) * u.z ^ 2) = 0 ∨
      1e-12 ≤ |(1 / R) * (u.x ^ 2 + u.y ^ 2 + (1 + k) * u.z ^ 2)|) →
      conicIntercept R k o u = some q → OnLine o u q ∧ OnGraph (conicHeight R k) q := by
      intro o u q hu he h
      obtain ⟨hg, t, ht, -⟩ := C08_conic_sound he hu h
      exact ⟨⟨t, ht⟩, hg⟩
    cases h1 : conicIntercept R k o u with
    | some q =>
      obtain ⟨hq1, hq2⟩ := on hu hexact h1
      obtain ⟨q', h2⟩ := C08_conic_complete he h0 ⟨q, (hl q).2 hq1, hq2⟩
      obtain ⟨hq1', hq2'⟩ := on h0 he h2
      rw [h2, honce q' q ((hl q').1 hq1') hq1 hq2' hq2]
    | none =>
      cases h2 : conicIntercept R k o' u' with
      | none => rfl
      | some q =>
        obtain ⟨hq1, hq2⟩ := on h0 he h2
        obtain ⟨q', h3⟩ := C08_conic_complete hexact hu ⟨q, (hl q).1 hq1, hq2⟩
        rw [h1] at h3
        simp at h3
  exact ⟨key _ _ (fun q => OnLine.iff_moved s) hu hexact,
    key _ _ (fun q => OnLine.iff_neg.trans (OnLine.iff_moved s)) hu' hexact'⟩

/-- **C85**, surfaces whose intercepts are found by iteration (tori, polynomials): two results for the
same line agree if the line is steeper than the surface. -/
theorem C85_solved_partial {solver : LineSolver} {height : V3 → Option ℝ} {o u q q' : V3} {slope s : ℝ}
    (hslope : ∀ p p' z z', height p = some z → height p' = some z' →
      |z - z'| ≤ slope * Real.sqrt ((p.x - p'.x) ^ 2 + (p.y - p'.y) ^ 2))
    (hu : slope * Real.sqrt (u.x ^ 2 + u.y ^ 2) < |u.z|)
    (h : solvedIntercept solver height o u = some q)
    (h' : solvedIntercept solver height (o + s • u) u = some q' ∨
      solvedIntercept solver height (o + s • u) (-u) = some q') : q' = q := by
  have key := C08_solved_unique hslope hu h
  rcases h' with h' | h'
  · obtain ⟨h1, h2⟩ := C08_solved_partial h'
    exact key q' ((OnLine.iff_moved s).1 h1) h2
  · obtain ⟨h1, h2⟩ := C08_solved_partial h'
    exact key q' ((OnLine.iff_moved s).1 (OnLine.iff_neg.1 h1)) h2

/-- Non-vacuity of C85: the line along the axis of a sphere, from either side. -/
example : (sphereSag 2).intercept ⟨0, 0, 1⟩ ⟨0, 0, 1⟩ = some ⟨0, 0, 0⟩ ∧
    (sphereSag 2).intercept ((⟨0, 0, 1⟩ : V3) + (-5 : ℝ) • ⟨0, 0, 1⟩) (-⟨0, 0, 1⟩) = some ⟨0, 0, 0⟩ := by
  have h : (sphereSag 2).intercept ⟨0, 0, 1⟩ ⟨0, 0, 1⟩ = some ⟨0, 0, 0⟩ := by
    change sphereIntercept _ _ _ = _
    unfold sphereIntercept
    have : Real.sqrt (4 : ℝ) = 2 := by
      rw [show (4 : ℝ) = 2 ^ 2 by norm_num]; exact Real.sqrt_sq (by norm_num)
    norm_num [sgn, this, sqrt?]
  exact ⟨h, ((C85_sphere 2 (by simp [V3.dot])) _ _).2.trans h⟩

/-- Non-vacuity of `C85_conic_partial`: a line along the axis of a sphere. -/
example : ∀ q q', OnLine ⟨0, 0, 1⟩ ⟨0, 0, 1⟩ q → OnLine ⟨0, 0, 1⟩ ⟨0, 0, 1⟩ q' →
    OnGraph (conicHeight 2 0) q → OnGraph (conicHeight 2 0) q' → q = q' := by
  rintro q q' ⟨t, rfl⟩ ⟨t', rfl⟩ h h'
  unfold OnGraph at h h'
  obtain ⟨-, -, h⟩ := conicHeight_eq_some.1 h
  obtain ⟨-, -, h'⟩ := conicHeight_eq_some.1 h'
  norm_num at h h'
  ext <;> vsimp <;> linarith

end Optika
