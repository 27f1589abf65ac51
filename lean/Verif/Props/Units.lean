import Verif.Model.Surface
import Verif.Model.Apertures
import Verif.Model.Glass
import Verif.Model.Layers
import Mathlib.Tactic.FieldSimp
import Mathlib.Tactic.LinearCombination

/-!
# Results do not depend on the unit of length

The same system written in two units of length: every length is multiplied by `k > 0` (a
millimetre is `k = 1000` micrometres), every coefficient of attenuation is divided by `k`, and
pure numbers (directions, indices, orders, intensities) are untouched.
-/

namespace Optika

/-- The same ray in a unit of length that is `k` times smaller. -/
noncomputable def Ray.inUnit (k : ℝ) (r : Ray) : Ray :=
  { r with wavelength := k * r.wavelength, position := k • r.position,
           attenuation := r.attenuation / k }

/-- The same rigid motion in a unit of length that is `k` times smaller. -/
noncomputable def Rigid.inUnit (k : ℝ) (g : Rigid) : Rigid := { g with shift := k • g.shift }

/-- `s'` is the sag `s` in a unit of length that is `k` times smaller. -/
structure Sag.SameIn (k : ℝ) (s s' : Sag) : Prop where
  height : ∀ p, s'.height (k • p) = (s.height p).map (k * ·)
  normal : ∀ p, s'.normal (k • p) = s.normal p
  intercept : ∀ o u, s'.intercept (k • o) u = (s.intercept o u).map (k • ·)

/-- `m'` is the material `m` in a unit of length that is `k` times smaller. -/
structure Material.SameIn (k : ℝ) (m m' : Material) : Prop where
  index : ∀ r, m'.index (r.inUnit k) = m.index r
  attenuation : ∀ r, m'.attenuation (r.inUnit k) = (m.attenuation r).map (· / k)
  efficiency : ∀ r n, m'.efficiency (r.inUnit k) n = m.efficiency r n
  isMirror : m'.isMirror = m.isMirror

/-- `a'` is the aperture `a` in a unit of length that is `k` times smaller; an aperture for
directions does not change. -/
structure Aperture.SameIn (k : ℝ) (a a' : Aperture) : Prop where
  unit : a'.unit = a.unit
  length : a.unit = .length → ∀ p, a'.mask (k • p) = a.mask p
  dimensionless : a.unit = .dimensionless → ∀ u, a'.mask u = a.mask u

/-- `ru'` are the rulings `ru` in a unit of length that is `k` times smaller. -/
structure RulingProfile.SameIn (k : ℝ) (ru ru' : RulingProfile) : Prop where
  spacing : ∀ p n, ru'.spacing (k • p) n = (ru.spacing p n).map (k • ·)
  order : ru'.order = ru.order
  efficiency : ∀ r n, ru'.efficiency (r.inUnit k) n = ru.efficiency r n

/-- `s'` is the surface `s` in a unit of length that is `k` times smaller. -/
structure Surface.SameIn (k : ℝ) (s s' : Surface) : Prop where
  sag : s.sag.SameIn k s'.sag
  material : s.material.SameIn k s'.material
  aperture : Option.Rel (Aperture.SameIn k) s.aperture s'.aperture
  rulings : Option.Rel (RulingProfile.SameIn k) s.rulings s'.rulings
  transformation : s'.transformation = s.transformation.map (Rigid.inUnit k)

/-! ### Arithmetic -/

theorem div?_mul_left (k a b : ℝ) : div? (k * a) b = (div? a b).map (k * ·) := by
  unfold div?; split <;> simp [mul_div_assoc]

theorem div?_mul_mul {k : ℝ} (hk : k ≠ 0) (a b : ℝ) : div? (k * a) (k * b) = div? a b := by
  unfold div?
  by_cases h : b = 0
  · simp [h]
  · simp [h, hk, mul_div_mul_left]

theorem div?_mul_right {k : ℝ} (hk : k ≠ 0) (a b : ℝ) :
    div? a (k * b) = (div? a b).map (· / k) := by
  unfold div?
  by_cases h : b = 0
  · simp [h]
  · simp only [mul_eq_zero, h, hk, or_self, if_false, Option.map_some, Option.some.injEq]
    field_simp

theorem sqrt?_sq_mul {k : ℝ} (hk : 0 < k) (x : ℝ) :
    sqrt? (k ^ 2 * x) = (sqrt? x).map (k * ·) := by
  unfold sqrt?
  have h : k ^ 2 * x < 0 ↔ x < 0 := by
    constructor
    · intro h; by_contra hx; push Not at hx; have := mul_nonneg (sq_nonneg k) hx; linarith
    · intro h; exact mul_neg_of_pos_of_neg (by positivity) h
  by_cases hx : x < 0
  · simp [h, hx]
  · simp [h, hx, Real.sqrt_mul (sq_nonneg k), Real.sqrt_sq hk.le]

theorem sgn_mul_left {k : ℝ} (hk : 0 < k) (x : ℝ) : sgn (k * x) = sgn x := by
  unfold sgn
  have h1 : k * x < 0 ↔ x < 0 := by
    constructor
    · intro h; by_contra hx; push Not at hx; have := mul_nonneg hk.le hx; linarith
    · intro h; exact mul_neg_of_pos_of_neg hk h
  have h2 : k * x = 0 ↔ x = 0 := by simp [hk.ne']
  simp only [h1, h2]

theorem Rigid.inUnit_point (k : ℝ) (g : Rigid) (p : V3) :
    (g.inUnit k).point (k • p) = k • g.point p := by
  apply V3.ext <;> simp [Rigid.point, Rigid.inUnit, M3.mulVec, V3.dot] <;> ring

theorem Rigid.inUnit_ipoint (k : ℝ) (g : Rigid) (p : V3) :
    (g.inUnit k).ipoint (k • p) = k • g.ipoint p := by
  apply V3.ext <;> simp [Rigid.ipoint, Rigid.inUnit, M3.mulVec, M3.transpose, V3.dot] <;> ring

theorem Rigid.inUnit_vec (k : ℝ) (g : Rigid) (p : V3) : (g.inUnit k).vec p = g.vec p := rfl

theorem Rigid.inUnit_ivec (k : ℝ) (g : Rigid) (p : V3) : (g.inUnit k).ivec p = g.ivec p := rfl

theorem Ray.inUnit_move (k : ℝ) (g : Rigid) (r : Ray) :
    (r.move g).inUnit k = (r.inUnit k).move (g.inUnit k) := by
  simp [Ray.move, Ray.inUnit, Rigid.inUnit_point, Rigid.inUnit_vec]

theorem Ray.inUnit_unmove (k : ℝ) (g : Rigid) (r : Ray) :
    (r.unmove g).inUnit k = (r.inUnit k).unmove (g.inUnit k) := by
  simp [Ray.unmove, Ray.inUnit, Rigid.inUnit_ipoint, Rigid.inUnit_ivec]

/-! ### One surface -/

theorem Sag.SameIn.propagate {k : ℝ} (hk : 0 < k) {s s' : Sag} (h : s.SameIn k s') (r : Ray) :
    s'.propagate (r.inUnit k) = (s.propagate r).map (Ray.inUnit k) := by
  unfold Sag.propagate
  have e : s'.intercept (r.inUnit k).position (r.inUnit k).direction
      = (s.intercept r.position r.direction).map (k • ·) := h.intercept _ _
  rw [e]
  cases s.intercept r.position r.direction with
  | none => rfl
  | some q =>
    have hd : k • q - k • r.position = k • (q - r.position) := by vring
    simp only [Ray.inUnit, Option.map_some, Option.bind_eq_bind, Option.bind_some,
      Option.pure_def, hd, V3.len_smul, abs_of_pos hk]
    have : -(r.attenuation / k) * (k * (q - r.position).len)
        = -r.attenuation * (q - r.position).len := by field_simp
    rw [this]

theorem rulingsIncidentEffective_inUnit {k : ℝ} (hk : 0 < k) (kappa : Option V3) (m w : ℝ)
    (a : V3) (n : ℝ) (u : V3) :
    rulingsIncidentEffective (kappa.map (k • ·)) m (k * w) a n u
      = rulingsIncidentEffective kappa m w a n u := by
  unfold rulingsIncidentEffective
  cases kappa with
  | none => rfl
  | some c =>
    simp only [Option.map_some, Option.bind_eq_bind, Option.bind_some, V3.len_smul,
      abs_of_pos hk, V3.smul_x, V3.smul_y, V3.smul_z, div?_mul_mul hk.ne']
    congr 1; funext gx; congr 1; funext gy; congr 1; funext gz
    unfold incidentEffective
    have e (g : ℝ) : div? (sgn (a.x * u.x + a.y * u.y + a.z * u.z) * m * (k * w) * g)
        (n * (k * c.len)) = div? (sgn (a.x * u.x + a.y * u.y + a.z * u.z) * m * w * g)
        (n * c.len) := by
      rw [← div?_mul_mul hk.ne' (sgn (a.x * u.x + a.y * u.y + a.z * u.z) * m * w * g)]
      congr 1 <;> ring
    simp only [e]

theorem Surface.SameIn.effectiveRay {k : ℝ} (hk : 0 < k) {s s' : Surface} (h : s.SameIn k s')
    (r : Ray) (n : V3) :
    s'.effectiveRay (r.inUnit k) n = (s.effectiveRay r n).map (Ray.inUnit k) := by
  have hr := h.rulings
  unfold Surface.effectiveRay
  cases hs : s.rulings with
  | none =>
    rw [hs] at hr; cases hs' : s'.rulings with
    | none => rfl
    | some x => rw [hs'] at hr; cases hr
  | some ru =>
    rw [hs] at hr; cases hs' : s'.rulings with
    | none => rw [hs'] at hr; cases hr
    | some ru' =>
      rw [hs'] at hr
      cases hr with
      | some hr =>
        simp only [Ray.inUnit, hr.spacing, hr.order, rulingsIncidentEffective_inUnit hk,
          Option.map_map]
        rfl

theorem Surface.SameIn.rulingFactor {k : ℝ} {s s' : Surface} (h : s.SameIn k s')
    (r : Ray) (n : V3) : s'.rulingFactor (r.inUnit k) n = s.rulingFactor r n := by
  have hr := h.rulings
  unfold Surface.rulingFactor
  cases hs : s.rulings with
  | none =>
    rw [hs] at hr; cases hs' : s'.rulings with
    | none => rfl
    | some x => rw [hs'] at hr; cases hr
  | some ru =>
    rw [hs] at hr; cases hs' : s'.rulings with
    | none => rw [hs'] at hr; cases hr
    | some ru' =>
      rw [hs'] at hr
      cases hr with
      | some hr => exact hr.efficiency _ _

theorem Surface.SameIn.clip {k : ℝ} {s s' : Surface} (h : s.SameIn k s') (r : Ray) :
    s'.clip (r.inUnit k) = (s.clip r).map (Ray.inUnit k) := by
  have hr := h.aperture
  unfold Surface.clip
  cases hs : s.aperture with
  | none =>
    rw [hs] at hr; cases hs' : s'.aperture with
    | none => rfl
    | some x => rw [hs'] at hr; cases hr
  | some a =>
    rw [hs] at hr; cases hs' : s'.aperture with
    | none => rw [hs'] at hr; cases hr
    | some a' =>
      rw [hs'] at hr
      cases hr with
      | some hr =>
        simp only [Aperture.clip, hr.unit]
        cases hu : a.unit with
        | length => simp [Ray.inUnit, hr.length hu]
        | dimensionless => simp [Ray.inUnit, hr.dimensionless hu]
        | other => rfl

theorem Surface.SameIn.interact {k : ℝ} (hk : 0 < k) {s s' : Surface} (h : s.SameIn k s')
    (r : Ray) : s'.interact (r.inUnit k) = (s.interact r).map (Ray.inUnit k) := by
  unfold Surface.interact
  have e : s'.sag.normal (r.inUnit k).position = s.sag.normal r.position := h.sag.normal _
  rw [e]
  cases s.sag.normal r.position with
  | none => rfl
  | some n =>
    simp only [Option.bind_eq_bind, Option.bind_some, h.effectiveRay hk]
    cases s.effectiveRay r n with
    | none => rfl
    | some r1 =>
      simp only [Option.map_some, Option.bind_some, h.material.index, h.material.efficiency,
        h.material.isMirror, h.rulingFactor, h.material.attenuation]
      have e1 : (r1.inUnit k).index = r1.index := rfl
      have e2 : (r1.inUnit k).direction = r1.direction := rfl
      have e3 : (r1.inUnit k).wavelength = k * r1.wavelength := rfl
      simp only [e1, e2, e3, div?_mul_left]
      cases s.material.index r1 <;> simp only [Option.bind_none, Option.bind_some, Option.map_none]
      rename_i n2
      cases div? r1.index n2 <;> simp only [Option.bind_none, Option.bind_some, Option.map_none]
      rename_i q
      cases div? r1.wavelength q <;>
        simp only [Option.bind_none, Option.bind_some, Option.map_none, Option.map_some]
      cases snellsLaw r1.direction r1.index n2 s.material.isMirror n <;>
        simp only [Option.bind_none, Option.bind_some, Option.map_none]
      cases s.material.efficiency r1 n <;>
        simp only [Option.bind_none, Option.bind_some, Option.map_none]
      cases s.rulingFactor r1 n <;>
        simp only [Option.bind_none, Option.bind_some, Option.map_none]
      cases s.material.attenuation r1 <;>
        simp only [Option.bind_none, Option.bind_some, Option.map_none, Option.map_some,
          Option.pure_def]
      rfl

theorem Surface.SameIn.propagateLocal {k : ℝ} (hk : 0 < k) {s s' : Surface} (h : s.SameIn k s')
    (r : Ray) : s'.propagateLocal (r.inUnit k) = (s.propagateLocal r).map (Ray.inUnit k) := by
  unfold Surface.propagateLocal
  rw [h.sag.propagate hk]
  cases s.sag.propagate r with
  | none => rfl
  | some r0 =>
    simp only [Option.map_some, Option.bind_eq_bind, Option.bind_some, h.interact hk]
    cases s.interact r0 with
    | none => rfl
    | some r1 => simp only [Option.map_some, Option.bind_some, h.clip]

/-- **C89 (one surface).**  A surface described in another unit of length sends the ray described
in that unit to the result described in that unit. -/
theorem C89_surface {k : ℝ} (hk : 0 < k) {s s' : Surface} (h : s.SameIn k s') (r : Ray) :
    s'.propagate (r.inUnit k) = (s.propagate r).map (Ray.inUnit k) := by
  unfold Surface.propagate
  rw [h.transformation]
  cases s.transformation with
  | none => exact h.propagateLocal hk r
  | some g =>
    simp only [Option.map_some]
    rw [← Ray.inUnit_unmove, h.propagateLocal hk]
    simp only [Option.map_map]
    congr 1; funext x; exact (Ray.inUnit_move k g x).symm

/-- **C89 (a sequence of surfaces).**  The whole trace, including whether the ray survives, does
not depend on the unit of length. -/
theorem C89_system {k : ℝ} (hk : 0 < k) {ss ss' : List Surface}
    (h : List.Forall₂ (Surface.SameIn k) ss ss') (r : Ray) :
    propagateSurfaces ss' (r.inUnit k) = (propagateSurfaces ss r).map (Ray.inUnit k) := by
  have key : ∀ x : Option Ray,
      ss'.foldl (fun r p => Surface.step p r) (x.map (Ray.inUnit k))
        = (ss.foldl (fun r p => Surface.step p r) x).map (Ray.inUnit k) := by
    induction h with
    | nil => intro x; rfl
    | @cons a b l l' hab _ ih =>
      intro x
      simp only [List.foldl_cons]
      rw [← ih]
      congr 1
      cases x with
      | none => rfl
      | some r => exact C89_surface hk hab r
  exact key (some r)

/-! ### Sags -/

/-- **C89 (plane).** -/
theorem C89_flat {k : ℝ} (hk : 0 < k) : flatSag.SameIn k flatSag where
  height p := by simp [flatSag, flatHeight]
  normal p := rfl
  intercept o u := by
    simp only [flatSag, flatIntercept, V3.smul_x, V3.smul_y, V3.smul_z, ← mul_neg, div?_mul_left]
    cases div? (-o.z) u.z with
    | none => rfl
    | some d =>
      simp only [Option.map_some, Option.bind_eq_bind, Option.bind_some, Option.pure_def,
        Option.some.injEq]
      apply V3.ext <;> simp <;> ring

/-- **C89 (conic heights and normals, and with `conic = 0` the height of a sphere).** -/
theorem conicHeight_inUnit {k : ℝ} (hk : 0 < k) (r c : ℝ) (p : V3) :
    conicHeight (k * r) c (k • p) = (conicHeight r c p).map (k * ·) := by
  unfold conicHeight
  rw [div?_mul_right hk.ne']
  cases div? 1 r with
  | none => rfl
  | some q =>
    simp only [Option.map_some, Option.bind_eq_bind, Option.bind_some, V3.smul_x, V3.smul_y]
    have e1 : 1 - (1 + c) * (q / k) ^ 2 * ((k * p.x) ^ 2 + (k * p.y) ^ 2)
        = 1 - (1 + c) * q ^ 2 * (p.x ^ 2 + p.y ^ 2) := by field_simp
    have e2 : q / k * ((k * p.x) ^ 2 + (k * p.y) ^ 2) = k * (q * (p.x ^ 2 + p.y ^ 2)) := by
      field_simp
    rw [e1, e2]
    cases sqrt? (1 - (1 + c) * q ^ 2 * (p.x ^ 2 + p.y ^ 2)) with
    | none => rfl
    | some s => simp only [Option.bind_some, div?_mul_left]

theorem sphereHeight_eq_conic_zero (r : ℝ) (p : V3) : sphereHeight r p = conicHeight r 0 p := by
  simp [sphereHeight, conicHeight]

/-- **C89 (sphere).** -/
theorem C89_sphere {k : ℝ} (hk : 0 < k) (r : ℝ) :
    (sphereSag r).SameIn k (sphereSag (k * r)) where
  height p := by
    simp only [sphereSag, sphereHeight_eq_conic_zero]; exact conicHeight_inUnit hk r 0 p
  normal p := by
    simp only [sphereSag, sphereNormal]
    rw [div?_mul_right hk.ne']
    cases div? 1 r with
    | none => rfl
    | some q =>
      have ex : q / k * (k * p.x) = q * p.x := by field_simp
      have ey : q / k * (k * p.y) = q * p.y := by field_simp
      simp only [Option.map_some, Option.bind_eq_bind, Option.bind_some, V3.smul_x, V3.smul_y,
        ex, ey]
  intercept o u := by
    simp only [sphereSag, sphereIntercept, V3.smul_x, V3.smul_y, V3.smul_z]
    have e1 : (u.x * (k * o.x) + u.y * (k * o.y) + u.z * (k * o.z - k * r)) ^ 2
        - ((k * o.x) ^ 2 + (k * o.y) ^ 2 + (k * o.z - k * r) ^ 2 - (k * r) ^ 2)
        = k ^ 2 * ((u.x * o.x + u.y * o.y + u.z * (o.z - r)) ^ 2
          - (o.x ^ 2 + o.y ^ 2 + (o.z - r) ^ 2 - r ^ 2)) := by ring
    have e2 : k * r * u.z = k * (r * u.z) := by ring
    rw [e1, sqrt?_sq_mul hk, e2, sgn_mul_left hk]
    cases sqrt? ((u.x * o.x + u.y * o.y + u.z * (o.z - r)) ^ 2
          - (o.x ^ 2 + o.y ^ 2 + (o.z - r) ^ 2 - r ^ 2)) with
    | none => rfl
    | some s =>
      simp only [Option.map_some, Option.bind_eq_bind, Option.bind_some, Option.pure_def,
        Option.some.injEq]
      apply V3.ext <;> simp <;> ring

/-- **C89 (parabola).** -/
theorem C89_parabola {k : ℝ} (hk : 0 < k) (f : ℝ) :
    (parabolaSag f).SameIn k (parabolaSag (k * f)) where
  height p := by
    simp only [parabolaSag, parabolaHeight]
    rw [show 2 * (k * f) = k * (2 * f) by ring]
    exact conicHeight_inUnit hk _ _ p
  normal p := by
    simp only [parabolaSag, parabolaNormal, V3.smul_x, V3.smul_y]
    rw [show 2 * (k * f) = k * (2 * f) by ring]
    have ed (x s : ℝ) : k * x / s = k * (x / s) := by ring
    have en (s : ℝ) : -(k * (2 * f)) / s = k * (-(2 * f) / s) := by ring
    simp only [ed, en, div?_mul_mul hk.ne']
  intercept o u := by
    simp only [parabolaSag, parabolaIntercept, V3.smul_x, V3.smul_y, V3.smul_z]
    have e1 : -(k * o.y * u.x) ^ 2 - (k * o.x * u.y) ^ 2
          + 2 * (k * o.y) * u.y * (k * o.x * u.x - 2 * (k * f) * u.z)
          + 4 * (k * f) * (k * o.z * (u.x ^ 2 + u.y ^ 2) - k * o.x * u.x * u.z + k * f * u.z ^ 2)
        = k ^ 2 * (-(o.y * u.x) ^ 2 - (o.x * u.y) ^ 2
          + 2 * o.y * u.y * (o.x * u.x - 2 * f * u.z)
          + 4 * f * (o.z * (u.x ^ 2 + u.y ^ 2) - o.x * u.x * u.z + f * u.z ^ 2)) := by ring
    have e2 : k * f * u.z = k * (f * u.z) := by ring
    rw [e1, sqrt?_sq_mul hk, e2, sgn_mul_left hk]
    by_cases h : u.x ^ 2 + u.y ^ 2 > 1e-10
    · simp only [gt_iff_lt, h, if_true]
      cases sqrt? (-(o.y * u.x) ^ 2 - (o.x * u.y) ^ 2
          + 2 * o.y * u.y * (o.x * u.x - 2 * f * u.z)
          + 4 * f * (o.z * (u.x ^ 2 + u.y ^ 2) - o.x * u.x * u.z + f * u.z ^ 2)) with
      | none => rfl
      | some s =>
        simp only [Option.map_some, Option.bind_eq_bind, Option.bind_some]
        have e3 : -(k * o.x) * u.x - k * o.y * u.y + 2 * (k * f) * u.z - sgn (f * u.z) * (k * s)
            = k * (-o.x * u.x - o.y * u.y + 2 * f * u.z - sgn (f * u.z) * s) := by ring
        rw [e3, div?_mul_left]
        cases div? (-o.x * u.x - o.y * u.y + 2 * f * u.z - sgn (f * u.z) * s)
            (u.x ^ 2 + u.y ^ 2) with
        | none => rfl
        | some t =>
          simp only [Option.map_some, Option.bind_some, Option.pure_def, Option.some.injEq]
          apply V3.ext <;> simp <;> ring
    · simp only [gt_iff_lt] at h
      simp only [gt_iff_lt, h, if_false]
      have e3 : (k * o.x) ^ 2 + (k * o.y) ^ 2 - 4 * (k * f) * (k * o.z)
          = k * (k * (o.x ^ 2 + o.y ^ 2 - 4 * f * o.z)) := by ring
      have e4 : 4 * (k * f) * u.z = k * (4 * f * u.z) := by ring
      rw [e3, e4, div?_mul_mul hk.ne', div?_mul_left]
      cases div? (o.x ^ 2 + o.y ^ 2 - 4 * f * o.z) (4 * f * u.z) with
      | none => rfl
      | some t =>
        simp only [Option.map_some, Option.bind_eq_bind, Option.bind_some, Option.pure_def,
          Option.some.injEq]
        apply V3.ext <;> simp <;> ring

/-- **C89 (cylinder).** -/
theorem C89_cylinder {k : ℝ} (hk : 0 < k) (r : ℝ) :
    (cylinderSag r).SameIn k (cylinderSag (k * r)) where
  height p := by
    have e (r : ℝ) (p : V3) : cylinderHeight r p = conicHeight r 0 ⟨p.x, 0, 0⟩ := by
      simp [cylinderHeight, conicHeight]
    have ep : (⟨(k • p).x, 0, 0⟩ : V3) = k • ⟨p.x, 0, 0⟩ := by apply V3.ext <;> simp
    simp only [cylinderSag, e]
    rw [ep]; exact conicHeight_inUnit hk r 0 _
  normal p := by
    simp only [cylinderSag, cylinderNormal, V3.smul_x, div?_mul_mul hk.ne']
  intercept o u := by
    simp only [cylinderSag, cylinderIntercept]
    set b : V3 := (⟨0, 0, r⟩ : V3) - o with hb
    have eb : (⟨0, 0, k * r⟩ : V3) - k • o = k • b := by rw [hb]; vring
    rw [eb]
    set w : V3 := u.cross ⟨0, 1, 0⟩ with hw
    have ec : (k • b).cross ⟨0, 1, 0⟩ = k • b.cross ⟨0, 1, 0⟩ := by vring
    have ed : (k • b).dot w = k * b.dot w := V3.smul_dot _ _ _
    have ee : w.dot (k • b.cross ⟨0, 1, 0⟩) = k * w.dot (b.cross ⟨0, 1, 0⟩) := by
      simp [V3.dot]; ring
    have ef : w.dot w * (k * r) ^ 2 - (k * b.dot w) ^ 2
        = k ^ 2 * (w.dot w * r ^ 2 - (b.dot w) ^ 2) := by ring
    have eg : k * r * u.z = k * (r * u.z) := by ring
    have ei : (k ^ 2 * (w.dot w * r ^ 2 - (b.dot w) ^ 2) > 0)
        ↔ (w.dot w * r ^ 2 - (b.dot w) ^ 2 > 0) := by
      have : 0 < k ^ 2 := by positivity
      constructor
      · intro h; exact (pos_iff_pos_of_mul_pos h).mp this
      · intro h; exact mul_pos this h
    rw [ec, ed, ee, ef, eg, sgn_mul_left hk, Real.sqrt_mul (sq_nonneg k), Real.sqrt_sq hk.le]
    simp only [ei, V3.smul_x, V3.smul_y, V3.smul_z]
    have ej : k * w.dot (b.cross ⟨0, 1, 0⟩)
          - sgn (r * u.z) * (k * Real.sqrt (w.dot w * r ^ 2 - (b.dot w) ^ 2))
        = k * (w.dot (b.cross ⟨0, 1, 0⟩)
          - sgn (r * u.z) * Real.sqrt (w.dot w * r ^ 2 - (b.dot w) ^ 2)) := by ring
    rw [ej, div?_mul_left, ← mul_neg, div?_mul_left]
    by_cases h : w.dot w * r ^ 2 - (b.dot w) ^ 2 > 0
    · simp only [h, if_true]
      cases div? (w.dot (b.cross ⟨0, 1, 0⟩)
          - sgn (r * u.z) * Real.sqrt (w.dot w * r ^ 2 - (b.dot w) ^ 2)) (w.dot w) with
      | none => rfl
      | some d =>
        simp only [Option.map_some, Option.bind_eq_bind, Option.bind_some, Option.pure_def,
          Option.some.injEq]
        apply V3.ext <;> simp <;> ring
    · simp only [h, if_false]
      cases div? (-o.z) u.z with
      | none => rfl
      | some d =>
        simp only [Option.map_some, Option.bind_eq_bind, Option.bind_some, Option.pure_def,
          Option.some.injEq]
        apply V3.ext <;> simp <;> ring

/-- **C89 (a sag in its own frame).** -/
theorem C89_transformed {k : ℝ} {s s' : Sag} (h : s.SameIn k s') (g : Rigid) :
    (s.withTransformation g).SameIn k (s'.withTransformation (g.inUnit k)) where
  height p := by simp only [Sag.withTransformation, Rigid.inUnit_ipoint, h.height]
  normal p := by simp only [Sag.withTransformation, Rigid.inUnit_ipoint, h.normal]
  intercept o u := by
    simp only [Sag.withTransformation, Rigid.inUnit_ipoint, Rigid.inUnit_ivec, h.intercept,
      Option.map_map]
    congr 1; funext x; exact Rigid.inUnit_point k g x

/-- **C89 (a plane in its own frame).** -/
theorem C89_flat_transformed {k : ℝ} (hk : 0 < k) (g : Rigid) :
    (flatSagWithTransformation g).SameIn k (flatSagWithTransformation (g.inUnit k)) where
  height p := by
    have e : (⟨((g.inUnit k).ipoint (k • p)).x, ((g.inUnit k).ipoint (k • p)).y, 0⟩ : V3)
        = k • ⟨(g.ipoint p).x, (g.ipoint p).y, 0⟩ := by
      rw [Rigid.inUnit_ipoint]; apply V3.ext <;> simp
    simp only [flatSagWithTransformation]
    rw [e, Rigid.inUnit_point]; rfl
  normal p := rfl
  intercept o u := by
    simp only [flatSagWithTransformation, Rigid.inUnit_ipoint, Rigid.inUnit_ivec]
    have := (C89_flat hk).intercept (g.ipoint o) (g.ivec u)
    simp only [flatSag] at this
    rw [this]
    simp only [Option.map_map]
    congr 1; funext x; exact Rigid.inUnit_point k g x

/-- **C89 (torus: height and normal).** -/
theorem C89_torus {k : ℝ} (hk : 0 < k) (a r : ℝ) (p : V3) :
    torusHeight (k * a) (k * r) (k • p) = (torusHeight a r p).map (k * ·) ∧
      torusNormal (k * a) (k * r) (k • p) = torusNormal a r p := by
  constructor
  · unfold torusHeight
    rw [div?_mul_right hk.ne']
    cases div? 1 a with
    | none => rfl
    | some q =>
      simp only [Option.map_some, Option.bind_eq_bind, Option.bind_some, V3.smul_x, V3.smul_y]
      rw [show 1 - (q / k) ^ 2 * (k * p.y) ^ 2 = 1 - q ^ 2 * p.y ^ 2 by field_simp,
        show q / k * (k * p.y) ^ 2 = k * (q * p.y ^ 2) by field_simp]
      cases sqrt? (1 - q ^ 2 * p.y ^ 2) with
      | none => rfl
      | some s =>
        simp only [Option.bind_some, div?_mul_left k]
        cases div? (q * p.y ^ 2) (1 + s) with
        | none => rfl
        | some z =>
          simp only [Option.map_some, Option.bind_some]
          rw [show (k * r - k * z) ^ 2 - (k * p.x) ^ 2 = k ^ 2 * ((r - z) ^ 2 - p.x ^ 2) by ring,
            sqrt?_sq_mul hk]
          cases sqrt? ((r - z) ^ 2 - p.x ^ 2) with
          | none => rfl
          | some f => simp; ring
  · unfold torusNormal
    rw [div?_mul_right hk.ne']
    cases div? 1 a with
    | none => rfl
    | some q =>
      simp only [Option.map_some, Option.bind_eq_bind, Option.bind_some, V3.smul_x, V3.smul_y]
      rw [show 1 - (q / k) ^ 2 * (k * p.y) ^ 2 = 1 - q ^ 2 * p.y ^ 2 by field_simp,
        show q / k * (k * p.y) ^ 2 = k * (q * p.y ^ 2) by field_simp,
        show q / k * (k * p.y) = q * p.y by field_simp]
      cases sqrt? (1 - q ^ 2 * p.y ^ 2) with
      | none => rfl
      | some s =>
        simp only [Option.bind_some]
        rw [div?_mul_left k]
        cases div? (q * p.y ^ 2) (1 + s) with
        | none => rfl
        | some z =>
          simp only [Option.map_some, Option.bind_some]
          rw [show (k * r - k * z) ^ 2 - (k * p.x) ^ 2 = k ^ 2 * ((r - z) ^ 2 - p.x ^ 2) by ring,
            sqrt?_sq_mul hk]
          cases sqrt? ((r - z) ^ 2 - p.x ^ 2) with
          | none => rfl
          | some f =>
            have e (y : ℝ) : (k * r - k * z) * y = k * ((r - z) * y) := by ring
            simp only [Option.map_some, Option.bind_some, div?_mul_mul hk.ne', e]

/-! ### Conics -/

/-- The coefficient of the square in the equation of the intercept of a conic: the code takes the
equation to be linear if this number, *expressed in the unit of the radius*, is below `1e-12`. -/
noncomputable def conicLeading (radius conic : ℝ) (u : V3) : ℝ :=
  1 / radius * (u.x ^ 2 + u.y ^ 2 + (1 + conic) * u.z ^ 2)

theorem conicRoot_inUnit {k : ℝ} (hk : 0 < k) (c kp1 : ℝ) (o u : V3) (sign : ℝ)
    (h : |c / k * (u.x ^ 2 + u.y ^ 2 + kp1 * u.z ^ 2)| < 1e-12 ↔
      |c * (u.x ^ 2 + u.y ^ 2 + kp1 * u.z ^ 2)| < 1e-12) :
    conicRoot (c / k) kp1 (k • o) u sign = (conicRoot c kp1 o u sign).map (k * ·) := by
  unfold conicRoot
  simp only [V3.smul_x, V3.smul_y, V3.smul_z, h]
  have eb : 2 * (c / k * (k * o.x * u.x + k * o.y * u.y + kp1 * (k * o.z) * u.z) - u.z)
      = 2 * (c * (o.x * u.x + o.y * u.y + kp1 * o.z * u.z) - u.z) := by
    field_simp
  have ec : c / k * ((k * o.x) ^ 2 + (k * o.y) ^ 2 + kp1 * (k * o.z) ^ 2) - 2 * (k * o.z)
      = k * (c * (o.x ^ 2 + o.y ^ 2 + kp1 * o.z ^ 2) - 2 * o.z) := by
    field_simp
  have ea : c / k * (u.x ^ 2 + u.y ^ 2 + kp1 * u.z ^ 2)
      = (c * (u.x ^ 2 + u.y ^ 2 + kp1 * u.z ^ 2)) / k := by ring
  rw [eb, ec, ea]
  set A := c * (u.x ^ 2 + u.y ^ 2 + kp1 * u.z ^ 2) with hA
  set B := 2 * (c * (o.x * u.x + o.y * u.y + kp1 * o.z * u.z) - u.z) with hB
  set C := c * (o.x ^ 2 + o.y ^ 2 + kp1 * o.z ^ 2) - 2 * o.z with hC
  have ed : B ^ 2 - 4 * (A / k) * (k * C) = B ^ 2 - 4 * A * C := by field_simp
  rw [ed]
  have et (t : ℝ) : (k * o.z + u.z * (k * t)) * (c / k * ((k * o.x + u.x * (k * t)) ^ 2
        + (k * o.y + u.y * (k * t)) ^ 2) - (k * o.z + u.z * (k * t)))
      = k ^ 2 * ((o.z + u.z * t) * (c * ((o.x + u.x * t) ^ 2 + (o.y + u.y * t) ^ 2)
        - (o.z + u.z * t))) := by field_simp
  have es (x : ℝ) : k ^ 2 * x ≥ 0 ↔ x ≥ 0 := by
    have : 0 < k ^ 2 := by positivity
    constructor
    · intro h; by_contra hx; push Not at hx; have := mul_neg_of_pos_of_neg this hx; linarith
    · intro h; exact mul_nonneg this.le h
  have e2 (x : ℝ) : div? x (2 * (A / k)) = (div? x (2 * A)).map (k * ·) := by
    rw [← div?_mul_left, ← div?_mul_mul hk.ne' x]
    congr 1; field_simp
  by_cases hd : B ^ 2 - 4 * A * C < 0
  · simp only [hd, if_true, Option.map_none]
  · simp only [hd, if_false]
    have fin (x : Option ℝ) :
        ((x.map (k * ·)).bind fun t => if (k * o.z + u.z * t) * (c / k * ((k * o.x + u.x * t) ^ 2
          + (k * o.y + u.y * t) ^ 2) - (k * o.z + u.z * t)) ≥ 0 then some t else none)
        = (x.bind fun t => if (o.z + u.z * t) * (c * ((o.x + u.x * t) ^ 2
          + (o.y + u.y * t) ^ 2) - (o.z + u.z * t)) ≥ 0 then some t else none).map (k * ·) := by
      cases x with
      | none => rfl
      | some t =>
        simp only [Option.map_some, Option.bind_some, et, es]
        split <;> rfl
    by_cases ha : |A| < 1e-12
    · simp only [ha, if_true, Option.bind_eq_bind]
      rw [← mul_neg, div?_mul_left]
      exact fin _
    · simp only [ha, if_false, Option.bind_eq_bind]
      rw [e2]
      exact fin _

/-- **C89 (conic, partial).**  The height and the normal of a conic surface never depend on the
unit of length.  The intercept does not if both units agree on whether the leading coefficient of
its quadratic equation is negligible. -/
theorem C89_conic_partial {k : ℝ} (hk : 0 < k) (r c : ℝ) :
    (∀ p, (conicSag (k * r) c).height (k • p) = ((conicSag r c).height p).map (k * ·)) ∧
    (∀ p, (conicSag (k * r) c).normal (k • p) = (conicSag r c).normal p) ∧
    (∀ o u, (|conicLeading (k * r) c u| < 1e-12 ↔ |conicLeading r c u| < 1e-12) →
      (conicSag (k * r) c).intercept (k • o) u = ((conicSag r c).intercept o u).map (k • ·)) := by
  refine ⟨fun p => conicHeight_inUnit hk r c p, fun p => ?_, fun o u h => ?_⟩
  · simp only [conicSag, conicNormal]
    rw [div?_mul_right hk.ne']
    cases div? 1 r with
    | none => rfl
    | some q =>
      simp only [Option.map_some, Option.bind_eq_bind, Option.bind_some, V3.smul_x, V3.smul_y]
      rw [show 1 - (1 + c) * (q / k) ^ 2 * ((k * p.x) ^ 2 + (k * p.y) ^ 2)
          = 1 - (1 + c) * q ^ 2 * (p.x ^ 2 + p.y ^ 2) by field_simp,
        show q / k * (k * p.x) = q * p.x by field_simp,
        show q / k * (k * p.y) = q * p.y by field_simp]
  · simp only [conicSag, conicIntercept]
    rw [div?_mul_right hk.ne']
    by_cases hr : r = 0
    · simp [div?, hr]
    · simp only [div?_of_ne hr, Option.map_some, Option.bind_eq_bind, Option.bind_some]
      have h' : |1 / r / k * (u.x ^ 2 + u.y ^ 2 + (1 + c) * u.z ^ 2)| < 1e-12 ↔
          |1 / r * (u.x ^ 2 + u.y ^ 2 + (1 + c) * u.z ^ 2)| < 1e-12 := by
        have : 1 / (k * r) = 1 / r / k := by field_simp
        simpa only [conicLeading, this] using h
      have hp : conicPath (1 / r / k) (1 + c) (k • o) u
          = (conicPath (1 / r) (1 + c) o u).map (k * ·) := by
        unfold conicPath
        rw [conicRoot_inUnit hk _ _ o u (-1) h', conicRoot_inUnit hk _ _ o u 1 h']
        cases conicRoot (1 / r) (1 + c) o u (-1) <;> cases conicRoot (1 / r) (1 + c) o u 1
        · rfl
        · rfl
        · rfl
        · rename_i ta tb
          have : |k * ta| ≤ |k * tb| ↔ |ta| ≤ |tb| := by
            rw [abs_mul, abs_mul, abs_of_pos hk]; exact mul_le_mul_iff_right₀ hk
          simp only [Option.map_some, this]
          split <;> rfl
      rw [hp]
      cases conicPath (1 / r) (1 + c) o u with
      | none => rfl
      | some t =>
        simp only [Option.map_some, Option.bind_some, Option.pure_def, Option.some.injEq]
        apply V3.ext <;> simp <;> ring

/-- The line through the vertex used in the counterexample. -/
noncomputable def obliqueStart : V3 := ⟨-3 / 5, 0, -4 / 5⟩

/-- **C89 (what fails).**  A paraboloid given as a conic with a radius of one: the oblique line
through its vertex meets it there.  With all lengths in a unit that is `10¹³` times smaller the
code takes the equation to be linear, rejects the point that it finds, and there is no
intercept. -/
theorem C89_conic_counterexample :
    (conicSag 1 (-1)).intercept obliqueStart ⟨3 / 5, 0, 4 / 5⟩ = some ⟨0, 0, 0⟩ ∧
      (conicSag (10 ^ 13 * 1) (-1)).intercept ((10 ^ 13 : ℝ) • obliqueStart) ⟨3 / 5, 0, 4 / 5⟩
        = none := by
  constructor
  · have h64 : Real.sqrt 64 = 8 := by
      rw [show (64 : ℝ) = 8 ^ 2 by norm_num]; exact Real.sqrt_sq (by norm_num)
    have h25 : Real.sqrt 25 = 5 := by
      rw [show (25 : ℝ) = 5 ^ 2 by norm_num]; exact Real.sqrt_sq (by norm_num)
    simp only [conicSag, conicIntercept, conicPath, conicRoot, obliqueStart]
    norm_num [div?, h64, h25]
  · simp only [conicSag, conicIntercept, conicPath, conicRoot, obliqueStart, V3.smul_x, V3.smul_y,
      V3.smul_z]
    norm_num [div?, abs_of_pos]

/-! ### Apertures -/

theorem toLocal_inUnit (k : ℝ) (g : Option Rigid) (p : V3) :
    toLocal (g.map (Rigid.inUnit k)) (k • p) = k • toLocal g p := by
  cases g with
  | none => rfl
  | some g => exact Rigid.inUnit_ipoint k g p

theorem xyLength_smul {k : ℝ} (hk : 0 < k) (p : V3) : xyLength (k • p) = k * xyLength p := by
  simp only [xyLength, V3.smul_x, V3.smul_y]
  rw [show (k * p.x) ^ 2 + (k * p.y) ^ 2 = k ^ 2 * (p.x ^ 2 + p.y ^ 2) by ring,
    Real.sqrt_mul (sq_nonneg k), Real.sqrt_sq hk.le]

theorem arctan2_smul {k : ℝ} (hk : 0 < k) (y x : ℝ) : arctan2 (k * y) (k * x) = arctan2 y x := by
  unfold arctan2
  have : (⟨k * x, k * y⟩ : ℂ) = (k : ℂ) * ⟨x, y⟩ := by
    apply Complex.ext <;> simp
  rw [this, Complex.arg_real_mul _ hk]

/-- **C89 (circle).** -/
theorem C89_circle {k : ℝ} (hk : 0 < k) (r : ℝ) (a i : Bool) (g : Option Rigid) :
    Aperture.SameIn k ⟨.length, circleMask r a i g⟩
      ⟨.length, circleMask (k * r) a i (g.map (Rigid.inUnit k))⟩ where
  unit := rfl
  length _ p := by
    simp only [circleMask, toLocal_inUnit, xyLength_smul hk, mul_le_mul_iff_right₀ hk]
  dimensionless h := by cases h

/-- **C89 (sector).** -/
theorem C89_sector {k : ℝ} (hk : 0 < k) (r s t : ℝ) (a i : Bool) (g : Option Rigid) :
    Aperture.SameIn k ⟨.length, sectorMask r s t a i g⟩
      ⟨.length, sectorMask (k * r) s t a i (g.map (Rigid.inUnit k))⟩ where
  unit := rfl
  length _ p := by
    simp only [sectorMask, toLocal_inUnit, xyLength_smul hk, mul_le_mul_iff_right₀ hk,
      V3.smul_x, V3.smul_y, arctan2_smul hk]
  dimensionless h := by cases h

/-- **C89 (ellipse).** -/
theorem C89_ellipse {k : ℝ} (hk : 0 < k) (rx ry : ℝ) (a i : Bool) (g : Option Rigid) :
    Aperture.SameIn k ⟨.length, ellipseMask rx ry a i g⟩
      ⟨.length, ellipseMask (k * rx) (k * ry) a i (g.map (Rigid.inUnit k))⟩ where
  unit := rfl
  length _ p := by
    simp only [ellipseMask, toLocal_inUnit, V3.smul_x, V3.smul_y, ne_eq, mul_eq_zero, hk.ne',
      false_or, mul_div_mul_left _ _ hk.ne']
  dimensionless h := by cases h

/-- **C89 (rectangle).** -/
theorem C89_rectangle {k : ℝ} (hk : 0 < k) (hx hy : ℝ) (a i : Bool) (g : Option Rigid) :
    Aperture.SameIn k ⟨.length, rectangleMask hx hy a i g⟩
      ⟨.length, rectangleMask (k * hx) (k * hy) a i (g.map (Rigid.inUnit k))⟩ where
  unit := rfl
  length _ p := by
    simp only [rectangleMask, toLocal_inUnit, V3.smul_x, V3.smul_y, ← mul_neg,
      mul_le_mul_iff_right₀ hk]
  dimensionless h := by cases h

/-- **C89 (polygon).**  Provided that the test for points of a polygon, which belongs to
named_arrays, does not depend on the unit. -/
theorem C89_polygon {k : ℝ} (P : List V3 → V3 → Bool)
    (hP : ∀ vs p, P (vs.map (k • ·)) (k • p) = P vs p) (vs : List V3) (a i : Bool)
    (g : Option Rigid) :
    Aperture.SameIn k ⟨.length, polygonMask P vs a i g⟩
      ⟨.length, polygonMask P (vs.map (k • ·)) a i (g.map (Rigid.inUnit k))⟩ where
  unit := rfl
  length _ p := by simp only [polygonMask, toLocal_inUnit, hP]
  dimensionless h := by cases h

/-- **C89 (apertures for directions)** have no unit. -/
theorem C89_direction_aperture (k : ℝ) (m : V3 → Bool) :
    Aperture.SameIn k ⟨.dimensionless, m⟩ ⟨.dimensionless, m⟩ where
  unit := rfl
  length h := by cases h
  dimensionless _ _ := rfl

/-! ### Rulings -/

/-- **C89 (equidistant rulings).** -/
theorem C89_constant_rulings (k d m : ℝ) :
    (idealRulings d m).SameIn k (idealRulings (k * d) m) where
  spacing p n := by
    simp only [idealRulings, constantSpacing, Option.map_some, Option.some.injEq]
    apply V3.ext <;> simp
  order := rfl
  efficiency _ _ := rfl

/-- Coefficients of a polynomial from lengths to lengths in another unit: the coefficient of the
power `i` is a length to the power `1 - i`. -/
noncomputable def coefficientsInUnit (k : ℝ) (c : List (ℕ × ℝ)) : List (ℕ × ℝ) :=
  c.map fun pc => (pc.1, k * pc.2 / k ^ pc.1)

/-- **C89 (rulings with a polynomial spacing).** -/
theorem C89_polynomial_rulings {k : ℝ} (hk : 0 < k) (c : List (ℕ × ℝ)) (g : V3) (m : ℝ)
    (t t' : Option (V3 → V3))
    (ht : Option.Rel (fun f f' => ∀ p : V3, f' (k • p) = k • f p) t t') :
    RulingProfile.SameIn k ⟨polynomialSpacing c g t, m, fun _ _ => some 1⟩
      ⟨polynomialSpacing (coefficientsInUnit k c) g t', m, fun _ _ => some 1⟩ where
  spacing p n := by
    have ev (x : ℝ) : polyEval (coefficientsInUnit k c) (k * x) = k * polyEval c x := by
      unfold polyEval coefficientsInUnit
      rw [List.foldl_map]
      have key : ∀ (l : List (ℕ × ℝ)) (acc : ℝ),
          l.foldl (fun r pc => r + k * pc.2 / k ^ pc.1 * (k * x) ^ pc.1) (k * acc)
            = k * l.foldl (fun r pc => r + pc.2 * x ^ pc.1) acc := by
        intro l
        induction l with
        | nil => intro acc; rfl
        | cons a l ih =>
          intro acc
          simp only [List.foldl_cons]
          rw [← ih]
          congr 1
          rw [mul_pow]; field_simp
      simpa using key c 0
    have fin (q : V3) : polyEval (coefficientsInUnit k c) ((k • q).dot g) • g
        = k • (polyEval c (q.dot g) • g) := by
      rw [V3.smul_dot, ev]; apply V3.ext <;> simp <;> ring
    simp only [polynomialSpacing, Option.map_some, Option.some.injEq]
    cases ht with
    | none => exact fin p
    | some h => simp only [h]; exact fin _
  order := rfl
  efficiency _ _ := rfl

theorem normalized?_smul {k : ℝ} (hk : 0 < k) (v : V3) : normalized? (k • v) = normalized? v := by
  simp only [normalized?, V3.len_smul, abs_of_pos hk, V3.smul_x, V3.smul_y, V3.smul_z,
    div?_mul_mul hk.ne']

/-- **C89 (holographic rulings).** -/
theorem C89_holographic_rulings {k : ℝ} (hk : 0 < k) (x1 x2 : V3) (w : ℝ) (d1 d2 : Bool)
    (m : ℝ) :
    RulingProfile.SameIn k ⟨holographicSpacing x1 x2 w d1 d2, m, fun _ _ => some 1⟩
      ⟨holographicSpacing (k • x1) (k • x2) (k * w) d1 d2, m, fun _ _ => some 1⟩ where
  spacing p n := by
    have e (x : V3) : k • p - k • x = k • (p - x) := by vring
    simp only [holographicSpacing, e, normalized?_smul hk, Option.bind_eq_bind, div?_mul_left]
    cases normalized? (p - x1) <;> simp only [Option.bind_none, Option.bind_some, Option.map_none]
    rename_i r1
    cases normalized? (p - x2) <;> simp only [Option.bind_none, Option.bind_some, Option.map_none]
    rename_i r2
    cases normalized? (n.cross ((2 * (if d1 = true then 1 else 0) - 1 : ℝ) • r1
      - (2 * (if d2 = true then 1 else 0) - 1 : ℝ) • r2)) <;>
      simp only [Option.bind_none, Option.bind_some, Option.map_none]
    cases div? w (n.cross ((2 * (if d1 = true then 1 else 0) - 1 : ℝ) • r1
      - (2 * (if d2 = true then 1 else 0) - 1 : ℝ) • r2)).len <;>
      simp only [Option.bind_none, Option.bind_some, Option.map_none, Option.map_some,
        Option.pure_def, Option.some.injEq]
    apply V3.ext <;> simp <;> ring
  order := rfl
  efficiency _ _ := rfl

/-! ### Materials -/

/-- **C89 (vacuum).** -/
theorem C89_vacuum (k : ℝ) : vacuum.SameIn k vacuum where
  index _ := rfl
  attenuation _ := by simp [vacuum]
  efficiency _ _ := rfl
  isMirror := rfl

/-- **C89 (ideal mirror).** -/
theorem C89_mirror (k : ℝ) : mirror.SameIn k mirror where
  index _ := rfl
  attenuation _ := rfl
  efficiency _ _ := rfl
  isMirror := rfl

/-- A glass in another unit of length: the coefficients `c` are squares of lengths. -/
noncomputable def Glass.inUnit (k : ℝ) (g : Glass) : Glass :=
  { g with c1 := k ^ 2 * g.c1, c2 := k ^ 2 * g.c2, c3 := k ^ 2 * g.c3 }

/-- **C89 (glass).** -/
theorem C89_glass {k : ℝ} (hk : 0 < k) (g : Glass) : g.material.SameIn k (g.inUnit k).material where
  index r := by
    have e (b c : ℝ) : div? (b * (k * r.wavelength) ^ 2) ((k * r.wavelength) ^ 2 - k ^ 2 * c)
        = div? (b * r.wavelength ^ 2) (r.wavelength ^ 2 - c) := by
      rw [← div?_mul_mul (pow_ne_zero 2 hk.ne') (b * r.wavelength ^ 2)]
      congr 1 <;> ring
    simp only [Glass.material, Glass.index, Glass.inUnit, Ray.inUnit, e]
  attenuation _ := by simp [Glass.material]
  efficiency _ _ := rfl
  isMirror := rfl

/-- The same layer in another unit of length: the thickness is a length, the index and the
interface are functions of the wavelength. -/
noncomputable def Layer.inUnit (k : ℝ) (l : Layer) : Layer where
  n w := l.n (w / k)
  thickness := k * l.thickness
  interface := l.interface.map fun f w d n => f (w / k) d n

mutual
/-- The same stack of layers in another unit of length. -/
noncomputable def Stack.inUnit (k : ℝ) : Stack → Stack
  | .layer l => .layer (l.inUnit k)
  | .sequence ls => .sequence (stackInUnitAll k ls)
  | .periodic ls n => .periodic (stackInUnitAll k ls) n
/-- See `Stack.inUnit`. -/
noncomputable def stackInUnitAll (k : ℝ) : List Stack → List Stack
  | [] => []
  | l :: ls => l.inUnit k :: stackInUnitAll k ls
end

theorem propagation_inUnit {k : ℝ} (hk : 0 < k) (w : ℝ) (d : ℂ) (t : ℝ) (n : ℂ) :
    propagation (k * w) d (k * t) n = propagation w d t n := by
  unfold propagation
  have hk' : (k : ℂ) ≠ 0 := by exact_mod_cast hk.ne'
  have : 2 * (Real.pi : ℂ) * ((k * t : ℝ) : ℂ) * n * d / ((k * w : ℝ) : ℂ)
      = 2 * Real.pi * t * n * d / w := by
    push_cast
    rw [show 2 * (Real.pi : ℂ) * (k * t) * n * d = k * (2 * Real.pi * t * n * d) by ring,
      mul_div_mul_left _ _ hk']
  simp only [this]

theorem Layer.inUnit_transfer {k : ℝ} (hk : 0 < k) (w : ℝ) (s : Bool) (l : Layer) (m : Medium) :
    (l.inUnit k).transfer (k * w) s m = l.transfer w s m := by
  have hw : k * w / k = w := by field_simp
  have hr (a b c d : ℂ) : refraction (k * w) a b s c d (l.inUnit k).interface
      = refraction w a b s c d l.interface := by
    unfold refraction
    cases hl : l.interface <;> simp [Layer.inUnit, hl, hw]
  have h1 : (l.inUnit k).n (k * w) = l.n w := by simp [Layer.inUnit, hw]
  have h2 : (l.inUnit k).thickness = k * l.thickness := rfl
  unfold Layer.transfer
  simp only [hr, h1, h2, propagation_inUnit hk]

mutual
theorem Stack.inUnit_transfer {k : ℝ} (hk : 0 < k) (w : ℝ) (s : Bool) : (t : Stack) →
    (m : Medium) → (t.inUnit k).transfer (k * w) s m = t.transfer w s m
  | .layer l, m => by
    simp only [Stack.inUnit, Stack.transfer]; exact Layer.inUnit_transfer hk w s l m
  | .sequence ls, m => by
    simp only [Stack.inUnit, Stack.transfer]; exact stackInUnitAll_transfer hk w s ls m _
  | .periodic ls n, m => by
    simp only [Stack.inUnit, Stack.transfer, stackInUnitAll_transfer hk w s ls]
theorem stackInUnitAll_transfer {k : ℝ} (hk : 0 < k) (w : ℝ) (s : Bool) : (ls : List Stack) →
    (m : Medium) → (acc : Option M2) →
    transferAll (k * w) s (stackInUnitAll k ls) m acc = transferAll w s ls m acc
  | [], m, acc => by simp only [stackInUnitAll, transferAll]
  | l :: ls, m, acc => by
    simp only [stackInUnitAll, transferAll, Stack.inUnit_transfer hk w s l,
      stackInUnitAll_transfer hk w s ls]
end

theorem substrateLayer_inUnit (k : ℝ) (hk : 0 < k) (w : ℝ) (p : Bool) (sub : Option Layer)
    (m : Medium) :
    (substrateLayer (sub.map (Layer.inUnit k))).transfer (k * w) p m
        = (substrateLayer sub).transfer w p m ∧
      (substrateLayer (sub.map (Layer.inUnit k))).n (k * w) = (substrateLayer sub).n w := by
  have hw : k * w / k = w := by field_simp
  cases sub with
  | none =>
    refine ⟨?_, rfl⟩
    have := Layer.inUnit_transfer hk w p ⟨fun _ => 1, 0, none⟩ m
    simpa [substrateLayer, Layer.inUnit] using this
  | some s =>
    refine ⟨?_, by simp [substrateLayer, Layer.inUnit, hw]⟩
    have := Layer.inUnit_transfer hk w p { s with thickness := 0 } m
    simpa [substrateLayer, Layer.inUnit] using this

/-- **C89 (multilayers).**  Reflectivity and transmissivity of a stack of layers do not depend on
the unit of length. -/
theorem C89_multilayer {k : ℝ} (hk : 0 < k) (w : ℝ) (p : Bool) (d n : ℂ) (layers : Stack)
    (sub : Option Layer) :
    multilayerEfficiency (k * w) p d n (layers.inUnit k) (sub.map (Layer.inUnit k))
      = multilayerEfficiency w p d n layers sub := by
  have ht : multilayerTransfer (k * w) p d n (layers.inUnit k) (sub.map (Layer.inUnit k))
      = multilayerTransfer w p d n layers sub := by
    simp only [multilayerTransfer, Stack.inUnit_transfer hk,
      (substrateLayer_inUnit k hk w p sub _).1]
  have hn := (substrateLayer_inUnit k hk w p sub ⟨1, 1, true⟩).2
  simp only [multilayerEfficiency, multilayerCoefficients, ht, hn]

theorem rayIndex_inUnit {k : ℝ} (hk : 0 < k) (r : Ray) : rayIndex (r.inUnit k) = rayIndex r := by
  have : r.attenuation / k * (k * r.wavelength) = r.attenuation * r.wavelength := by field_simp
  simp only [rayIndex, Ray.inUnit, this]

/-- **C89 (multilayer mirrors and films as materials).** -/
theorem C89_multilayer_materials {k : ℝ} (hk : 0 < k) (layers : Stack) (sub : Option Layer)
    (r : Ray) (n : V3) :
    multilayerMirrorEfficiency (layers.inUnit k) (sub.map (Layer.inUnit k)) (r.inUnit k) n
        = multilayerMirrorEfficiency layers sub r n ∧
      multilayerFilmEfficiency (layers.inUnit k) (r.inUnit k) n
        = multilayerFilmEfficiency layers r n := by
  have h0 := fun w p d m => C89_multilayer hk w p d m layers none
  simp only [Option.map_none] at h0
  have e1 : (r.inUnit k).wavelength = k * r.wavelength := rfl
  have e2 : (r.inUnit k).direction = r.direction := rfl
  constructor
  · simp only [multilayerMirrorEfficiency, multilayerAverage, rayIndex_inUnit hk, e1, e2,
      C89_multilayer hk]
  · simp only [multilayerFilmEfficiency, multilayerAverage, rayIndex_inUnit hk, e1, e2, h0]

/-- A plane, a sphere with a circular stop and grating rulings, in millimetres and in
micrometres: the two traces agree. -/
example (r : Ray) :
    let s : Surface := ⟨sphereSag 100, mirror, some ⟨.length, circleMask 10 true false none⟩,
      some (idealRulings (1 / 1200) 1), some (Rigid.translation ⟨0, 0, 50⟩)⟩
    let s' : Surface := ⟨sphereSag (1000 * 100), mirror,
      some ⟨.length, circleMask (1000 * 10) true false none⟩,
      some (idealRulings (1000 * (1 / 1200)) 1),
      some ((Rigid.translation ⟨0, 0, 50⟩).inUnit 1000)⟩
    propagateSurfaces [s'] (r.inUnit 1000) = (propagateSurfaces [s] r).map (Ray.inUnit 1000) := by
  intro s s'
  have h : Surface.SameIn 1000 s s' :=
    { sag := C89_sphere (by norm_num) 100
      material := C89_mirror 1000
      aperture := .some (C89_circle (by norm_num) 10 true false none)
      rulings := .some (C89_constant_rulings 1000 (1 / 1200) 1)
      transformation := rfl }
  exact C89_system (by norm_num) (.cons h .nil) r

/-- The condition of `C89_conic_partial` holds for an ellipsoid in millimetres and metres. -/
example : |conicLeading (1000 * 1) (-1 / 2) ⟨0, 0, 1⟩| < 1e-12 ↔
    |conicLeading 1 (-1 / 2) ⟨0, 0, 1⟩| < 1e-12 := by
  norm_num [conicLeading]

end Optika
