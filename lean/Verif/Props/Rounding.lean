import Verif.Lemmas.Rounding
import Verif.Lemmas.Surface

/-!
# Rounding errors of a system
-/

namespace Optika
open Slot V3

/-! ## Specification -/

/-- The ray `o + t u` strikes the surface at `q` well: it does not touch it, does not strike its rim, and no decision of the
code is on edge. -/
def Profile.Clear (o u q : V3) : Profile → Prop
  | .flat => True
  | .sphere r =>
    r * u.z ≠ 0 ∧ (u.dot (o - ⟨0, 0, r⟩)) ^ 2 ≠ (o - ⟨0, 0, r⟩).dot (o - ⟨0, 0, r⟩) - r ^ 2 ∧ q.x ^ 2 + q.y ^ 2 ≠ r ^ 2
  | .cylinder r =>
    r * u.z ≠ 0 ∧ (o.x * u.z + (r - o.z) * u.x) ^ 2 ≠ (u.x ^ 2 + u.z ^ 2) * r ^ 2 ∧ q.x ^ 2 ≠ r ^ 2
  | .parabola f =>
    u.x ^ 2 + u.y ^ 2 ≠ 1e-10 ∧ (1e-10 < u.x ^ 2 + u.y ^ 2 → f * u.z ≠ 0 ∧
      (o.x * u.x + o.y * u.y - 2 * f * u.z) ^ 2 ≠ (u.x ^ 2 + u.y ^ 2) * (o.x ^ 2 + o.y ^ 2 - 4 * f * o.z))
  | .conic r k =>
    let a := (u.x ^ 2 + u.y ^ 2 + (1 + k) * u.z ^ 2) / r
    let b := 2 * ((o.x * u.x + o.y * u.y + (1 + k) * o.z * u.z) / r - u.z)
    let c := (o.x ^ 2 + o.y ^ 2 + (1 + k) * o.z ^ 2) / r - 2 * o.z
    |a| ≠ 1e-12 ∧ b ≠ 0 ∧ b ^ 2 ≠ 4 * a * c ∧ (1 + k) * (q.x ^ 2 + q.y ^ 2) ≠ r ^ 2 ∧
      ∀ t, (if |a| < 1e-12 then b * t + c = 0 else a * t ^ 2 + b * t + c = 0) →
        (o.z + t * u.z) * (((o.x + t * u.x) ^ 2 + (o.y + t * u.y) ^ 2) / r - (o.z + t * u.z)) ≠ 0

/-- The part of a ray that an aperture looks at. -/
def ApertureUnit.part (unit : ApertureUnit) (r : Ray) : V3 :=
  match unit with
  | .dimensionless => r.direction
  | _ => r.position

/-- The same part of the numbers that are stored. -/
def ApertureUnit.coordinates (unit : ApertureUnit) (env : Slot → ℝ) : V3 :=
  match unit with
  | .dimensionless => ⟨env dx, env dy, env dz⟩
  | _ => ⟨env px, env py, env pz⟩

/-- At the point `p`, which is not at the edge of the aperture, the formula tells whether rays are blocked. -/
def Window.Clear (w : Window) (p : V3) : Prop :=
  ∀ env, w.aperture.unit.coordinates env = p →
    w.test.Regular env ∧ w.test.val env ≠ 0 ∧ (w.aperture.mask p = true ↔ 0 < w.test.val env)

/-- The ray strikes the surface well, neither along it nor at the angle of total reflection, nor the edge of the aperture. -/
def Element.Clear (s : Element) (r : Ray) : Prop :=
  let o := s.surface.frame.ipoint r.position
  let u := s.surface.frame.ivec r.direction
  (∀ w out, s.aperture = some w → s.surface.propagateLocal (r.unmove s.surface.frame) = some out →
    w.Clear (w.aperture.unit.part out)) ∧
  ∀ q n, s.profile.sag.intercept o u = some q → s.profile.sag.normal q = some n →
    s.profile.Clear o u q ∧ u.dot n ≠ 0 ∧
    ∀ e n2, s.surface.effectiveRay { r with position := q, direction := u } n = some e → s.filling.material.index e = some n2 →
      e.direction.dot n ≠ 0 ∧ (n2 / r.index) ^ 2 + (e.direction.dot n) ^ 2 ≠ e.direction.dot e.direction

/-- The ray strikes all surfaces well. -/
def ClearAll : List Element → Ray → Prop
  | [], _ => True
  | s :: ss, r => s.Clear r ∧ ∀ out, s.surface.propagate r = some out → ClearAll ss out

/-! ## Steps -/

/-- The numbers while a ray is at a surface. -/
noncomputable def Ray.numbersAt (r : Ray) (t : ℝ) (n : V3) : Slot → ℝ
  | .path => t
  | .nx => n.x
  | .ny => n.y
  | .nz => n.z
  | s => r.numbers s

theorem numbersAt_zero (r : Ray) : r.numbersAt 0 ⟨0, 0, 0⟩ = r.numbers := by
  funext s; cases s <;> rfl

/-- A step leads from some numbers to others, and all its formulas are regular. -/
def Stage.Leads (s : Stage) (env env' : Slot → ℝ) : Prop :=
  ∀ k, (s k).Regular env ∧ (s k).val env = env' k

theorem Stage.Leads.all {s : Stage} {env env' : Slot → ℝ} (h : s.Leads env env') :
    RegularAll [s] env ∧ valAll [s] env = env' :=
  ⟨⟨fun k => (h k).1, trivial⟩, funext fun k => (h k).2⟩

theorem unmove_leads (g : Rigid) (r : Ray) (t : ℝ) (n : V3) :
    (unmoveE g).Leads (r.numbersAt t n) ((r.unmove g).numbersAt t n) := by
  intro k
  cases k <;> simp only [unmoveE, keep, rowE, regular_add, regular_mul, regular_sub, Expr.Regular, val_add, val_mul, val_sub,
    Expr.val, Ray.numbersAt, Ray.numbers, Ray.unmove, Rigid.ipoint, Rigid.ivec, M3.mulVec, dot, sub_x, sub_y, sub_z, and_self]
  exact ⟨trivial, rfl⟩

theorem move_leads (g : Rigid) (r : Ray) (t : ℝ) (n : V3) :
    (moveE g).Leads (r.numbersAt t n) ((r.move g).numbersAt t n) := by
  intro k
  cases k <;> simp only [moveE, keep, rowE, regular_add, regular_mul, regular_sub, Expr.Regular, val_add, val_mul, val_sub,
    Expr.val, Ray.numbersAt, Ray.numbers, Ray.move, Rigid.point, Rigid.vec, M3.mulVec, dot, add_x, add_y, add_z, and_self]
  exact ⟨trivial, rfl⟩

theorem forget_leads (r : Ray) (t : ℝ) (n : V3) : forgetStage.Leads (r.numbersAt t n) r.numbers := by
  intro k
  cases k <;> simp only [forgetStage, keep, Expr.Regular, Expr.val, Ray.numbersAt, Ray.numbers, and_self]

theorem intercept_leads (r : Ray) (t : ℝ) (n : V3) :
    interceptStage.Leads (r.numbersAt t n)
      (({ r with
        position := r.position + t • r.direction
        intensity := Real.exp (-r.attenuation * (r.position + t • r.direction - r.position).len) * r.intensity } :
        Ray).numbersAt t n) := by
  intro k
  cases k <;> simp [interceptStage, keep, Expr.Regular, Expr.val, Ray.numbersAt, Ray.numbers, regular_add, regular_mul,
    regular_sub, regular_neg, regular_norm, val_norm, val_add, val_mul, val_sub, val_neg, len, dot, mul_comm, pow_two]

/-! ## Paths -/

/-- The path length is computed well. -/
theorem flat_path {o u q : V3} (h : flatIntercept o u = some q) (r : Ray) (ho : r.position = o) (hu : r.direction = u)
    (s : ℝ) (n : V3) :
    (Profile.pathE .flat).Regular (r.numbersAt s n) ∧ q = o + (Profile.pathE .flat).val (r.numbersAt s n) • u := by
  subst ho hu
  simp only [flatIntercept, Option.bind_eq_bind, Option.bind_eq_some_iff, Option.pure_def, Option.some.injEq, div?_eq_some] at h
  obtain ⟨d, ⟨h0, rfl⟩, rfl⟩ := h
  refine ⟨⟨trivial, trivial, h0⟩, ?_⟩
  simp only [Profile.pathE, val_div, val_neg, Expr.val, Ray.numbersAt, Ray.numbers]
  vring

theorem sphere_path {R : ℝ} {o u q : V3} (h : sphereIntercept R o u = some q) (hc : (Profile.sphere R).Clear o u q) (r : Ray)
    (ho : r.position = o) (hu : r.direction = u) (s : ℝ) (n : V3) :
    (Profile.pathE (.sphere R)).Regular (r.numbersAt s n) ∧
      q = o + (Profile.pathE (.sphere R)).val (r.numbersAt s n) • u := by
  subst ho hu
  obtain ⟨hz, hd, -⟩ := hc
  simp only [sphereIntercept, Option.bind_eq_bind, Option.bind_eq_some_iff, Option.pure_def, Option.some.injEq,
    sqrt?_eq_some] at h
  obtain ⟨d, ⟨h0, rfl⟩, rfl⟩ := h
  simp only [dot, sub_x, sub_y, sub_z, sub_zero] at hd
  constructor
  · simp only [Profile.pathE, spherePathE, regular_sub, regular_mul, regular_add, Expr.Regular, true_and, and_true]
    refine ⟨regular_sign _ _ ⟨trivial, trivial⟩ hz, .inr ?_⟩
    simp only [val_sub, val_add, val_mul, Expr.val, Ray.numbersAt, Ray.numbers]
    refine lt_of_le_of_ne h0 fun h1 => hd ?_
    linarith
  · simp only [Profile.pathE, spherePathE, val_sub, val_add, val_mul, val_neg, val_sign, Expr.val, Ray.numbersAt, Ray.numbers]
    vring

theorem cylinder_path {R : ℝ} {o u q : V3} (h : cylinderIntercept R o u = some q) (hc : (Profile.cylinder R).Clear o u q)
    (r : Ray) (ho : r.position = o) (hu : r.direction = u) (s : ℝ) (n : V3) :
    (Profile.pathE (.cylinder R)).Regular (r.numbersAt s n) ∧
      q = o + (Profile.pathE (.cylinder R)).val (r.numbersAt s n) • u := by
  subst ho hu
  obtain ⟨hz, hd, -⟩ := hc
  have hz0 : r.direction.z ≠ 0 := right_ne_zero_of_mul hz
  have hcc : 0 < r.direction.z ^ 2 + r.direction.x ^ 2 := by positivity
  set D := (r.direction.x ^ 2 + r.direction.z ^ 2) * R ^ 2 -
    (r.position.x * r.direction.z + (R - r.position.z) * r.direction.x) ^ 2 with hD
  have hD0 : D ≠ 0 := sub_ne_zero.2 hd.symm
  have e1 : ∀ env : Slot → ℝ, env = r.numbersAt s n → (- env dz * -env dz + env dx * env dx) * R ^ 2
      - ((0 - env px) * (-env dz) + (R - env pz) * env dx) ^ 2 = D := by
    rintro env rfl
    simp only [Ray.numbersAt, Ray.numbers, hD]; ring
  have e2 := e1 _ rfl
  simp only [Ray.numbersAt, Ray.numbers] at e2
  constructor
  · simp only [Profile.pathE, cylinderPathE, regular_sub, regular_mul, regular_add, regular_neg, regular_div, Expr.Regular,
      val_sub, val_add, val_mul, val_div, val_neg, Expr.val, Ray.numbersAt, Ray.numbers, true_and, and_true, e2]
    refine ⟨fun h => ⟨⟨regular_sign _ _ ⟨trivial, trivial⟩ hz, .inr ?_⟩, ?_⟩, fun _ => hz0, fun h => (hD0 (by linarith)).elim⟩
    · exact lt_of_le_of_ne (by linarith) hD0.symm
    · intro h; nlinarith
  · simp only [Profile.pathE, cylinderPathE, val_sub, val_add, val_mul, val_div, val_neg, val_sign, Expr.val, Ray.numbersAt,
      Ray.numbers, e2]
    have key : (r.direction.cross ⟨0, 1, 0⟩).dot (r.direction.cross ⟨0, 1, 0⟩) * R ^ 2 -
        ((⟨0, 0, R⟩ : V3) - r.position).dot (r.direction.cross ⟨0, 1, 0⟩) ^ 2 = D := by
      simp only [cross, dot, sub_x, sub_y, sub_z, hD]; ring
    simp only [cylinderIntercept, Option.bind_eq_bind, Option.pure_def] at h
    split_ifs at h with hpos <;> rw [key] at hpos <;>
      simp only [Option.bind_eq_some_iff, Option.some.injEq, div?_eq_some, key] at h <;> obtain ⟨d, ⟨h0, rfl⟩, rfl⟩ := h
    · rw [if_pos (by linarith)]
      simp only [cross, dot, sub_x, sub_y, sub_z]
      refine V3.ext ?_ ?_ ?_ <;> simp only [add_x, add_y, add_z, smul_x, smul_y, smul_z] <;> congr 3 <;> ring
    · rw [if_neg (by linarith)]
      vring

theorem parabola_path {f : ℝ} {o u q : V3} (h : parabolaIntercept f o u = some q) (hc : (Profile.parabola f).Clear o u q)
    (r : Ray) (ho : r.position = o) (hu : r.direction = u) (s : ℝ) (n : V3) :
    (Profile.pathE (.parabola f)).Regular (r.numbersAt s n) ∧
      q = o + (Profile.pathE (.parabola f)).val (r.numbersAt s n) • u := by
  subst ho hu
  obtain ⟨hr, hc⟩ := hc
  simp only [parabolaIntercept, Option.bind_eq_bind, Option.pure_def] at h
  split_ifs at h with hpos
  · simp only [Option.bind_eq_some_iff, Option.some.injEq, div?_eq_some, sqrt?_eq_some] at h
    obtain ⟨_, ⟨h0, rfl⟩, d, ⟨h1, rfl⟩, rfl⟩ := h
    obtain ⟨hz, hd⟩ := hc hpos
    constructor
    · simp only [Profile.pathE, parabolaPathE, regular_sub, regular_mul, regular_add, regular_neg, regular_div, Expr.Regular,
        val_sub, val_add, val_mul, val_div, val_neg, Expr.val, Ray.numbersAt, Ray.numbers, true_and, and_true]
      refine ⟨fun _ => ⟨⟨regular_sign _ _ ⟨trivial, trivial⟩ hz, .inr ?_⟩, h1⟩, fun h => ?_, fun h => (hr (by linarith)).elim⟩
      · refine lt_of_lt_of_eq (lt_of_le_of_ne h0 fun h2 => hd ?_) ?_
        · linear_combination -h2
        · ring
      · linarith
    · simp only [Profile.pathE, parabolaPathE, val_sub, val_add, val_mul, val_div, val_neg, val_sign, Expr.val, Ray.numbersAt,
        Ray.numbers]
      rw [if_pos (by linarith)]
      refine V3.ext ?_ ?_ ?_ <;> simp only [add_x, add_y, add_z, smul_x, smul_y, smul_z] <;> rw [mul_comm]
  · simp only [Option.bind_eq_some_iff, Option.some.injEq, div?_eq_some] at h
    obtain ⟨d, ⟨h0, rfl⟩, rfl⟩ := h
    have hlt : r.direction.x ^ 2 + r.direction.y ^ 2 < 1e-10 := lt_of_le_of_ne (not_lt.1 hpos) hr
    constructor
    · simp only [Profile.pathE, parabolaPathE, regular_sub, regular_mul, regular_add, regular_neg, regular_div, Expr.Regular,
        val_sub, val_add, val_mul, val_div, val_neg, Expr.val, Ray.numbersAt, Ray.numbers, true_and, and_true]
      exact ⟨fun h => by linarith, fun _ => h0, fun h => by linarith⟩
    · simp only [Profile.pathE, parabolaPathE, val_sub, val_add, val_mul, val_div, val_neg, val_sign, Expr.val, Ray.numbersAt,
        Ray.numbers]
      rw [if_neg (by linarith)]
      vring

section conic
variable {R k : ℝ} (hR : R ≠ 0) (env : Slot → ℝ)
include hR

theorem conicAE_regular : (conicAE R k).Regular env := by
  simp [conicAE, regular_mul, regular_add, regular_div, Expr.Regular, Expr.val, hR]

theorem conicBE_regular : (conicBE R k).Regular env := by
  simp [conicBE, regular_mul, regular_add, regular_sub, regular_div, Expr.Regular, Expr.val, hR]

theorem conicCE_regular : (conicCE R k).Regular env := by
  simp [conicCE, regular_mul, regular_add, regular_sub, regular_div, Expr.Regular, Expr.val, hR]

theorem conicDE_regular : (conicDE R k).Regular env := by
  simp [conicDE, regular_mul, regular_sub, Expr.Regular, conicAE_regular hR, conicBE_regular hR, conicCE_regular hR]

theorem conicSheetE_regular {t : Expr} (ht : t.Regular env) : (conicSheetE R t).Regular env := by
  simp [conicSheetE, regular_mul, regular_add, regular_sub, regular_div, Expr.Regular, Expr.val, hR, ht]

theorem conicRootE_regular {sign : ℝ} (hA : (conicAE R k).val env ≠ 0) (hD : 0 < (conicDE R k).val env) :
    (conicRootE R k sign).Regular env := by
  simp [conicRootE, regular_mul, regular_add, regular_neg, regular_div, Expr.Regular, Expr.val, val_mul, conicAE_regular hR,
    conicBE_regular hR, conicDE_regular hR, hA, hD]

end conic

theorem conic_path {R k : ℝ} {o u q : V3} (h : conicIntercept R k o u = some q) (hc : (Profile.conic R k).Clear o u q)
    (r : Ray) (ho : r.position = o) (hu : r.direction = u) (s : ℝ) (n : V3) :
    (Profile.pathE (.conic R k)).Regular (r.numbersAt s n) ∧
      q = o + (Profile.pathE (.conic R k)).val (r.numbersAt s n) • u := by
  subst ho hu
  simp only [conicIntercept, Option.bind_eq_bind, Option.bind_eq_some_iff, Option.pure_def, Option.some.injEq,
    div?_eq_some] at h
  obtain ⟨c, ⟨hR, rfl⟩, t, ht, rfl⟩ := h
  set env := r.numbersAt s n with henv
  set A := (conicAE R k).val env with hA
  set B := (conicBE R k).val env with hB
  set C := (conicCE R k).val env with hC
  set D := (conicDE R k).val env with hD
  have eA : 1 / R * (r.direction.x ^ 2 + r.direction.y ^ 2 + (1 + k) * r.direction.z ^ 2) = A := rfl
  have eB : 2 * (1 / R * (r.position.x * r.direction.x + r.position.y * r.direction.y +
      (1 + k) * r.position.z * r.direction.z) - r.direction.z) = B := rfl
  have eC : 1 / R * (r.position.x ^ 2 + r.position.y ^ 2 + (1 + k) * r.position.z ^ 2) - 2 * r.position.z = C := rfl
  have eD : B ^ 2 - 4 * A * C = D := rfl
  have eS : ∀ T : Expr, (conicSheetE R T).val env =
      (r.position.z + r.direction.z * T.val env) * (1 / R * ((r.position.x + r.direction.x * T.val env) ^ 2 +
        (r.position.y + r.direction.y * T.val env) ^ 2) - (r.position.z + r.direction.z * T.val env)) := fun T => rfl
  have eT : ∀ sign : ℝ, (conicRootE R k sign).val env = (-B + sign * Real.sqrt D) / (2 * A) := fun T => rfl
  have eL : (-conicCE R k / conicBE R k).val env = -C / B := rfl
  simp only [Profile.Clear] at hc
  rw [show (r.direction.x ^ 2 + r.direction.y ^ 2 + (1 + k) * r.direction.z ^ 2) / R = A by rw [← eA]; ring,
    show 2 * ((r.position.x * r.direction.x + r.position.y * r.direction.y + (1 + k) * r.position.z * r.direction.z) / R
      - r.direction.z) = B by rw [← eB]; ring,
    show (r.position.x ^ 2 + r.position.y ^ 2 + (1 + k) * r.position.z ^ 2) / R - 2 * r.position.z = C by
      rw [← eC]; ring] at hc
  obtain ⟨hA1, hB0, hD0, -, hS⟩ := hc
  simp only [conicPath, conicRoot] at ht
  rw [eA, eB, eC, eD] at ht
  have hD0 : 0 < D := by
    rcases lt_trichotomy D 0 with h | h | h
    · simp [h] at ht
    · exact (hD0 (by linarith)).elim
    · exact h
  have hS' : ∀ t, (if |A| < 1e-12 then B * t + C = 0 else A * t ^ 2 + B * t + C = 0) →
      (r.position.z + r.direction.z * t) * (1 / R * ((r.position.x + r.direction.x * t) ^ 2 +
        (r.position.y + r.direction.y * t) ^ 2) - (r.position.z + r.direction.z * t)) ≠ 0 := by
    intro t h0 h1
    refine hS t h0 ?_
    rw [← h1]; ring
  have hne : ¬ D < 0 := hD0.not_gt
  simp only [if_neg hne, Option.bind_eq_bind] at ht
  by_cases hdeg : |A| < 1e-12
  · simp only [if_pos hdeg, div?_of_ne hB0, Option.bind_some] at ht
    have h1 := hS' (-C / B) (by rw [if_pos hdeg]; have := div_mul_cancel₀ (-C) hB0; linarith)
    have ht2 : (match (if (conicSheetE R (-conicCE R k / conicBE R k)).val env ≥ 0 then some (-C / B) else none),
        (if (conicSheetE R (-conicCE R k / conicBE R k)).val env ≥ 0 then some (-C / B) else none) with
        | none, none => none
        | some ta, none => some ta
        | none, some tb => some tb
        | some ta, some tb => if |ta| ≤ |tb| then some ta else some tb) = some t := ht
    have h2 : 0 < (conicSheetE R (-conicCE R k / conicBE R k)).val env := by
      refine lt_of_le_of_ne ?_ h1.symm
      by_contra hneg
      rw [if_neg hneg] at ht2
      simp at ht2
    have ht' : t = -C / B := by
      rw [if_pos h2.le] at ht2
      simpa [eq_comm] using ht2
    have hl : (-conicCE R k / conicBE R k).Regular env := ⟨conicCE_regular hR env, conicBE_regular hR env, hB0⟩
    constructor
    · simp only [Profile.pathE, conicPathE, Expr.Regular, regular_sub, regular_abs, val_sub, val_abs, Expr.val]
      refine ⟨conicDE_regular hR env, fun h => (h.not_gt hD0).elim, fun _ => ⟨⟨conicAE_regular hR env, trivial⟩,
        fun _ => ⟨conicSheetE_regular hR env hl, fun h => (h.not_gt h2).elim, fun _ => hl, fun h => (h2.ne' h).elim⟩,
        fun h => ?_, fun h => ?_⟩, fun h => (hD0.ne' h).elim⟩
      · rw [← hA] at h; linarith
      · rw [← hA] at h; linarith
    · simp only [Profile.pathE, conicPathE, val_sub, val_abs, Expr.val]
      rw [← hA, ← hD, if_neg hne, if_pos (by linarith), if_neg h2.not_gt, eL, ht']
      vring
  · have hgt : 1e-12 < |A| := lt_of_le_of_ne (not_lt.1 hdeg) hA1.symm
    have hA0 : A ≠ 0 := fun h => by rw [h, abs_zero] at hgt; norm_num at hgt
    have h2A : 2 * A ≠ 0 := by simpa using hA0
    simp only [if_neg hdeg, div?_of_ne h2A, Option.bind_some] at ht
    have hsq : Real.sqrt D ^ 2 = D := Real.sq_sqrt hD0.le
    have hroot : ∀ sign : ℝ, sign ^ 2 = 1 → (conicSheetE R (conicRootE R k sign)).val env ≠ 0 := by
      intro sign hs
      rw [eS, eT]
      refine hS' _ ?_
      rw [if_neg hdeg]
      have : (sign * Real.sqrt D) ^ 2 = B ^ 2 - 4 * A * C := by rw [mul_pow, hs, hsq, eD, one_mul]
      field_simp
      linear_combination this
    have ha := hroot (-1) (by norm_num)
    have hb := hroot 1 (by norm_num)
    have ht2 : (match (if (conicSheetE R (conicRootE R k (-1))).val env ≥ 0 then some ((conicRootE R k (-1)).val env) else none),
        (if (conicSheetE R (conicRootE R k 1)).val env ≥ 0 then some ((conicRootE R k 1).val env) else none) with
        | none, none => none
        | some ta, none => some ta
        | none, some tb => some tb
        | some ta, some tb => if |ta| ≤ |tb| then some ta else some tb) = some t := ht
    have ra : (conicRootE R k (-1)).Regular env := conicRootE_regular hR env hA0 hD0
    have rb : (conicRootE R k 1).Regular env := conicRootE_regular hR env hA0 hD0
    have hab : |(conicRootE R k 1).val env| - |(conicRootE R k (-1)).val env| = 0 →
        (conicRootE R k 1).val env = (conicRootE R k (-1)).val env := by
      intro h
      have h1 := (abs_eq_abs.1 (sub_eq_zero.1 h))
      rcases h1 with h1 | h1
      · exact h1
      · rw [eT, eT] at h1
        exfalso
        field_simp at h1
        exact hB0 (by linarith)
    constructor
    · simp only [Profile.pathE, conicPathE, Expr.Regular, regular_sub, regular_abs, val_sub, val_abs, Expr.val]
      refine ⟨conicDE_regular hR env, fun h => (h.not_gt hD0).elim, fun _ => ⟨⟨conicAE_regular hR env, trivial⟩,
        fun h => by rw [← hA] at h; linarith, fun _ => ?_, fun h => by rw [← hA] at h; linarith⟩, fun h => (hD0.ne' h).elim⟩
      refine ⟨conicSheetE_regular hR env ra, fun h => ⟨conicSheetE_regular hR env rb, fun h' => ?_, fun _ => rb, fun h' => (hb h').elim⟩,
        fun _ => ⟨conicSheetE_regular hR env rb, fun _ => ra, fun _ => ⟨⟨rb, ra⟩, fun _ => rb, fun _ => ra, hab⟩,
          fun h' => (hb h').elim⟩, fun h' => (ha h').elim⟩
      have h1 := lt_of_le_of_ne h ha
      have h2 := lt_of_le_of_ne h' hb
      simp [h1.not_ge, h2.not_ge] at ht2
    · simp only [Profile.pathE, conicPathE, val_sub, val_abs, Expr.val]
      rw [← hA, ← hD, if_neg hne, if_neg (by linarith)]
      have key : t = if (conicSheetE R (conicRootE R k (-1))).val env < 0 then
          if (conicSheetE R (conicRootE R k 1)).val env < 0 then Expr.inf.val env else (conicRootE R k 1).val env
        else
          if (conicSheetE R (conicRootE R k 1)).val env < 0 then (conicRootE R k (-1)).val env
          else
            if |(conicRootE R k 1).val env| - |(conicRootE R k (-1)).val env| < 0 then (conicRootE R k 1).val env
            else (conicRootE R k (-1)).val env := by
        by_cases h1 : (conicSheetE R (conicRootE R k (-1))).val env < 0 <;>
          by_cases h2 : (conicSheetE R (conicRootE R k 1)).val env < 0
        · simp [h1.not_ge, h2.not_ge] at ht2
        · simpa [h1, h1.not_ge, h2, not_lt.1 h2, eq_comm] using ht2
        · simpa [h1, h2.not_ge, h2, not_lt.1 h1, eq_comm] using ht2
        · rw [if_neg h1, if_neg h2]
          rw [if_pos (not_lt.1 h1), if_pos (not_lt.1 h2)] at ht2
          simp only at ht2
          split_ifs at ht2 ⊢ with h3 h4 h4
          · linarith
          · simpa [eq_comm] using ht2
          · simpa [eq_comm] using ht2
          · linarith
      rw [← key]
      vring

theorem path_leads {p : Profile} {q : V3} (r : Ray) (h : p.sag.intercept r.position r.direction = some q)
    (hc : p.Clear r.position r.direction q) (s : ℝ) (n : V3) :
    ∃ t, q = r.position + t • r.direction ∧ (pathStage p).Leads (r.numbersAt s n) (r.numbersAt t n) := by
  have key : p.pathE.Regular (r.numbersAt s n) ∧ q = r.position + p.pathE.val (r.numbersAt s n) • r.direction := by
    cases p with
    | flat => exact flat_path h r rfl rfl s n
    | sphere R => exact sphere_path h hc r rfl rfl s n
    | cylinder R => exact cylinder_path h hc r rfl rfl s n
    | parabola f => exact parabola_path h hc r rfl rfl s n
    | conic R k => exact conic_path h hc r rfl rfl s n
  refine ⟨_, key.2, fun k => ?_⟩
  cases k <;> first
    | exact ⟨key.1, rfl⟩
    | exact ⟨trivial, rfl⟩

/-! ## Normals -/

theorem normal_leads {p : Profile} {o u n : V3} (r : Ray) (h : p.sag.normal r.position = some n)
    (hc : p.Clear o u r.position) (t : ℝ) (n0 : V3) :
    (normalStage p).Leads (r.numbersAt t n0) (r.numbersAt t n) := by
  have key : (p.normalE.1.Regular (r.numbersAt t n0) ∧ p.normalE.1.val (r.numbersAt t n0) = n.x) ∧
      (p.normalE.2.1.Regular (r.numbersAt t n0) ∧ p.normalE.2.1.val (r.numbersAt t n0) = n.y) ∧
      (p.normalE.2.2.Regular (r.numbersAt t n0) ∧ p.normalE.2.2.val (r.numbersAt t n0) = n.z) := by
    cases p with
    | flat =>
      simp only [Profile.sag, flatSag, flatNormal, Option.some.injEq] at h
      subst h
      exact ⟨⟨trivial, rfl⟩, ⟨trivial, rfl⟩, ⟨trivial, rfl⟩⟩
    | sphere R =>
      obtain ⟨hz, -, hrim⟩ := hc
      have hR : R ≠ 0 := left_ne_zero_of_mul hz
      simp only [Profile.sag, sphereSag, sphereNormal, Option.bind_eq_bind, Option.bind_eq_some_iff, Option.pure_def,
        Option.some.injEq, div?_eq_some, sqrt?_eq_some] at h
      obtain ⟨c, ⟨-, rfl⟩, s, ⟨h0, rfl⟩, rfl⟩ := h
      have h1 : 0 < 1 - (1 / R * r.position.x) ^ 2 - (1 / R * r.position.y) ^ 2 := by
        refine lt_of_le_of_ne h0 fun h1 => hrim ?_
        field_simp at h1
        linarith
      refine ⟨⟨⟨⟨trivial, trivial, hR⟩, trivial⟩, rfl⟩, ⟨⟨⟨trivial, trivial, hR⟩, trivial⟩, rfl⟩, ⟨⟨?_, .inr h1⟩, rfl⟩⟩
      exact ⟨⟨trivial, ⟨trivial, trivial, hR⟩, trivial⟩, ⟨trivial, trivial, hR⟩, trivial⟩
    | cylinder R =>
      obtain ⟨hz, -, hrim⟩ := hc
      have hR : R ≠ 0 := left_ne_zero_of_mul hz
      simp only [Profile.sag, cylinderSag, cylinderNormal, Option.bind_eq_bind, Option.bind_eq_some_iff, Option.pure_def,
        Option.some.injEq, div?_eq_some, sqrt?_eq_some] at h
      obtain ⟨c, ⟨-, rfl⟩, s, ⟨h0, rfl⟩, rfl⟩ := h
      have h1 : 0 < 1 - (r.position.x / R) ^ 2 := by
        refine lt_of_le_of_ne h0 fun h1 => hrim ?_
        field_simp at h1
        linarith
      exact ⟨⟨⟨trivial, trivial, hR⟩, rfl⟩, ⟨trivial, rfl⟩, ⟨⟨⟨trivial, trivial, trivial, hR⟩, .inr h1⟩, rfl⟩⟩
    | parabola f =>
      simp only [Profile.sag, parabolaSag, parabolaNormal, Option.bind_eq_bind, Option.bind_eq_some_iff, Option.pure_def,
        Option.some.injEq, div?_eq_some, sqrt?_eq_some] at h
      obtain ⟨_, ⟨hf, rfl⟩, _, ⟨-, rfl⟩, s, ⟨h0, rfl⟩, _, ⟨-, rfl⟩, _, ⟨-, rfl⟩, _, ⟨-, rfl⟩, rfl⟩ := h
      have h1 : 0 < (r.position.x / (2 * f)) ^ 2 + (r.position.y / (2 * f)) ^ 2 + 1 := by positivity
      have h2 := (Real.sqrt_pos.2 h1).ne'
      have hr : ∀ env, (Expr.const 2 * Expr.const f).Regular env := fun env => ⟨trivial, trivial⟩
      have hs : ((Expr.sq (.var .px / (.const 2 * .const f)) + .sq (.var .py / (.const 2 * .const f)) + .const 1).sqrt).Regular
          (r.numbersAt t n0) :=
        ⟨⟨⟨⟨trivial, hr _, hf⟩, ⟨trivial, hr _, hf⟩⟩, trivial⟩, .inr h1⟩
      exact ⟨⟨⟨⟨trivial, hs, h2⟩, hr _, hf⟩, rfl⟩, ⟨⟨⟨trivial, hs, h2⟩, hr _, hf⟩, rfl⟩, ⟨⟨⟨hr _, hs, h2⟩, hr _, hf⟩, rfl⟩⟩
    | conic R k =>
      obtain ⟨-, -, -, hrim, -⟩ := hc
      simp only [Profile.sag, conicSag, conicNormal, Option.bind_eq_bind, Option.bind_eq_some_iff, Option.pure_def,
        Option.some.injEq, div?_eq_some, sqrt?_eq_some] at h
      obtain ⟨c, ⟨hR, rfl⟩, g, ⟨h0, rfl⟩, _, ⟨hg, rfl⟩, _, ⟨-, rfl⟩, _, ⟨hl, rfl⟩, _, ⟨-, rfl⟩, _, ⟨-, rfl⟩, rfl⟩ := h
      have h1 : 0 < 1 - (1 + k) * (1 / R) ^ 2 * (r.position.x ^ 2 + r.position.y ^ 2) :=
        lt_of_le_of_ne h0 fun h1 => by rw [← h1, Real.sqrt_zero] at hg; exact hg rfl
      have hcr : ∀ env, (Expr.const 1 / Expr.const R).Regular env := fun env => ⟨trivial, trivial, hR⟩
      have hgr : ((Expr.const 1 - (.const 1 + .const k) * .sq (.const 1 / .const R) *
          (.sq (.var .px) + .sq (.var .py))).sqrt).Regular (r.numbersAt t n0) :=
        ⟨⟨trivial, ⟨⟨trivial, trivial⟩, hcr _⟩, trivial, trivial⟩, .inr h1⟩
      have hx : ∀ s : Slot, (Expr.const 1 / Expr.const R * .var s / ((Expr.const 1 - (.const 1 + .const k) *
          .sq (.const 1 / .const R) * (.sq (.var .px) + .sq (.var .py))).sqrt)).Regular (r.numbersAt t n0) :=
        fun s => ⟨⟨hcr _, trivial⟩, hgr, hg⟩
      have hlr := (regular_norm (r.numbersAt t n0) _ _ (.const (-1))).2 ⟨⟨hx .px, hx .py⟩, trivial⟩
      simp only [len, dot, ← pow_two] at hl ⊢
      exact ⟨⟨⟨hx _, hlr, hl⟩, rfl⟩, ⟨⟨hx _, hlr, hl⟩, rfl⟩, ⟨⟨trivial, hlr, hl⟩, rfl⟩⟩
  intro k
  cases k <;> first
    | exact key.1
    | exact key.2.1
    | exact key.2.2
    | exact ⟨trivial, rfl⟩

/-! ## Rulings and refraction -/

theorem grooves_leads {g : Grooves} (r : Ray) (t : ℝ) (n : V3) {d : V3}
    (h : rulingsIncidentEffective (some (g.spacing • g.normal)) g.order r.wavelength r.direction r.index n = some d)
    (hn : r.direction.dot n ≠ 0) :
    (groovesStage g).Leads (r.numbersAt t n) (({ r with direction := d } : Ray).numbersAt t n) := by
  simp only [rulingsIncidentEffective, incidentEffective, Option.bind_eq_bind, Option.bind_eq_some_iff, Option.pure_def,
    Option.some.injEq, div?_eq_some] at h
  obtain ⟨_, rfl, _, ⟨hd, rfl⟩, _, ⟨-, rfl⟩, _, ⟨-, rfl⟩, _, ⟨hnd, rfl⟩, _, ⟨-, rfl⟩, _, ⟨-, rfl⟩, rfl⟩ := h
  have hs : (Expr.sign cosE).Regular (r.numbersAt t n) := regular_sign _ _ (by
    exact ⟨⟨⟨trivial, trivial⟩, trivial, trivial⟩, trivial, trivial⟩) hn
  have e : (Expr.norm (.const g.spacing * .const g.normal.x) (.const g.spacing * .const g.normal.y)
      (.const g.spacing * .const g.normal.z)).val (r.numbersAt t n) = (g.spacing • g.normal).len := by
    rw [val_norm]
    simp only [len, dot, smul_x, smul_y, smul_z, ← pow_two]
    rfl
  have hk := (regular_norm (r.numbersAt t n) (.const g.spacing * .const g.normal.x) (.const g.spacing * .const g.normal.y)
      (.const g.spacing * .const g.normal.z)).2 (by exact ⟨⟨⟨trivial, trivial⟩, trivial, trivial⟩, trivial, trivial⟩)
  have ec : (cosE).val (r.numbersAt t n) = r.direction.x * n.x + r.direction.y * n.y + r.direction.z * n.z := rfl
  intro k
  cases k
  case dx | dy | dz =>
    refine ⟨⟨trivial, ⟨⟨⟨hs, trivial⟩, trivial⟩, ⟨trivial, trivial⟩, hk, by rw [e]; exact hd⟩, ⟨trivial, hk⟩, ?_⟩, ?_⟩
    · rw [val_mul, e]; exact hnd
    · simp only [groovesStage, val_add, val_mul, val_div, e, val_sign, ec]
      rfl
  all_goals exact ⟨trivial, rfl⟩

theorem index_regular {m : Filling} (r : Ray) (t : ℝ) (n : V3) {n2 : ℝ} (h : m.material.index r = some n2) (hn2 : n2 ≠ 0) :
    m.indexE.Regular (r.numbersAt t n) ∧ m.indexE.val (r.numbersAt t n) = n2 := by
  cases m with
  | vacuum =>
    simp only [Filling.material, vacuum, Option.some.injEq] at h
    exact ⟨trivial, h⟩
  | mirror =>
    simp only [Filling.material, mirror, Option.some.injEq] at h
    exact ⟨trivial, h⟩
  | glass g =>
    simp only [Filling.material, Glass.material, Glass.index, Option.bind_eq_bind, Option.bind_eq_some_iff, div?_eq_some,
      sqrt?_eq_some] at h
    obtain ⟨_, ⟨h1, rfl⟩, _, ⟨h2, rfl⟩, _, ⟨h3, rfl⟩, h0, rfl⟩ := h
    have h4 := Real.sqrt_ne_zero'.1 hn2
    exact ⟨⟨⟨trivial, ⟨⟨⟨trivial, trivial⟩, ⟨trivial, trivial⟩, h1⟩, ⟨⟨trivial, trivial⟩, ⟨trivial, trivial⟩, h2⟩⟩,
      ⟨trivial, trivial⟩, ⟨trivial, trivial⟩, h3⟩, .inr h4⟩, rfl⟩

theorem refract_leads {m : Filling} (r : Ray) (t : ℝ) (n : V3) {n2 att : ℝ} {b : V3} (hi : m.material.index r = some n2)
    (ha : m.material.attenuation r = some att) (hn2 : n2 ≠ 0) (hn1 : r.index ≠ 0)
    (hb : snellsLaw r.direction r.index n2 m.material.isMirror n = some b) (hcos : r.direction.dot n ≠ 0)
    (htot : (n2 / r.index) ^ 2 + r.direction.dot n ^ 2 ≠ r.direction.dot r.direction) :
    (refractStage m).Leads (r.numbersAt t n)
      (({ r with
        wavelength := r.wavelength / (r.index / n2)
        direction := b
        intensity := r.intensity * (1 * 1)
        attenuation := att
        index := n2 } : Ray).numbersAt t n) := by
  obtain ⟨hir, hiv⟩ := index_regular r t n hi hn2
  simp only [snellsLaw, Option.bind_eq_bind, Option.bind_eq_some_iff, Option.pure_def, Option.some.injEq, div?_eq_some,
    sqrt?_eq_some] at hb
  obtain ⟨_, ⟨-, rfl⟩, _, ⟨hr2, rfl⟩, s, ⟨hs0, rfl⟩, rfl⟩ := hb
  have er : (Expr.var .index / m.indexE).val (r.numbersAt t n) = r.index / n2 := by rw [val_div, hiv]; rfl
  have rr : (Expr.var .index / m.indexE).Regular (r.numbersAt t n) := ⟨trivial, hir, by rw [hiv]; exact hn2⟩
  have ec : (cosE).val (r.numbersAt t n) = r.direction.x * n.x + r.direction.y * n.y + r.direction.z * n.z := rfl
  have rc : (cosE).Regular (r.numbersAt t n) := ⟨⟨⟨trivial, trivial⟩, trivial, trivial⟩, trivial, trivial⟩
  have hpos : 0 < 1 / (r.index / n2 * (r.index / n2)) +
      (r.direction.x * n.x + r.direction.y * n.y + r.direction.z * n.z) *
        (r.direction.x * n.x + r.direction.y * n.y + r.direction.z * n.z) -
      (r.direction.x * r.direction.x + r.direction.y * r.direction.y + r.direction.z * r.direction.z) := by
    refine lt_of_le_of_ne hs0 fun h => htot ?_
    have : (n2 / r.index) ^ 2 = 1 / (r.index / n2 * (r.index / n2)) := by field_simp
    rw [this]
    simp only [dot]
    linarith
  set se : Expr := .sqrt (.const 1 / (.var .index / m.indexE * (.var .index / m.indexE)) + cosE * cosE -
    (.var .dx * .var .dx + .var .dy * .var .dy + .var .dz * .var .dz)) with hse
  have es : se.val (r.numbersAt t n) = Real.sqrt (1 / (r.index / n2 * (r.index / n2)) +
      (r.direction.x * n.x + r.direction.y * n.y + r.direction.z * n.z) *
        (r.direction.x * n.x + r.direction.y * n.y + r.direction.z * n.z) -
      (r.direction.x * r.direction.x + r.direction.y * r.direction.y + r.direction.z * r.direction.z)) := by
    simp only [hse, Expr.val, val_sub, val_add, val_mul, val_div (a := .const 1), er, ec]
    rfl
  have rs : se.Regular (r.numbersAt t n) := by
    refine ⟨⟨⟨⟨trivial, ⟨rr, rr⟩, ?_⟩, rc, rc⟩, ⟨⟨trivial, trivial⟩, trivial, trivial⟩, trivial, trivial⟩, .inr ?_⟩
    · rw [val_mul, er]; exact hr2
    · simp only [val_sub, val_add, val_mul, val_div (a := .const 1), er, ec]
      exact hpos
  set de : Expr := -cosE + -.ifneg cosE (.const (-1)) (.const 1) *
    .const (2 * (if m.material.isMirror then 1 else 0) - 1) * se with hde
  have ed : de.val (r.numbersAt t n) = -(r.direction.x * n.x + r.direction.y * n.y + r.direction.z * n.z) +
      -copysign1 (r.direction.x * n.x + r.direction.y * n.y + r.direction.z * n.z) *
        (2 * (if m.material.isMirror then 1 else 0) - 1) * se.val (r.numbersAt t n) := by
    simp only [hde, val_add, val_mul, val_neg, Expr.val, ec, copysign1]
  have rd : de.Regular (r.numbersAt t n) :=
    ⟨rc, ⟨⟨rc, fun _ => trivial, fun _ => trivial, fun h => (hcos h).elim⟩, trivial⟩, rs⟩
  intro k
  cases k
  case dx | dy | dz =>
    refine ⟨⟨rr, trivial, rd, trivial⟩, ?_⟩
    simp only [refractStage]
    rw [val_mul, val_add, val_mul, er]
    rw [← hse, ← hde, ed, es]
    rfl
  case wavelength =>
    refine ⟨⟨trivial, rr, ?_⟩, ?_⟩
    · rw [er]; exact div_ne_zero hn1 hn2
    · simp only [refractStage]
      rw [val_div, er]; rfl
  case intensity => exact ⟨⟨trivial, trivial, trivial⟩, rfl⟩
  case attenuation =>
    cases m <;> simp only [Filling.material, vacuum, mirror, Glass.material, Option.some.injEq] at ha <;> exact ⟨trivial, ha⟩
  case index => exact ⟨hir, hiv⟩
  all_goals exact ⟨trivial, rfl⟩

/-! ## Surfaces -/

/-- Steps lead from some numbers to others, and all their formulas are regular. -/
def LeadsAll (ss : List Stage) (env env' : Slot → ℝ) : Prop := RegularAll ss env ∧ valAll ss env = env'

theorem LeadsAll.append {ss tt : List Stage} {a b c : Slot → ℝ} (h : LeadsAll ss a b) (h' : LeadsAll tt b c) :
    LeadsAll (ss ++ tt) a c := by
  obtain ⟨h, rfl⟩ := h
  obtain ⟨h', rfl⟩ := h'
  exact ⟨(regularAll_append _ _ _).2 ⟨h, h'⟩, valAll_append _ _ _⟩

theorem Stage.Leads.cons {s : Stage} {tt : List Stage} {a b c : Slot → ℝ} (h : s.Leads a b) (h' : LeadsAll tt b c) :
    LeadsAll (s :: tt) a c := LeadsAll.append (ss := [s]) h.all h'

theorem LeadsAll.nil (a : Slot → ℝ) : LeadsAll [] a a := ⟨trivial, rfl⟩

theorem clip_part {a : Aperture} {r out : Ray} (h : a.clip r = some out) : a.unit.part out = a.unit.part r := by
  unfold Aperture.clip at h
  cases hu : a.unit <;> simp only [hu, Option.some.injEq, reduceCtorEq] at h <;> subst h <;> rfl

theorem coordinates_numbers (unit : ApertureUnit) (r : Ray) (t : ℝ) (n : V3) :
    unit.coordinates (r.numbersAt t n) = unit.part r := by
  cases unit <;> rfl

theorem flag_leads {s : Element} {r out : Ray} (h : s.surface.clip r = some out)
    (hw : ∀ w, s.aperture = some w → w.Clear (w.aperture.unit.part out)) (t : ℝ) (n : V3) :
    LeadsAll (match s.aperture with
      | none => []
      | some w => [flagStage w]) (r.numbersAt t n) (out.numbersAt t n) := by
  have hs : s.surface.aperture = s.aperture.map Window.aperture := rfl
  unfold Surface.clip at h
  rw [hs] at h
  cases ha : s.aperture with
  | none =>
    simp only [ha, Option.map_none, Option.some.injEq] at h
    rw [h]
    exact LeadsAll.nil _
  | some w =>
    simp only [ha, Option.map_some] at h
    have hp := clip_part h
    obtain ⟨h1, h2, h3⟩ := hw w ha (r.numbersAt t n) (by rw [coordinates_numbers, hp])
    refine Stage.Leads.cons ?_ (LeadsAll.nil _)
    have hout : out = { r with unvignetted := r.unvignetted && w.aperture.mask (w.aperture.unit.part r) } := by
      unfold Aperture.clip at h
      cases hu : w.aperture.unit <;> simp only [hu, Option.some.injEq, reduceCtorEq] at h <;> subst h <;> rfl
    rw [hp] at h3
    subst hout
    intro k
    cases k
    case flag =>
      refine ⟨⟨h1, fun _ => trivial, fun _ => trivial, fun h0 => absurd h0 h2⟩, ?_⟩
      simp only [flagStage, Expr.val, Ray.numbersAt, Ray.numbers]
      rcases lt_or_gt_of_ne h2 with hlt | hgt
      · have hm : w.aperture.mask (w.aperture.unit.part r) = false := by
          rw [Bool.eq_false_iff]
          exact fun hm => absurd (h3.1 hm) (not_lt.2 hlt.le)
        rw [if_pos (by simpa [Ray.numbersAt, Ray.numbers] using hlt)]
        simp [hm]
      · rw [if_neg (not_lt.2 (le_of_lt hgt)), h3.2 hgt, Bool.and_true]
    all_goals exact ⟨trivial, rfl⟩

theorem Element.leads {s : Element} {r out : Ray} (h : s.surface.propagate r = some out) (hc : s.Clear r) :
    LeadsAll s.program r.numbers out.numbers := by
  rw [Surface.propagate_eq, Option.map_eq_some_iff] at h
  obtain ⟨out', hlocal, rfl⟩ := h
  have h := hlocal
  unfold Surface.propagateLocal Sag.propagate Surface.interact at h
  simp only [Option.bind_eq_bind, Option.bind_eq_some_iff, Option.pure_def, Option.some.injEq, div?_eq_some] at h
  obtain ⟨r0, ⟨q, hq, rfl⟩, r2, ⟨normal, hn, r1, hr1, n2, hn2, ratio, ⟨hn20, rfl⟩, w2, ⟨hw2, rfl⟩, b, hb,
    e1, he1, e2, he2, att, hatt, rfl⟩, hclip⟩ := h
  have he1 : e1 = 1 := by
    have : s.surface.material = s.filling.material := rfl
    rw [this] at he1
    cases hf : s.filling <;> rw [hf] at he1 <;>
      simpa [Filling.material, vacuum, mirror, Glass.material, eq_comm] using he1
  have he2 : e2 = 1 := by
    unfold Surface.rulingFactor Element.surface at he2
    cases hg : s.grooves <;> simpa [hg, eq_comm] using he2
  subst he1 he2
  set r' := r.unmove s.surface.frame with hr'
  have hn1 : r.index ≠ 0 := by
    have : r1.index = r.index := by
      unfold Surface.effectiveRay at hr1
      cases hru : s.surface.rulings with
      | none => rw [hru] at hr1; simp only [Option.some.injEq] at hr1; rw [← hr1]; rfl
      | some ru =>
        rw [hru] at hr1
        simp only [Option.map_eq_some_iff] at hr1
        obtain ⟨d, -, rfl⟩ := hr1
        rfl
    rw [this] at hw2
    exact fun h => hw2 (by rw [h, zero_div])
  obtain ⟨hclear, hcos, hrest⟩ := hc.2 q normal hq hn
  obtain ⟨t, rfl, hpath⟩ := path_leads r' hq hclear 0 ⟨0, 0, 0⟩
  have hint := intercept_leads r' t ⟨0, 0, 0⟩
  set r0 : Ray := { r' with
    position := r'.position + t • r'.direction
    intensity := Real.exp (-r'.attenuation * (r'.position + t • r'.direction - r'.position).len) * r'.intensity } with hr0
  have hnor := normal_leads (p := s.profile) (o := r'.position) (u := r'.direction) r0 hn hclear t ⟨0, 0, 0⟩
  -- up to the normal
  have hfirst : LeadsAll [pathStage s.profile, interceptStage, normalStage s.profile] r'.numbers (r0.numbersAt t normal) := by
    rw [← numbersAt_zero]
    exact hpath.cons (hint.cons (hnor.cons (LeadsAll.nil _)))
  -- rulings
  have hmid : LeadsAll (match s.grooves with
      | none => []
      | some g => [groovesStage g]) (r0.numbersAt t normal) (r1.numbersAt t normal) := by
    unfold Surface.effectiveRay Element.surface at hr1
    cases hg : s.grooves with
    | none =>
      simp only [hg, Option.map_none, Option.some.injEq] at hr1
      rw [hr1]
      exact LeadsAll.nil _
    | some g =>
      simp only [hg, Option.map_some, Option.map_eq_some_iff] at hr1
      obtain ⟨d, hd, rfl⟩ := hr1
      exact (grooves_leads r0 t normal hd hcos).cons (LeadsAll.nil _)
  -- refraction
  have he : s.surface.effectiveRay { r with position := r'.position + t • r'.direction, direction := r'.direction } normal =
      some { r1 with intensity := r.intensity } := by
    unfold Surface.effectiveRay Element.surface at hr1 ⊢
    cases hg : s.grooves with
    | none =>
      simp only [hg, Option.map_none, Option.some.injEq] at hr1 ⊢
      rw [← hr1]
      rfl
    | some g =>
      simp only [hg, Option.map_some, Option.map_eq_some_iff] at hr1 ⊢
      obtain ⟨d, hd, rfl⟩ := hr1
      exact ⟨d, hd, rfl⟩
  have hi : s.filling.material.index { r1 with intensity := r.intensity } = some n2 := by
    have hn2' : s.filling.material.index r1 = some n2 := hn2
    rw [← hn2']
    cases s.filling <;> rfl
  obtain ⟨hcos', htot⟩ := hrest _ n2 he hi
  have hidx : r1.index = r.index := by
    unfold Surface.effectiveRay Element.surface at hr1
    cases hg : s.grooves with
    | none =>
      simp only [hg, Option.map_none, Option.some.injEq] at hr1
      rw [← hr1]; rfl
    | some g =>
      simp only [hg, Option.map_some, Option.map_eq_some_iff] at hr1
      obtain ⟨d, hd, rfl⟩ := hr1
      rfl
  have href := refract_leads (m := s.filling) r1 t normal hn2 hatt hn20 (by rw [hidx]; exact hn1) hb hcos' (by rw [hidx]; exact htot)
  have hflag := flag_leads hclip (fun w hw => hc.1 w out' hw hlocal) t normal
  -- back
  have hmove : LeadsAll (match s.transformation with
      | none => []
      | some g => [moveE g]) (out'.numbersAt t normal) ((out'.move s.surface.frame).numbersAt t normal) := by
    have : s.surface.transformation = s.transformation := rfl
    unfold Surface.frame
    rw [this]
    cases s.transformation with
    | none =>
      simp only [Option.getD_none, Ray.move_id]
      exact LeadsAll.nil _
    | some g => exact (move_leads g out' t normal).cons (LeadsAll.nil _)
  have hunmove : LeadsAll (match s.transformation with
      | none => []
      | some g => [unmoveE g]) r.numbers r'.numbers := by
    have : s.surface.transformation = s.transformation := rfl
    rw [hr']
    unfold Surface.frame
    rw [this, ← numbersAt_zero, ← numbersAt_zero]
    cases s.transformation with
    | none =>
      simp only [Option.getD_none, Ray.unmove_id]
      exact LeadsAll.nil _
    | some g => exact (unmove_leads g r 0 _).cons (LeadsAll.nil _)
  exact (((((hunmove.append hfirst).append hmid).append (href.cons (LeadsAll.nil _))).append hflag).append hmove).append
    ((forget_leads _ t normal).cons (LeadsAll.nil _))

theorem system_leads {ss : List Element} {r out : Ray} (h : propagateSurfaces (ss.map Element.surface) r = some out)
    (hc : ClearAll ss r) : LeadsAll (ss.flatMap Element.program) r.numbers out.numbers := by
  induction ss generalizing r with
  | nil =>
    simp only [List.map_nil, propagateSurfaces_nil, Option.some.injEq] at h
    rw [h]
    exact LeadsAll.nil _
  | cons s ss ih =>
    rw [List.map_cons, propagateSurfaces_cons, Option.bind_eq_some_iff] at h
    obtain ⟨mid, h1, h2⟩ := h
    rw [List.flatMap_cons]
    exact (Element.leads h1 hc.1).append (ih h2 (hc.2 mid h1))

/-! ## The property -/

/-- **C112**  The errors of a computation vanish with its precision.  If a ray passes the surfaces of a system in exact
arithmetic and strikes all of them well, then for every `ε` there is a precision `η` such that a computer whose operations
all have relative errors below `η`, and whose arguments are wrong by less than `η`, also finds a ray that passes the system,
and each of its coordinates, its wavelength, intensity, attenuation and index, are wrong by less than `ε`; so is the number
that tells whether it is vignetted. -/
theorem C112_system_partial (ss : List Element) (r out : Ray) (h : propagateSurfaces (ss.map Element.surface) r = some out)
    (hc : ClearAll ss r) (ε : ℝ) (hε : 0 < ε) :
    ∃ η > 0, ∀ u numbers result, 0 ≤ u → u < η → (∀ s, |numbers s - r.numbers s| < η) →
      Runs u (ss.flatMap Element.program) numbers result →
      ∃ numbers', result = some numbers' ∧ ∀ s, |numbers' s - out.numbers s| < ε := by
  obtain ⟨hreg, hval⟩ := system_leads h hc
  obtain ⟨-, hnear⟩ := runs_near _ hreg
  rw [hval] at hnear
  exact hnear ε hε

/-- **C112**  The same rays are vignetted: if a ray strikes the surfaces of a system well, then a computer that is precise
enough finds that it is vignetted if and only if it is. -/
theorem C112_vignetting (ss : List Element) (r out : Ray) (h : propagateSurfaces (ss.map Element.surface) r = some out)
    (hc : ClearAll ss r) :
    ∃ η > 0, ∀ u numbers result, 0 ≤ u → u < η → (∀ s, |numbers s - r.numbers s| < η) →
      Runs u (ss.flatMap Element.program) numbers result →
      ∃ numbers', result = some numbers' ∧ (1 / 2 < numbers' flag ↔ out.unvignetted = true) := by
  obtain ⟨η, hη, key⟩ := C112_system_partial ss r out h hc (1 / 2) (by norm_num)
  refine ⟨η, hη, fun u numbers result h1 h2 h3 h4 => ?_⟩
  obtain ⟨numbers', h5, h6⟩ := key u numbers result h1 h2 h3 h4
  refine ⟨numbers', h5, ?_⟩
  have := abs_lt.1 (h6 flag)
  simp only [Ray.numbers] at this
  cases hb : out.unvignetted <;> simp only [hb, if_true, Bool.false_eq_true, if_false] at this ⊢ <;>
    [exact ⟨fun h => absurd h (by linarith), fun h => absurd h (by simp)⟩; exact ⟨fun _ => trivial, fun _ => by linarith⟩]

/-- The computation is that of the code: without errors, its result is that of the code. -/
theorem C112_exact (ss : List Element) (r out : Ray) (h : propagateSurfaces (ss.map Element.surface) r = some out)
    (hc : ClearAll ss r) (result : Option (Slot → ℝ)) :
    Runs 0 (ss.flatMap Element.program) r.numbers result ↔ result = some out.numbers := by
  obtain ⟨hreg, hval⟩ := system_leads h hc
  obtain ⟨hex, hnear⟩ := runs_near _ hreg
  rw [hval] at hnear hex
  constructor
  · intro hrun
    have key : ∀ ε > 0, ∃ numbers', result = some numbers' ∧ ∀ s, |numbers' s - out.numbers s| < ε := by
      intro ε hε
      obtain ⟨η, hη, hnear⟩ := hnear ε hε
      exact hnear 0 _ result le_rfl hη (fun s => by simpa using hη) hrun
    obtain ⟨x, rfl, -⟩ := key 1 one_pos
    congr 1
    funext s
    by_contra hne
    obtain ⟨y, hy, hlt⟩ := key _ (abs_pos.2 (sub_ne_zero.2 hne))
    rw [Option.some.injEq] at hy
    subst hy
    exact lt_irrefl _ (hlt s)
  · rintro rfl
    exact hex.runs le_rfl

/-! ## Apertures of which the formula is known -/

theorem coordinatesE_spec {unit : ApertureUnit} {g : Option Rigid} {env : Slot → ℝ} {p : V3}
    (h : unit.coordinates env = p) :
    ((coordinatesE unit g).1.Regular env ∧ (coordinatesE unit g).1.val env = (toLocal g p).x) ∧
    ((coordinatesE unit g).2.1.Regular env ∧ (coordinatesE unit g).2.1.val env = (toLocal g p).y) := by
  subst h
  cases unit <;> cases g <;>
    simp [coordinatesE, ApertureUnit.coordinates, toLocal, rowE, regular_add, regular_mul, regular_sub, Expr.Regular, val_add,
      val_mul, val_sub, Expr.val, Rigid.ipoint, M3.mulVec, dot]

theorem flagsE_spec {e : Expr} {env : Slot → ℝ} {active inverted mask : Bool}
    (h : active = true → e.Regular env ∧ e.val env ≠ 0 ∧ (mask = true ↔ 0 < e.val env)) :
    (flagsE active inverted e).Regular env ∧ (flagsE active inverted e).val env ≠ 0 ∧
      (applyFlags active inverted mask = true ↔ 0 < (flagsE active inverted e).val env) := by
  cases active with
  | false => simp [flagsE, applyFlags, Expr.Regular, Expr.val]
  | true =>
    obtain ⟨h1, h2, h3⟩ := h rfl
    cases inverted with
    | false => simpa [flagsE, applyFlags] using ⟨h1, h2, h3⟩
    | true =>
      simp only [flagsE, applyFlags, if_true, Bool.not_true, Bool.false_eq_true, if_false, regular_neg, val_neg, ne_eq,
        neg_eq_zero, Left.neg_pos_iff, Bool.not_eq_true']
      refine ⟨h1, h2, ?_⟩
      rw [Bool.eq_false_iff, Ne, h3, not_lt]
      exact ⟨fun h => lt_of_le_of_ne h h2, le_of_lt⟩

/-- A circular aperture blocks the right rays, except perhaps at its edge. -/
theorem C112_circle (unit : ApertureUnit) {radius : ℝ} {active inverted : Bool} {g : Option Rigid} {p : V3}
    (h : active = true → (toLocal g p).x ^ 2 + (toLocal g p).y ^ 2 ≠ radius ^ 2) (hr : 0 ≤ radius) :
    (Window.circle unit radius active inverted g).Clear p := by
  intro env henv
  obtain ⟨⟨x1, x2⟩, y1, y2⟩ := coordinatesE_spec (unit := unit) (g := g) henv
  refine flagsE_spec fun hact => ?_
  have hv : (Expr.const radius - Expr.sqrt (.sq (coordinatesE unit g).1 + .sq (coordinatesE unit g).2.1)).val env
      = radius - xyLength (toLocal g p) := by
    simp only [val_sub, val_add, Expr.val, x2, y2, xyLength]
  refine ⟨?_, ?_, ?_⟩
  · exact ⟨trivial, ⟨x1, y1⟩, .inl ⟨trivial, trivial⟩⟩
  · rw [hv, sub_ne_zero]
    intro heq
    refine h hact ?_
    rw [heq, xyLength, Real.sq_sqrt (by positivity)]
  · rw [hv, decide_eq_true_eq, sub_pos]
    refine ⟨fun hle => lt_of_le_of_ne hle fun heq => h hact ?_, le_of_lt⟩
    rw [← heq, xyLength, Real.sq_sqrt (by positivity)]

/-- An elliptical aperture blocks the right rays, except perhaps at its edge. -/
theorem C112_ellipse (unit : ApertureUnit) {rx ry : ℝ} {active inverted : Bool} {g : Option Rigid} {p : V3}
    (h : active = true → rx ≠ 0 ∧ ry ≠ 0 ∧ ((toLocal g p).x / rx) ^ 2 + ((toLocal g p).y / ry) ^ 2 ≠ 1) :
    (Window.ellipse unit rx ry active inverted g).Clear p := by
  intro env henv
  obtain ⟨⟨x1, x2⟩, y1, y2⟩ := coordinatesE_spec (unit := unit) (g := g) henv
  refine flagsE_spec fun hact => ?_
  obtain ⟨h1, h2, h3⟩ := h hact
  have hv : (Expr.const 1 - (.sq ((coordinatesE unit g).1 / .const rx) + .sq ((coordinatesE unit g).2.1 / .const ry)) : Expr).val env
      = 1 - (((toLocal g p).x / rx) ^ 2 + ((toLocal g p).y / ry) ^ 2) := by
    simp only [val_sub, val_add, val_div, Expr.val, x2, y2]
  refine ⟨⟨trivial, ⟨x1, trivial, h1⟩, y1, trivial, h2⟩, ?_, ?_⟩
  · rw [hv, sub_ne_zero]
    exact fun heq => h3 heq.symm
  · rw [hv, decide_eq_true_eq, sub_pos]
    exact ⟨fun hle => lt_of_le_of_ne hle.2.2 h3, fun hlt => ⟨h1, h2, hlt.le⟩⟩

/-- A rectangular aperture blocks the right rays, except perhaps at its edges. -/
theorem C112_rectangle (unit : ApertureUnit) {hx hy : ℝ} {active inverted : Bool} {g : Option Rigid} {p : V3}
    (h : active = true → -hx ≤ (toLocal g p).x → (toLocal g p).x ≤ hx → -hy ≤ (toLocal g p).y → (toLocal g p).y ≤ hy →
      -hx < (toLocal g p).x ∧ (toLocal g p).x < hx ∧ -hy < (toLocal g p).y ∧ (toLocal g p).y < hy) :
    (Window.rectangle unit hx hy active inverted g).Clear p := by
  intro env henv
  obtain ⟨⟨x1, x2⟩, y1, y2⟩ := coordinatesE_spec (unit := unit) (g := g) henv
  refine flagsE_spec fun hact => ?_
  have h := h hact
  simp only [Expr.Regular, regular_sub, regular_neg, Expr.val, val_sub, val_neg, x1, x2, y1, y2, Bool.and_eq_true,
    decide_eq_true_eq]
  generalize (toLocal g p).x = x at h
  generalize (toLocal g p).y = y at h
  refine ⟨⟨⟨trivial, trivial⟩, fun _ => trivial, fun c1 => ⟨⟨trivial, trivial⟩, fun _ => trivial, fun c2 =>
    ⟨⟨trivial, trivial⟩, fun _ => trivial, fun c3 => ⟨⟨trivial, trivial⟩, fun _ => trivial, fun _ => trivial, ?_⟩, ?_⟩, ?_⟩, ?_⟩,
    ?_, ?_⟩
  · intro c4
    have := h (by linarith) (by linarith) (by linarith) (by linarith)
    linarith
  · intro c4
    split_ifs with i1
    · rfl
    · have := h (by linarith) (by linarith) (by linarith) (by linarith)
      linarith
  · intro c4
    split_ifs with i1 i2
    · rfl
    · rfl
    · have := h (by linarith) (by linarith) (by linarith) (by linarith)
      linarith
  · intro c4
    split_ifs with i1 i2 i3
    · rfl
    · rfl
    · rfl
    · have := h (by linarith) (by linarith) (by linarith) (by linarith)
      linarith
  · split_ifs <;> norm_num
  · constructor
    · rintro ⟨⟨⟨a, b⟩, c⟩, d⟩
      rw [if_neg (by linarith), if_neg (by linarith), if_neg (by linarith), if_neg (by linarith)]
      exact one_pos
    · intro hpos
      split_ifs at hpos with i1 i2 i3 i4
      · linarith
      · linarith
      · linarith
      · linarith
      · exact ⟨⟨⟨by linarith, by linarith⟩, by linarith⟩, by linarith⟩

/-- A spherical mirror and a detector. -/
noncomputable def mirrorAndDetector : List Element :=
  [⟨.sphere 5, .mirror, none, none, none⟩, ⟨.flat, .vacuum, none, some (.circle .length 30 true false none), some (Rigid.translation ⟨0, 0, -6⟩)⟩]

/-- A ray parallel to the axis. -/
noncomputable def offAxisRay : Ray := ⟨1, ⟨3, 0, 0⟩, ⟨0, 0, 1⟩, 1, 0, 1, true⟩

/-- The ray after the mirror. -/
noncomputable def reflectedRay : Ray := ⟨1, ⟨3, 0, 1⟩, ⟨24 / 25, 0, -7 / 25⟩, 1, 0, 1, true⟩

theorem mirror_intercept : sphereIntercept 5 ⟨3, 0, 0⟩ ⟨0, 0, 1⟩ = some ⟨3, 0, 1⟩ := by
  have hs : Real.sqrt 16 = 4 := by rw [show (16 : ℝ) = 4 ^ 2 by norm_num]; exact Real.sqrt_sq (by norm_num)
  norm_num [sphereIntercept, sqrt?, sgn, hs]

theorem mirror_normal : sphereNormal 5 ⟨3, 0, 1⟩ = some ⟨3 / 5, 0, -4 / 5⟩ := by
  have hs : Real.sqrt (16 / 25) = 4 / 5 := by rw [show (16 / 25 : ℝ) = (4 / 5) ^ 2 by norm_num]; exact Real.sqrt_sq (by norm_num)
  norm_num [sphereNormal, sqrt?, div?, hs]

theorem mirror_propagate : (⟨.sphere 5, .mirror, none, none, none⟩ : Element).surface.propagate offAxisRay = some reflectedRay := by
  have hs : Real.sqrt (16 / 25) = 4 / 5 := by rw [show (16 / 25 : ℝ) = (4 / 5) ^ 2 by norm_num]; exact Real.sqrt_sq (by norm_num)
  norm_num [Element.surface, offAxisRay, reflectedRay, Surface.propagate, Surface.propagateLocal, Sag.propagate,
    Surface.interact, Surface.effectiveRay, Surface.rulingFactor, Surface.clip, Profile.sag, sphereSag, Filling.material,
    mirror_intercept, mirror_normal, mirror, snellsLaw, div?, sqrt?, copysign1, hs]

theorem offAxis_clear : ClearAll mirrorAndDetector offAxisRay ∧
    ∃ out, propagateSurfaces (mirrorAndDetector.map Element.surface) offAxisRay = some out ∧ out.position = ⟨27, 0, -6⟩ ∧
      out.wavelength = 1 ∧ out.intensity = 1 ∧ out.unvignetted = true := by
  constructor
  · refine ⟨?_, fun out hout => ⟨?_, fun _ _ => trivial⟩⟩
    · refine ⟨fun w _ hw => absurd hw (by simp), ?_⟩
      intro q n hq hn
      have hf : (⟨.sphere 5, .mirror, none, none, none⟩ : Element).surface.frame = Rigid.id := rfl
      rw [hf] at hq ⊢
      simp only [Rigid.id_ipoint, Rigid.id_ivec] at hq ⊢
      have hq' : sphereIntercept 5 ⟨3, 0, 0⟩ ⟨0, 0, 1⟩ = some q := hq
      rw [mirror_intercept, Option.some.injEq] at hq'
      subst hq'
      have hn' : sphereNormal 5 ⟨3, 0, 1⟩ = some n := hn
      rw [mirror_normal, Option.some.injEq] at hn'
      subst hn'
      refine ⟨⟨?_, ?_, ?_⟩, ?_, ?_⟩
      · norm_num [offAxisRay]
      · norm_num [offAxisRay, dot]
      · norm_num
      · norm_num [offAxisRay, dot]
      · intro e n2 he hn2
        simp only [Surface.effectiveRay, Element.surface, Option.map_none, Option.some.injEq] at he
        subst he
        simp only [Filling.material, mirror, Option.some.injEq] at hn2
        subst hn2
        norm_num [offAxisRay, dot]
    · rw [mirror_propagate, Option.some.injEq] at hout
      subst hout
      refine ⟨fun w out hw hout => ?_, ?_⟩
      · rw [Option.some.injEq] at hw
        subst hw
        refine C112_circle .length (fun _ => ?_) (by norm_num)
        have hp : out.position = ⟨27, 0, 0⟩ := by
          norm_num [Element.surface, reflectedRay, Surface.propagateLocal, Sag.propagate, Ray.unmove, Surface.frame,
            Rigid.translation, Rigid.id, Rigid.ipoint, Rigid.ivec, M3.mulVec, M3.transpose, M3.one, dot,
            Surface.interact, Surface.effectiveRay, Surface.rulingFactor, Surface.clip, Aperture.clip, Profile.sag, flatSag,
            flatIntercept, flatNormal, Filling.material, vacuum, snellsLaw, div?, sqrt?, copysign1, Window.circle] at hout
          rw [← hout]
        have : ApertureUnit.part .length out = ⟨27, 0, 0⟩ := hp
        change (toLocal none (ApertureUnit.part .length out)).x ^ 2 + (toLocal none (ApertureUnit.part .length out)).y ^ 2 ≠ 30 ^ 2
        rw [this]
        norm_num [toLocal]
      intro q n hq hn
      have hn' : some (⟨0, 0, -1⟩ : V3) = some n := hn
      rw [Option.some.injEq] at hn'
      subst hn'
      refine ⟨trivial, ?_, ?_⟩
      · norm_num [Surface.frame, Element.surface, Rigid.translation, Rigid.id, Rigid.ivec, reflectedRay, dot, M3.mulVec, M3.transpose, M3.one]
      · intro e n2 he hn2
        simp only [Surface.effectiveRay, Element.surface, Option.map_none, Option.some.injEq] at he
        subst he
        simp only [Filling.material, vacuum, Option.some.injEq] at hn2
        subst hn2
        norm_num [Surface.frame, Element.surface, Rigid.translation, Rigid.id, Rigid.ivec, reflectedRay, dot, M3.mulVec, M3.transpose, M3.one]
  · simp only [mirrorAndDetector, List.map_cons, List.map_nil, propagateSurfaces_cons, mirror_propagate, Option.bind_some]
    norm_num [Element.surface, reflectedRay, Surface.propagate, Surface.propagateLocal, Sag.propagate, Ray.unmove, Ray.move,
      Rigid.translation, Rigid.id, Rigid.ipoint, Rigid.ivec, Rigid.point, Rigid.vec, M3.mulVec, M3.transpose, M3.one, dot,
      Surface.interact, Surface.effectiveRay, Surface.rulingFactor, Surface.clip, Aperture.clip, Profile.sag, flatSag, flatIntercept,
      flatNormal, Filling.material, vacuum, snellsLaw, div?, sqrt?, copysign1, propagateSurfaces_nil, Window.circle]
    refine ⟨V3.ext (by norm_num) (by norm_num) (by norm_num), ?_⟩
    norm_num [circleMask, applyFlags, toLocal, xyLength]
    exact Real.sqrt_le_iff.2 ⟨by norm_num, by norm_num⟩

/-- The hypotheses of C112 are met. -/
example : ClearAll mirrorAndDetector offAxisRay ∧
    ∃ out, propagateSurfaces (mirrorAndDetector.map Element.surface) offAxisRay = some out ∧ out.position = ⟨27, 0, -6⟩ :=
  ⟨offAxis_clear.1, offAxis_clear.2.imp fun _ h => ⟨h.1, h.2.1⟩⟩

end Optika
