import Verif.Props.Symmetry
import Verif.Props.SurfaceOptics
import Verif.Props.ReverseCurved
import Verif.Props.StopRays
import Verif.Model.SolvedSag
import Verif.Model.Apertures
import Verif.Model.Glass

/-!
# C103: systems with a symmetry
-/

namespace Optika
open V3

/-- The reflection in the plane `x = 0` if `a = -1`, and in the plane `y = 0` if `b = -1`. -/
def flip (a b : ℝ) (ha : a ^ 2 = 1) (hb : b ^ 2 = 1) : Rigid where
  rot := ⟨⟨a, 0, 0⟩, ⟨0, b, 0⟩, ⟨0, 0, 1⟩⟩
  shift := 0
  left_inv v := by
    apply V3.ext <;> simp only [M3.mulVec, M3.transpose, dot]
    · linear_combination v.x * ha
    · linear_combination v.y * hb
    · ring
  right_inv v := by
    apply V3.ext <;> simp only [M3.mulVec, M3.transpose, dot]
    · linear_combination v.x * ha
    · linear_combination v.y * hb
    · ring

theorem flip_point (a b : ℝ) (ha : a ^ 2 = 1) (hb : b ^ 2 = 1) (v : V3) :
    (flip a b ha hb).point v = ⟨a * v.x, b * v.y, v.z⟩ := by
  apply V3.ext <;> simp only [flip, Rigid.point, M3.mulVec, dot] <;> vsimp <;> simp

theorem flip_vec (a b : ℝ) (ha : a ^ 2 = 1) (hb : b ^ 2 = 1) (v : V3) :
    (flip a b ha hb).vec v = ⟨a * v.x, b * v.y, v.z⟩ := by
  apply V3.ext <;> simp only [flip, Rigid.vec, M3.mulVec, dot] <;> ring

/-- `s'` is the image of the surface `s` under the isometry `g`.  Rulings may be counted from the other side,
if the sign of their order is changed. -/
structure Surface.Image (g : Rigid) (s s' : Surface) : Prop where
  frame_point : ∀ p, s'.frame.point (g.point p) = g.point (s.frame.point p)
  frame_vec : ∀ v, s'.frame.vec (g.vec v) = g.vec (s.frame.vec v)
  normal : ∀ p, s'.sag.normal (g.point p) = (s.sag.normal p).map g.vec
  intercept : ∀ o u, s'.sag.intercept (g.point o) (g.vec u) = (s.sag.intercept o u).map g.point
  material : s'.material = s.material ∧ IsotropicMaterial s.material
  aperture : s'.aperture = s.aperture ∧ ∀ a, s.aperture = some a →
    (∀ p, a.mask (g.point p) = a.mask p) ∧ ∀ v, a.mask (g.vec v) = a.mask v
  rulings : (s.rulings = none ∧ s'.rulings = none) ∨
    ∃ ru ru', s.rulings = some ru ∧ s'.rulings = some ru' ∧
      (∀ r n, ru'.efficiency (r.move g) (g.vec n) = ru.efficiency r n) ∧
      ((ru'.order = ru.order ∧ ∀ p n, ru'.spacing (g.point p) (g.vec n) = (ru.spacing p n).map g.vec) ∨
        (ru'.order = -ru.order ∧ ∀ p n, ru'.spacing (g.point p) (g.vec n) = (ru.spacing p n).map fun v => -g.vec v))

theorem vec_combination (g : Rigid) (a k : V3) (c : ℝ) : g.vec (a + c • k) = g.vec a + c • g.vec k := by
  simp only [Rigid.vec, M3.mulVec_add, M3.mulVec_smul]

theorem rulingsIncidentEffective_vec (g : Rigid) (k : Option V3) (m w : ℝ) (a : V3) (n : ℝ) (u : V3) :
    rulingsIncidentEffective (k.map g.vec) m w (g.vec a) n (g.vec u)
      = (rulingsIncidentEffective k m w a n u).map g.vec := by
  cases k with
  | none => rfl
  | some k =>
    simp only [Option.map_some]
    cases h : rulingsIncidentEffective (some k) m w a n u with
    | none =>
      cases h' : rulingsIncidentEffective (some (g.vec k)) m w (g.vec a) n (g.vec u) with
      | none => rfl
      | some b =>
        exfalso
        obtain ⟨h1, h2, -⟩ := rulingsIncidentEffective_some.1 h'
        rw [Rigid.vec_len] at h1
        rw [rulingsIncidentEffective_some.2 ⟨h1, h2, rfl⟩] at h
        cases h
    | some b =>
      obtain ⟨h1, h2, rfl⟩ := rulingsIncidentEffective_some.1 h
      simp only [Option.map_some]
      rw [rulingsIncidentEffective_some, Rigid.vec_len, Rigid.vec_dot_vec, Rigid.vec_dot_vec, vec_combination]
      exact ⟨h1, h2, rfl⟩

theorem rulingsIncidentEffective_opposite (k : Option V3) (m w : ℝ) (a : V3) (n : ℝ) (u : V3) :
    rulingsIncidentEffective (k.map fun v => -v) (-m) w a n u = rulingsIncidentEffective k m w a n u := by
  cases k with
  | none => rfl
  | some k =>
    have hl : (-k).len = k.len := by unfold len; congr 1; simp only [dot]; vsimp; ring
    have hd : (-k).dot (-k) = k.dot k := by simp only [dot]; vsimp; ring
    have he : ∀ c : ℝ, a + (sgn (a.dot u) * -m * w / c) • -k = a + (sgn (a.dot u) * m * w / c) • k := by
      intro c; ext <;> vsimp <;> ring
    refine Option.ext fun b => ?_
    show rulingsIncidentEffective (some (-k)) (-m) w a n u = some b ↔ _
    rw [rulingsIncidentEffective_some, rulingsIncidentEffective_some, hl, hd, he]

/-- One surface in its own frame. -/
theorem propagateLocal_symmetric {g : Rigid} {s s' : Surface} (hs : Surface.Image g s s') (r : Ray) :
    s'.propagateLocal (r.move g) = (s.propagateLocal r).map (Ray.move g) := by
  have hlen : ∀ p q, (g.point p - g.point q).len = (p - q).len := by
    intro p q; rw [Rigid.point_sub_point, Rigid.vec_len]
  have h1 : s'.sag.propagate (r.move g) = (s.sag.propagate r).map (Ray.move g) := by
    unfold Sag.propagate
    show (s'.sag.intercept (g.point r.position) (g.vec r.direction)).bind _ = _
    rw [hs.intercept]
    cases s.sag.intercept r.position r.direction with
    | none => rfl
    | some q => simp [Ray.move, hlen]
  have he : ∀ r0 n, s'.effectiveRay (Ray.move g r0) (g.vec n) = (s.effectiveRay r0 n).map (Ray.move g) := by
    intro r0 n
    unfold Surface.effectiveRay
    rcases hs.rulings with ⟨h, h'⟩ | ⟨ru, ru', h, h', -, ⟨ho, hsp⟩ | ⟨ho, hsp⟩⟩
    · rw [h, h']; rfl
    · rw [h, h']
      show (rulingsIncidentEffective (ru'.spacing (g.point r0.position) (g.vec n)) ru'.order r0.wavelength
        (g.vec r0.direction) r0.index (g.vec n)).map _ = _
      rw [hsp, ho, rulingsIncidentEffective_vec]
      simp only [Option.map_map]
      rfl
    · rw [h, h']
      show (rulingsIncidentEffective (ru'.spacing (g.point r0.position) (g.vec n)) ru'.order r0.wavelength
        (g.vec r0.direction) r0.index (g.vec n)).map _ = _
      have : (ru.spacing r0.position n).map (fun v => -g.vec v)
          = ((ru.spacing r0.position n).map g.vec).map fun v => -v := by rw [Option.map_map]; rfl
      rw [hsp, ho, this, rulingsIncidentEffective_opposite, rulingsIncidentEffective_vec]
      simp only [Option.map_map]
      rfl
  have hf : ∀ r0 n, s'.rulingFactor (Ray.move g r0) (g.vec n) = s.rulingFactor r0 n := by
    intro r0 n
    unfold Surface.rulingFactor
    rcases hs.rulings with ⟨h, h'⟩ | ⟨ru, ru', h, h', hef, -⟩
    · rw [h, h']
    · rw [h, h']; exact hef r0 n
  have h2 : ∀ r0, s'.interact (Ray.move g r0) = (s.interact r0).map (Ray.move g) := by
    intro r0
    unfold Surface.interact
    simp only [Option.bind_eq_bind, hs.material.1]
    have : s'.sag.normal (Ray.move g r0).position = (s.sag.normal r0.position).map g.vec :=
      hs.normal r0.position
    rw [this]
    cases s.sag.normal r0.position with
    | none => rfl
    | some n =>
      simp only [Option.map_some, Option.bind_some, he]
      cases s.effectiveRay r0 n with
      | none => rfl
      | some r1 =>
        simp only [Option.map_some, Option.bind_some, hs.material.2.index]
        refine bind_map_congr fun n2 => ?_
        show (div? r1.index n2).bind _ = _
        refine bind_map_congr fun ratio => ?_
        show (div? r1.wavelength ratio).bind _ = _
        refine bind_map_congr fun w2 => ?_
        have : snellsLaw (Ray.move g r1).direction (Ray.move g r1).index n2 s.material.isMirror (g.vec n)
            = (snellsLaw r1.direction r1.index n2 s.material.isMirror n).map g.vec := C16_snell g _ _ _ _ _
        rw [this]
        cases snellsLaw r1.direction r1.index n2 s.material.isMirror n with
        | none => rfl
        | some b =>
          simp only [Option.map_some, Option.bind_some, hs.material.2.efficiency, hs.material.2.attenuation, hf]
          refine bind_map_congr fun e1 => bind_map_congr fun e2 => bind_map_congr fun att => ?_
          simp [Ray.move]
  have h3 : ∀ r0, s'.clip (Ray.move g r0) = (s.clip r0).map (Ray.move g) := by
    intro r0
    unfold Surface.clip
    rw [hs.aperture.1]
    cases ha : s.aperture with
    | none => rfl
    | some a =>
      obtain ⟨hp, hv⟩ := hs.aperture.2 a ha
      simp only [Aperture.clip]
      cases a.unit with
      | length => simp [Ray.move, hp]
      | dimensionless => simp [Ray.move, hv]
      | other => rfl
  unfold Surface.propagateLocal
  simp only [Option.bind_eq_bind, h1]
  cases s.sag.propagate r with
  | none => rfl
  | some r0 =>
    simp only [Option.map_some, Option.bind_some, h2]
    cases s.interact r0 with
    | none => rfl
    | some r2 => simp only [Option.map_some, Option.bind_some, h3]

theorem propagate_symmetric {g : Rigid} {s s' : Surface} (hs : Surface.Image g s s') (r : Ray) :
    s'.propagate (r.move g) = (s.propagate r).map (Ray.move g) := by
  rw [Surface.propagate_eq, Surface.propagate_eq]
  have hip : ∀ p, s'.frame.ipoint (g.point p) = g.point (s.frame.ipoint p) := by
    intro p
    have := hs.frame_point (s.frame.ipoint p)
    rw [Rigid.point_ipoint] at this
    rw [← this, Rigid.ipoint_point]
  have hiv : ∀ v, s'.frame.ivec (g.vec v) = g.vec (s.frame.ivec v) := by
    intro v
    have := hs.frame_vec (s.frame.ivec v)
    rw [Rigid.vec_ivec] at this
    rw [← this, Rigid.ivec_vec]
  have hu : (r.move g).unmove s'.frame = (r.unmove s.frame).move g := by
    simp [Ray.move, Ray.unmove, hip, hiv]
  simp only [hu, propagateLocal_symmetric hs, Option.map_map]
  congr 1
  funext r0
  simp [Ray.move, hs.frame_point, hs.frame_vec]

/-- **C103**: a system and its image under an isometry send a ray and its image to a ray and its image, for any
number of surfaces, with the same wavelength, intensity, attenuation, index and vignetting.  In particular, a
system that looks the same after an isometry (a rotation about its axis, a reflection in its plane of symmetry)
treats the ray and its image alike. -/
theorem C103_symmetry {g : Rigid} {ss ss' : List Surface} (hs : List.Forall₂ (Surface.Image g) ss ss') (r : Ray) :
    propagateSurfaces ss' (r.move g) = (propagateSurfaces ss r).map (Ray.move g) := by
  induction hs generalizing r with
  | nil => rfl
  | @cons s s' ss ss' h hs ih =>
    rw [propagateSurfaces_cons, propagateSurfaces_cons, propagate_symmetric h]
    cases s.propagate r with
    | none => rfl
    | some r1 => exact ih r1

/-- The sag looks the same after `g`. -/
def Sag.SymmetricUnder (g : Rigid) (sag : Sag) : Prop :=
  (∀ p, sag.normal (g.point p) = (sag.normal p).map g.vec) ∧
    ∀ o u, sag.intercept (g.point o) (g.vec u) = (sag.intercept o u).map g.point

section
variable {a b : ℝ} (ha : a ^ 2 = 1) (hb : b ^ 2 = 1)

include ha in
theorem flip_sq (x : ℝ) : (a * x) ^ 2 = x ^ 2 := by linear_combination x ^ 2 * ha

include ha in
theorem flip_mul (x y : ℝ) : a * x * (a * y) = x * y := by linear_combination x * y * ha

theorem flip_flat : flatSag.SymmetricUnder (flip a b ha hb) := by
  refine ⟨fun p => by simp [flatSag, flatNormal, flip_vec], fun o u => ?_⟩
  simp only [flatSag, flatIntercept, flip_point, flip_vec]
  refine bind_map_congr fun d => ?_
  simp only [Option.pure_def, Option.map_some, flip_point, Option.some.injEq]
  ext <;> vsimp <;> ring

theorem flip_sphere (R : ℝ) : (sphereSag R).SymmetricUnder (flip a b ha hb) := by
  refine ⟨fun p => ?_, fun o u => ?_⟩
  · simp only [sphereSag, sphereNormal, flip_point]
    refine bind_map_congr fun cv => ?_
    have e : 1 - (cv * (a * p.x)) ^ 2 - (cv * (b * p.y)) ^ 2 = 1 - (cv * p.x) ^ 2 - (cv * p.y) ^ 2 := by
      linear_combination (-cv ^ 2) * flip_sq ha p.x - cv ^ 2 * flip_sq hb p.y
    simp only [e]
    refine bind_map_congr fun g => ?_
    simp only [Option.pure_def, Option.map_some, flip_vec, Option.some.injEq]
    ext <;> simp only <;> ring
  · simp only [sphereSag, sphereIntercept, flip_point, flip_vec, flip_sq ha, flip_sq hb, flip_mul ha, flip_mul hb]
    refine bind_map_congr fun t => ?_
    simp only [Option.pure_def, Option.map_some, flip_point, Option.some.injEq]
    ext <;> simp only <;> ring

include ha hb in
theorem flip_len {x y z : ℝ} : (⟨a * x, b * y, z⟩ : V3).len = (⟨x, y, z⟩ : V3).len := by
  unfold len
  congr 1
  simp only [dot]
  linear_combination x ^ 2 * ha + y ^ 2 * hb

/-- Normalization of a flipped vector. -/
theorem flip_normalized (x y z : ℝ) :
    (div? (a * x) (⟨a * x, b * y, z⟩ : V3).len).bind (fun nx => (div? (b * y) (⟨a * x, b * y, z⟩ : V3).len).bind fun ny =>
        (div? z (⟨a * x, b * y, z⟩ : V3).len).bind fun nz => some (⟨nx, ny, nz⟩ : V3))
      = ((div? x (⟨x, y, z⟩ : V3).len).bind (fun nx => (div? y (⟨x, y, z⟩ : V3).len).bind fun ny =>
        (div? z (⟨x, y, z⟩ : V3).len).bind fun nz => some (⟨nx, ny, nz⟩ : V3))).map (flip a b ha hb).vec := by
  rw [flip_len ha hb]
  generalize (⟨x, y, z⟩ : V3).len = l
  by_cases hl0 : l = 0
  · subst hl0; simp [div?]
  simp only [div?_of_ne hl0, Option.bind_some, Option.map_some, flip_vec, Option.some.injEq]
  ext <;> simp only <;> ring

theorem flip_conic (R k : ℝ) : (conicSag R k).SymmetricUnder (flip a b ha hb) := by
  refine ⟨fun p => ?_, fun o u => ?_⟩
  · simp only [conicSag, conicNormal, flip_point, flip_sq ha, flip_sq hb]
    refine bind_map_congr fun cv => bind_map_congr fun g => ?_
    simp only [Option.bind_eq_bind, Option.pure_def]
    by_cases hg : g = 0
    · subst hg; simp [div?]
    rw [div?_of_ne hg, div?_of_ne hg, div?_of_ne hg, div?_of_ne hg]
    simp only [Option.bind_some]
    have e1 : cv * (a * p.x) / g = a * (cv * p.x / g) := by ring
    have e2 : cv * (b * p.y) / g = b * (cv * p.y / g) := by ring
    rw [e1, e2]
    exact flip_normalized ha hb _ _ _
  · simp only [conicSag, conicIntercept, flip_point, flip_vec]
    have hroot : ∀ cv kp1 sg, conicRoot cv kp1 ⟨a * o.x, b * o.y, o.z⟩ ⟨a * u.x, b * u.y, u.z⟩ sg
        = conicRoot cv kp1 o u sg := by
      intro cv kp1 sg
      have e : ∀ t : ℝ, (a * o.x + a * u.x * t) ^ 2 + (b * o.y + b * u.y * t) ^ 2
          = (o.x + u.x * t) ^ 2 + (o.y + u.y * t) ^ 2 := by
        intro t
        linear_combination (o.x + u.x * t) ^ 2 * ha + (o.y + u.y * t) ^ 2 * hb
      simp only [conicRoot, flip_sq ha, flip_sq hb, flip_mul ha, flip_mul hb, e]
    refine bind_map_congr fun cv => ?_
    have hpath : conicPath cv (1 + k) ⟨a * o.x, b * o.y, o.z⟩ ⟨a * u.x, b * u.y, u.z⟩
        = conicPath cv (1 + k) o u := by
      unfold conicPath; rw [hroot, hroot]
    rw [hpath]
    refine bind_map_congr fun t => ?_
    simp only [Option.pure_def, Option.map_some, flip_point, Option.some.injEq]
    ext <;> simp only <;> ring

theorem flip_parabola (f : ℝ) : (parabolaSag f).SymmetricUnder (flip a b ha hb) := by
  refine ⟨fun p => ?_, fun o u => ?_⟩
  · simp only [parabolaSag, parabolaNormal, flip_point]
    by_cases hf : 2 * f = 0
    · rw [hf]; simp [div?]
    simp only [div?_of_ne hf, Option.bind_eq_bind, Option.bind_some]
    have e : (a * p.x / (2 * f)) ^ 2 + (b * p.y / (2 * f)) ^ 2 + 1
        = (p.x / (2 * f)) ^ 2 + (p.y / (2 * f)) ^ 2 + 1 := by
      linear_combination (p.x / (2 * f)) ^ 2 * ha + (p.y / (2 * f)) ^ 2 * hb
    rw [e]
    refine bind_map_congr fun g => ?_
    simp only [Option.pure_def, Option.map_some, flip_vec, Option.some.injEq]
    ext <;> simp only <;> ring
  · simp only [parabolaSag, parabolaIntercept, flip_point, flip_vec, flip_sq ha, flip_sq hb]
    have e1 : -(b * o.y * (a * u.x)) ^ 2 - (a * o.x * (b * u.y)) ^ 2
        + 2 * (b * o.y) * (b * u.y) * (a * o.x * (a * u.x) - 2 * f * u.z)
        + 4 * f * (o.z * (u.x ^ 2 + u.y ^ 2) - a * o.x * (a * u.x) * u.z + f * u.z ^ 2)
        = -(o.y * u.x) ^ 2 - (o.x * u.y) ^ 2 + 2 * o.y * u.y * (o.x * u.x - 2 * f * u.z)
        + 4 * f * (o.z * (u.x ^ 2 + u.y ^ 2) - o.x * u.x * u.z + f * u.z ^ 2) := by
      rw [flip_mul ha]
      linear_combination (-(o.y * u.x) ^ 2 * b ^ 2 - (o.x * u.y) ^ 2 * b ^ 2) * ha
        + (-(o.y * u.x) ^ 2 - (o.x * u.y) ^ 2 + 2 * o.y * u.y * (o.x * u.x - 2 * f * u.z)) * hb
    have e2 : -(a * o.x) * (a * u.x) - b * o.y * (b * u.y) = -o.x * u.x - o.y * u.y := by
      linear_combination -flip_mul ha o.x u.x - flip_mul hb o.y u.y
    simp only [e1, e2]
    split
    · refine bind_map_congr fun t => bind_map_congr fun t => ?_
      simp only [Option.pure_def, Option.map_some, flip_point, Option.some.injEq]
      ext <;> simp only <;> ring
    · refine bind_map_congr fun t => ?_
      simp only [Option.pure_def, Option.map_some, flip_point, Option.some.injEq]
      ext <;> simp only <;> ring

theorem flip_cylinder (R : ℝ) : (cylinderSag R).SymmetricUnder (flip a b ha hb) := by
  refine ⟨fun p => ?_, fun o u => ?_⟩
  · simp only [cylinderSag, cylinderNormal, flip_point]
    by_cases hf : R = 0
    · rw [hf]; simp [div?]
    simp only [div?_of_ne hf, Option.bind_eq_bind, Option.bind_some]
    have e : 1 - (a * p.x / R) ^ 2 = 1 - (p.x / R) ^ 2 := by
      linear_combination -(p.x / R) ^ 2 * ha
    rw [e]
    refine bind_map_congr fun g => ?_
    simp only [Option.pure_def, Option.map_some, flip_vec, Option.some.injEq]
    ext <;> simp only <;> ring
  · simp only [cylinderSag, cylinderIntercept, flip_point, flip_vec, dot, cross, sub_x, sub_y, sub_z]
    simp only [mul_zero, mul_one, zero_sub, sub_zero, _root_.add_zero]
    have e1 : -u.z * -u.z + a * u.x * (a * u.x) = -u.z * -u.z + u.x * u.x := by rw [flip_mul ha]
    have e2 : (-(a * o.x) * -u.z + (R - o.z) * (a * u.x)) ^ 2 = (-o.x * -u.z + (R - o.z) * u.x) ^ 2 := by
      linear_combination (-o.x * -u.z + (R - o.z) * u.x) ^ 2 * ha
    have e3 : -u.z * -(R - o.z) + a * u.x * -(a * o.x) = -u.z * -(R - o.z) + u.x * -o.x := by
      linear_combination -flip_mul ha u.x o.x
    simp only [e1, e2, e3]
    split <;>
    · refine bind_map_congr fun t => ?_
      simp only [Option.pure_def, Option.map_some, flip_point, Option.some.injEq]
      ext <;> simp only <;> ring

theorem flip_torus (solver : LineSolver) (R r : ℝ) : (torusSag solver R r none).SymmetricUnder (flip a b ha hb) := by
  refine ⟨fun p => ?_, fun o u => ?_⟩
  · simp only [torusSag, Option.elim_none, torusNormal, flip_point, flip_sq ha, flip_sq hb]
    refine bind_map_congr fun cv => bind_map_congr fun g => bind_map_congr fun zy => bind_map_congr fun f => ?_
    by_cases hf : f = 0
    · subst hf; simp [div?]
    by_cases hg : g = 0
    · subst hg; simp [div?]
    simp only [div?_of_ne hf, div?_of_ne hg, Option.bind_eq_bind, Option.bind_some, Option.pure_def]
    have e1 : a * p.x / f = a * (p.x / f) := by ring
    have e2 : (r - zy) * (cv * (b * p.y) / g) / f = b * ((r - zy) * (cv * p.y / g) / f) := by ring
    rw [e1, e2]
    exact flip_normalized ha hb _ _ _
  · have hh : ∀ p, torusHeight R r ((flip a b ha hb).point p) = torusHeight R r p := by
      intro p
      simp only [torusHeight, flip_point, flip_sq ha, flip_sq hb]
    simp only [torusSag, Option.elim_none, solvedIntercept, solvedInterceptFound]
    have hl : ∀ t : ℝ, (flip a b ha hb).point o + t • (flip a b ha hb).vec u = (flip a b ha hb).point (o + t • u) := by
      intro t; rw [Rigid.point_add_smul]
    simp only [hl, hh]
    have hz : ∀ p, ((flip a b ha hb).point p).z = p.z := by intro p; rw [flip_point]
    simp only [hz]
    refine bind_map_congr fun t => ?_
    rfl

end

/-- **C103**: planes, spheres, conic surfaces, paraboloids, cylinders and tori look the same after a reflection in
either of their planes of symmetry. -/
theorem C103_sags {a b : ℝ} (ha : a ^ 2 = 1) (hb : b ^ 2 = 1) (solver : LineSolver) (R k f r : ℝ) :
    ∀ sag ∈ [flatSag, sphereSag R, conicSag R k, parabolaSag f, cylinderSag R, torusSag solver R r none],
      (∀ p, sag.normal ⟨a * p.x, b * p.y, p.z⟩ = (sag.normal p).map fun n => ⟨a * n.x, b * n.y, n.z⟩) ∧
      ∀ o u, sag.intercept ⟨a * o.x, b * o.y, o.z⟩ ⟨a * u.x, b * u.y, u.z⟩
        = (sag.intercept o u).map fun q => ⟨a * q.x, b * q.y, q.z⟩ := by
  intro sag hsag
  have h : sag.SymmetricUnder (flip a b ha hb) := by
    simp only [List.mem_cons, List.not_mem_nil, or_false] at hsag
    rcases hsag with rfl | rfl | rfl | rfl | rfl | rfl
    · exact flip_flat ha hb
    · exact flip_sphere ha hb R
    · exact flip_conic ha hb R k
    · exact flip_parabola ha hb f
    · exact flip_cylinder ha hb R
    · exact flip_torus ha hb solver R r
  have hv : (flip a b ha hb).vec = fun n => ⟨a * n.x, b * n.y, n.z⟩ := funext (flip_vec a b ha hb)
  have hp : (flip a b ha hb).point = fun n => ⟨a * n.x, b * n.y, n.z⟩ := funext (flip_point a b ha hb)
  obtain ⟨h1, h2⟩ := h
  rw [hv, hp] at h2
  rw [hv, hp] at h1
  exact ⟨h1, h2⟩

/-- Reading off that a surface looks the same in the mirror. -/
structure Surface.Upright (a b : ℝ) (s : Surface) : Prop where
  sag : (∀ p, s.sag.normal ⟨a * p.x, b * p.y, p.z⟩ = (s.sag.normal p).map fun n => ⟨a * n.x, b * n.y, n.z⟩) ∧
      ∀ o u, s.sag.intercept ⟨a * o.x, b * o.y, o.z⟩ ⟨a * u.x, b * u.y, u.z⟩
        = (s.sag.intercept o u).map fun q => ⟨a * q.x, b * q.y, q.z⟩
  material : IsotropicMaterial s.material
  aperture : ∀ m, s.aperture = some m → ∀ p, m.mask ⟨a * p.x, b * p.y, p.z⟩ = m.mask p
  frame : ∀ p, s.frame.point ⟨a * p.x, b * p.y, p.z⟩ = ⟨a * (s.frame.point p).x, b * (s.frame.point p).y, (s.frame.point p).z⟩
  rulings : s.rulings = none ∨ ∃ d m, s.rulings = some (idealRulings d m)

/-- The same surface used in the opposite order. -/
def Surface.opposite (s : Surface) : Surface :=
  { s with rulings := s.rulings.map fun ru => { ru with order := -ru.order } }

theorem Upright.frame_vec {a b : ℝ} {s : Surface} (h : s.Upright a b) (ha : a ^ 2 = 1) (hb : b ^ 2 = 1) (v : V3) :
    s.frame.vec ((flip a b ha hb).vec v) = (flip a b ha hb).vec (s.frame.vec v) := by
  have e : ∀ (t : Rigid) (v : V3), t.vec v = t.point v - t.point 0 := by
    intro t v; rw [Rigid.point_sub_point]; congr 1; vring
  have h1 := h.frame v
  have h0 := h.frame 0
  have hz : (⟨a * (0 : V3).x, b * (0 : V3).y, (0 : V3).z⟩ : V3) = 0 := by vring
  rw [hz] at h0
  rw [flip_vec, flip_vec, e, e, h1]
  have h0x := congrArg V3.x h0
  have h0y := congrArg V3.y h0
  simp only at h0x h0y
  ext <;> vsimp
  · rw [mul_sub, ← h0x]
  · rw [mul_sub, ← h0y]

/-- **C103**: a surface that looks the same in the mirror is its own image, if the grooves are perpendicular to the
mirror or there are none. -/
theorem Upright.across {b : ℝ} (hb : b ^ 2 = 1) {s : Surface} (h : s.Upright 1 b) :
    Surface.Image (flip 1 b (one_pow 2) hb) s s where
  frame_point p := by simpa only [flip_point] using h.frame p
  frame_vec := Upright.frame_vec h (one_pow 2) hb
  normal p := by
    have := h.sag.1 p
    rw [flip_point, this]; congr 1; funext n; rw [flip_vec]
  intercept o u := by
    have := h.sag.2 o u
    rw [flip_point, flip_vec, this]; congr 1; funext n; rw [flip_point]
  material := ⟨rfl, h.material⟩
  aperture := ⟨rfl, fun m hm => ⟨fun p => by rw [flip_point]; exact h.aperture m hm p,
    fun p => by rw [flip_vec]; exact h.aperture m hm p⟩⟩
  rulings := by
    rcases h.rulings with h0 | ⟨d, m, h1⟩
    · exact Or.inl ⟨h0, h0⟩
    · refine Or.inr ⟨_, _, h1, h1, fun _ _ => rfl, Or.inl ⟨rfl, fun p n => ?_⟩⟩
      simp only [idealRulings, constantSpacing, Option.map_some, flip_vec]
      congr 1
      ext <;> vsimp <;> ring

/-- The image in a mirror along the grooves is used in the opposite order. -/
theorem Upright.along {b : ℝ} (hb : b ^ 2 = 1) {s : Surface} (h : s.Upright (-1) b) :
    Surface.Image (flip (-1) b (by norm_num) hb) s s.opposite where
  frame_point p := by
    show s.frame.point _ = _
    simpa only [flip_point] using h.frame p
  frame_vec := Upright.frame_vec h (by norm_num) hb
  normal p := by
    show s.sag.normal _ = _
    have := h.sag.1 p
    rw [flip_point, this]; congr 1; funext n; rw [flip_vec]
  intercept o u := by
    show s.sag.intercept _ _ = _
    have := h.sag.2 o u
    rw [flip_point, flip_vec, this]; congr 1; funext n; rw [flip_point]
  material := ⟨rfl, h.material⟩
  aperture := ⟨rfl, fun m hm => ⟨fun p => by rw [flip_point]; exact h.aperture m hm p,
    fun p => by rw [flip_vec]; exact h.aperture m hm p⟩⟩
  rulings := by
    rcases h.rulings with h0 | ⟨d, m, h1⟩
    · exact Or.inl ⟨h0, by simp [Surface.opposite, h0]⟩
    · refine Or.inr ⟨_, _, h1, by simp only [Surface.opposite, h1, Option.map_some]; rfl, fun _ _ => rfl,
        Or.inr ⟨rfl, fun p n => ?_⟩⟩
      simp only [idealRulings, constantSpacing, Option.map_some, flip_vec]
      congr 1
      ext <;> vsimp <;> ring

/-- **C103**: light in the plane of dispersion of a system that is symmetric about this plane stays in it. -/
theorem C103_meridional {ss : List Surface} (hs : ∀ s ∈ ss, s.Upright 1 (-1)) {r out : Ray}
    (hp : r.position.y = 0) (hd : r.direction.y = 0) (h : propagateSurfaces ss r = some out) :
    out.position.y = 0 ∧ out.direction.y = 0 := by
  have hb : (-1 : ℝ) ^ 2 = 1 := by norm_num
  have key := C103_symmetry (g := flip 1 (-1) (one_pow 2) hb) (ss := ss) (ss' := ss)
    (List.forall₂_same.2 fun s hm => Upright.across hb (hs s hm)) r
  have hr : r.move (flip 1 (-1) (one_pow 2) hb) = r := by
    unfold Ray.move
    rw [flip_point, flip_vec, hp, hd]
    simp only [one_mul, mul_zero]
    rw [← hp]
    conv_lhs => enter [3]; rw [hp, ← hd]
  rw [hr, h, Option.map_some, Option.some.injEq] at key
  have k1 : out.position.y = -1 * out.position.y := by
    conv_lhs => rw [key]
    simp only [Ray.move, flip_point]
  have k2 : out.direction.y = -1 * out.direction.y := by
    conv_lhs => rw [key]
    simp only [Ray.move, flip_vec]
  constructor <;> linarith

/-- **C103**: in a system with rulings, the ray mirrored along the rulings' normal goes into the opposite order as
the ray goes into the order. -/
theorem C103_orders {ss : List Surface} (hs : ∀ s ∈ ss, s.Upright (-1) 1) {r out : Ray}
    (h : propagateSurfaces ss r = some out) :
    propagateSurfaces (ss.map Surface.opposite)
        { r with position := ⟨-r.position.x, r.position.y, r.position.z⟩,
                 direction := ⟨-r.direction.x, r.direction.y, r.direction.z⟩ }
      = some { out with position := ⟨-out.position.x, out.position.y, out.position.z⟩,
                        direction := ⟨-out.direction.x, out.direction.y, out.direction.z⟩ } := by
  have ha : (-1 : ℝ) ^ 2 = 1 := by norm_num
  have key := C103_symmetry (g := flip (-1) 1 ha (one_pow 2)) (ss := ss) (ss' := ss.map Surface.opposite)
    (by rw [List.forall₂_map_right_iff]; exact List.forall₂_same.2 fun s hm => Upright.along (one_pow 2) (hs s hm)) r
  rw [h] at key
  simpa [Ray.move, flip_point, flip_vec] using key

/-- The ray on the other side of the plane `y = 0`. -/
def Ray.acrossY (r : Ray) : Ray :=
  { r with
    position := ⟨r.position.x, -r.position.y, r.position.z⟩
    direction := ⟨r.direction.x, -r.direction.y, r.direction.z⟩ }

/-- **C103**: a bundle that is symmetric about the plane of dispersion is centred on it wherever it arrives. -/
theorem C103_centroid {ss : List Surface} (hs : ∀ s ∈ ss, s.Upright 1 (-1)) {rays : List Ray}
    (hrays : (rays.map Ray.acrossY).Perm rays) (weight : Ray → ℝ) (hw : ∀ r, weight r.acrossY = weight r) :
    ((rays.filterMap (propagateSurfaces ss)).map fun out => weight out * out.position.y).sum = 0 := by
  have hb : (-1 : ℝ) ^ 2 = 1 := by norm_num
  set g := flip 1 (-1) (one_pow 2) hb with hg
  have hmv : Ray.acrossY = Ray.move g := by
    funext r; simp [Ray.acrossY, Ray.move, hg, flip_point, flip_vec]
  simp only [hmv] at hrays hw
  have key := fun r => C103_symmetry (g := g) (ss := ss) (ss' := ss)
    (List.forall₂_same.2 fun s hm => Upright.across hb (hs s hm)) r
  have h1 : ((rays.map (Ray.move g)).filterMap (propagateSurfaces ss))
      = (rays.filterMap (propagateSurfaces ss)).map (Ray.move g) := by
    rw [List.filterMap_map, List.map_filterMap]
    congr 1
    funext r
    exact key r
  have h2 : ((rays.map (Ray.move g)).filterMap (propagateSurfaces ss)).Perm (rays.filterMap (propagateSurfaces ss)) :=
    hrays.filterMap _
  rw [h1] at h2
  have h3 := (h2.map fun out => weight out * out.position.y).sum_eq
  rw [List.map_map] at h3
  have h4 : ((fun out : Ray => weight out * out.position.y) ∘ Ray.move g)
      = fun out => -(weight out * out.position.y) := by
    funext out
    show weight (out.move g) * (out.move g).position.y = _
    rw [hw]
    simp [Ray.move, hg, flip_point]
  have h5 : ∀ l : List Ray, (l.map fun out => -(weight out * out.position.y)).sum
      = -(l.map fun out => weight out * out.position.y).sum := by
    intro l
    induction l with
    | nil => simp
    | cons x l ih => simp only [List.map_cons, List.sum_cons, ih]; ring
  rw [h4, h5] at h3
  linarith

/-- The sags of revolution: planes, spheres, conic surfaces and paraboloids. -/
def Sag.OfRevolution (sag : Sag) : Prop :=
  sag = flatSag ∨ (∃ R, sag = sphereSag R) ∨ (∃ R k, sag = conicSag R k) ∨ ∃ f, sag = parabolaSag f

theorem OfRevolution.axial {sag : Sag} (h : sag.OfRevolution) : AxiallySymmetric sag := by
  rcases h with rfl | ⟨R, rfl⟩ | ⟨R, k, rfl⟩ | ⟨f, rfl⟩
  · exact axial_flat
  · exact axial_sphere R
  · exact axial_conic R k
  · exact axial_parabola f

/-- A surface of revolution about the `z` axis of the system. -/
structure Surface.Revolved (s : Surface) : Prop where
  sag : s.sag.OfRevolution
  material : IsotropicMaterial s.material
  aperture : ∀ m, s.aperture = some m → ∀ c d, c ^ 2 + d ^ 2 = 1 → ∀ p : V3,
    m.mask ⟨c * p.x - d * p.y, d * p.x + c * p.y, p.z⟩ = m.mask p
  frame : ∃ c d z : ℝ, c ^ 2 + d ^ 2 = 1 ∧
    ∀ p, s.frame.point p = ⟨c * p.x - d * p.y, d * p.x + c * p.y, p.z + z⟩
  rulings : s.rulings = none

theorem vec_eq_point_sub (t : Rigid) (v : V3) : t.vec v = t.point v - t.point 0 := by
  rw [Rigid.point_sub_point]; congr 1; vring

theorem Revolved.image {s : Surface} (h : s.Revolved) {c d : ℝ} (hcd : c ^ 2 + d ^ 2 = 1) :
    Surface.Image (rotZ c d hcd) s s := by
  obtain ⟨c', d', z, hcd', hf⟩ := h.frame
  exact {
    frame_point := by
      intro p
      rw [hf, hf, rotZ_point, rotZ_point]
      ext <;> simp only <;> ring
    frame_vec := by
      intro v
      have hv : ∀ v, s.frame.vec v = ⟨c' * v.x - d' * v.y, d' * v.x + c' * v.y, v.z⟩ := by
        intro v
        rw [vec_eq_point_sub, hf, hf]
        ext <;> vsimp <;> ring
      rw [hv, hv, rotZ_vec, rotZ_vec]
      ext <;> simp only <;> ring
    normal := (OfRevolution.axial h.sag).normal c d hcd
    intercept := (OfRevolution.axial h.sag).intercept c d hcd
    material := ⟨rfl, h.material⟩
    aperture := ⟨rfl, fun m hm => ⟨fun p => by rw [rotZ_point]; exact h.aperture m hm c d hcd p,
      fun p => by rw [rotZ_vec]; exact h.aperture m hm c d hcd p⟩⟩
    rulings := Or.inl ⟨h.rulings, h.rulings⟩ }

/-- **C103**: a system of surfaces of revolution about a common axis treats all azimuths alike. -/
theorem C103_revolution {ss : List Surface} (hs : ∀ s ∈ ss, s.Revolved) {c d : ℝ} (hcd : c ^ 2 + d ^ 2 = 1)
    {r out : Ray} (h : propagateSurfaces ss r = some out) :
    propagateSurfaces ss
        { r with position := ⟨c * r.position.x - d * r.position.y, d * r.position.x + c * r.position.y, r.position.z⟩,
                 direction := ⟨c * r.direction.x - d * r.direction.y, d * r.direction.x + c * r.direction.y, r.direction.z⟩ }
      = some { out with
          position := ⟨c * out.position.x - d * out.position.y, d * out.position.x + c * out.position.y, out.position.z⟩,
          direction := ⟨c * out.direction.x - d * out.direction.y, d * out.direction.x + c * out.direction.y,
            out.direction.z⟩ } := by
  have key := C103_symmetry (g := rotZ c d hcd) (ss := ss) (ss' := ss)
    (List.forall₂_same.2 fun s hm => Revolved.image (hs s hm) hcd) r
  rw [h] at key
  simpa only [Ray.move, rotZ_point, rotZ_vec, Option.map_some] using key

/-- **C103**: a ray along the axis of a system of surfaces of revolution stays on the axis. -/
theorem C103_axis {ss : List Surface} (hs : ∀ s ∈ ss, s.Revolved) {r out : Ray}
    (hp : r.position.x = 0 ∧ r.position.y = 0) (hd : r.direction.x = 0 ∧ r.direction.y = 0)
    (h : propagateSurfaces ss r = some out) :
    (out.position.x = 0 ∧ out.position.y = 0) ∧ (out.direction.x = 0 ∧ out.direction.y = 0) := by
  have key := C103_revolution hs (c := -1) (d := 0) (by norm_num) h
  have hr : ({ r with
      position := ⟨-1 * r.position.x - 0 * r.position.y, 0 * r.position.x + -1 * r.position.y, r.position.z⟩
      direction := ⟨-1 * r.direction.x - 0 * r.direction.y, 0 * r.direction.x + -1 * r.direction.y, r.direction.z⟩ } : Ray)
      = r := by
    obtain ⟨w, ⟨px, py, pz⟩, ⟨dx, dy, dz⟩, i, at', n, v⟩ := r
    simp only at hp hd
    obtain ⟨rfl, rfl⟩ := hp
    obtain ⟨rfl, rfl⟩ := hd
    simp
  rw [hr, h, Option.some.injEq] at key
  have k1 : out.position = ⟨-1 * out.position.x - 0 * out.position.y, 0 * out.position.x + -1 * out.position.y, out.position.z⟩ :=
    congrArg Ray.position key
  have k2 : out.direction = ⟨-1 * out.direction.x - 0 * out.direction.y, 0 * out.direction.x + -1 * out.direction.y, out.direction.z⟩ :=
    congrArg Ray.direction key
  have a1 := congrArg V3.x k1
  have a2 := congrArg V3.y k1
  have a3 := congrArg V3.x k2
  have a4 := congrArg V3.y k2
  simp only at a1 a2 a3 a4
  refine ⟨⟨?_, ?_⟩, ?_, ?_⟩ <;> linarith

/-- The normals of a sag of revolution meet the axis. -/
theorem OfRevolution.meets {sag : Sag} (h : sag.OfRevolution) {p n : V3} (hn : sag.normal p = some n) :
    p.x * n.y = p.y * n.x := by
  rcases h with rfl | ⟨R, rfl⟩ | ⟨R, k, rfl⟩ | ⟨f, rfl⟩
  · simp only [flatSag, flatNormal, Option.some.injEq] at hn
    subst hn; simp
  · simp only [sphereSag, sphereNormal, Option.bind_eq_bind, Option.bind_eq_some_iff, Option.pure_def, Option.some.injEq] at hn
    obtain ⟨c, -, s, -, rfl⟩ := hn
    simp only; ring
  · simp only [conicSag, conicNormal, Option.bind_eq_bind, Option.bind_eq_some_iff, Option.pure_def, Option.some.injEq, div?_eq_some] at hn
    obtain ⟨c, -, g, -, _, ⟨-, rfl⟩, _, ⟨-, rfl⟩, _, ⟨-, rfl⟩, _, ⟨-, rfl⟩, _, ⟨-, rfl⟩, rfl⟩ := hn
    simp only; ring
  · simp only [parabolaSag, parabolaNormal, Option.bind_eq_bind, Option.bind_eq_some_iff, Option.pure_def, Option.some.injEq, div?_eq_some] at hn
    obtain ⟨_, ⟨-, rfl⟩, _, ⟨-, rfl⟩, s, -, _, ⟨-, rfl⟩, _, ⟨-, rfl⟩, _, ⟨-, rfl⟩, rfl⟩ := hn
    simp only; ring

/-- The intercept of a sag of revolution is a point of the ray. -/
theorem OfRevolution.onLine {sag : Sag} (h : sag.OfRevolution) {o u q : V3} (hq : sag.intercept o u = some q) :
    OnLine o u q := by
  rcases h with rfl | ⟨R, rfl⟩ | ⟨R, k, rfl⟩ | ⟨f, rfl⟩
  · exact flatIntercept_onLine hq
  · exact sphereIntercept_onLine hq
  · simp only [conicSag, conicIntercept, Option.bind_eq_bind, Option.bind_eq_some_iff, Option.pure_def, Option.some.injEq] at hq
    obtain ⟨c, -, t, -, rfl⟩ := hq
    exact ⟨t, by ext <;> vsimp <;> ring⟩
  · exact parabolaIntercept_onLine hq

theorem snell_parallel {a u b : V3} {n1 n2 : ℝ} {m : Bool} (h : snellsLaw a n1 n2 m u = some b) :
    ∃ k : ℝ, n2 • b - n1 • a = k • u := by
  obtain ⟨h2, h1, -, rfl⟩ := snellsLaw_eq_some.1 h
  generalize -(a.dot u) + (if m then -1 else 1) * copysign1 (a.dot u) *
        Real.sqrt ((n2 / n1) ^ 2 + (a.dot u) ^ 2 - a.dot a) = k
  refine ⟨n1 * k, ?_⟩
  ext <;> vsimp <;> field_simp <;> ring

/-- **C103**: the skewness of a ray, the index times the component of its angular momentum along the axis, is the
same before and behind any number of surfaces of revolution about this axis. -/
theorem C103_skew {ss : List Surface} (hs : ∀ s ∈ ss, s.Revolved) {r out : Ray}
    (h : propagateSurfaces ss r = some out) :
    out.index * (out.position.x * out.direction.y - out.position.y * out.direction.x)
      = r.index * (r.position.x * r.direction.y - r.position.y * r.direction.x) := by
  induction ss generalizing r with
  | nil => cases h; rfl
  | cons s ss ih =>
    rw [propagateSurfaces_cons, Option.bind_eq_some_iff] at h
    obtain ⟨r1, h1, h2⟩ := h
    rw [ih (fun s' h' => hs s' (by simp [h'])) h2]
    have hs := hs s (by simp)
    obtain ⟨c, d, z, hcd, hf⟩ := hs.frame
    have hv : ∀ v, s.frame.vec v = ⟨c * v.x - d * v.y, d * v.x + c * v.y, v.z⟩ := by
      intro v
      rw [vec_eq_point_sub, hf, hf]
      ext <;> vsimp <;> ring
    -- the component along the axis is the same in the frame of the surface
    have hL : ∀ p v : V3, (s.frame.point p).x * (s.frame.vec v).y - (s.frame.point p).y * (s.frame.vec v).x
        = p.x * v.y - p.y * v.x := by
      intro p v
      rw [hf, hv]
      simp only
      linear_combination (p.x * v.y - p.y * v.x) * hcd
    obtain ⟨u, hu, hb⟩ := surface_plain h1 hs.rulings
    obtain ⟨k, hk⟩ := snell_parallel hb
    have hm := OfRevolution.meets hs.sag hu
    have hline : OnLine r.position r.direction r1.position := by
      have h := h1
      rw [Surface.propagate_eq] at h
      simp only [Option.map_eq_some_iff] at h
      obtain ⟨o, ho, rfl⟩ := h
      obtain ⟨q, normal, r1', n2, b', e1, e2, att, hq, hn, heff, hp, hw', hi', ha, hv, hI, hn2, -, hr0, hb',
        he1, he2, hatt, ow, op, od, oI, oa, oi, -⟩ := propagateLocal_eq_some ho
      obtain ⟨t, ht⟩ := OfRevolution.onLine hs.sag hq
      refine ⟨t, ?_⟩
      show s.frame.point o.position = _
      rw [op, ht]
      show s.frame.point (s.frame.ipoint r.position + t • s.frame.ivec r.direction) = _
      rw [Rigid.point_add_smul, Rigid.point_ipoint, Rigid.vec_ivec]
    obtain ⟨t, ht⟩ := hline
    have e1 := hL (s.frame.ipoint r1.position) (s.frame.ivec r1.direction)
    rw [Rigid.point_ipoint, Rigid.vec_ivec] at e1
    have e0 := hL (s.frame.ipoint r1.position) (s.frame.ivec r.direction)
    rw [Rigid.point_ipoint, Rigid.vec_ivec] at e0
    have e2 : r1.position.x * r.direction.y - r1.position.y * r.direction.x
        = r.position.x * r.direction.y - r.position.y * r.direction.x := by
      rw [ht]; vsimp; ring
    have kx := congrArg V3.x hk
    have ky := congrArg V3.y hk
    simp only [sub_x, sub_y, smul_x, smul_y] at kx ky
    rw [e1, ← e2, e0]
    linear_combination (s.frame.ipoint r1.position).x * ky - (s.frame.ipoint r1.position).y * kx + k * hm

/-- **C103**: vacuum, mirrors and glass do not distinguish directions. -/
theorem C103_materials (g : Glass) : IsotropicMaterial vacuum ∧ IsotropicMaterial mirror ∧ IsotropicMaterial g.material :=
  ⟨⟨fun _ _ => rfl, fun _ _ => rfl, fun _ _ _ => rfl⟩, ⟨fun _ _ => rfl, fun _ _ => rfl, fun _ _ _ => rfl⟩,
    ⟨fun _ _ => rfl, fun _ _ => rfl, fun _ _ _ => rfl⟩⟩

/-- **C103**: centred circles look the same from all azimuths; centred circles, ellipses and rectangles look the same
in both mirrors. -/
theorem C103_apertures (radius rx ry hx hy : ℝ) (active inverted : Bool) :
    (∀ c d, c ^ 2 + d ^ 2 = 1 → ∀ p : V3, circleMask radius active inverted none
        ⟨c * p.x - d * p.y, d * p.x + c * p.y, p.z⟩ = circleMask radius active inverted none p) ∧
    ∀ mask ∈ [circleMask radius active inverted none, ellipseMask rx ry active inverted none,
        rectangleMask hx hy active inverted none],
      ∀ p : V3, mask ⟨-p.x, p.y, p.z⟩ = mask p ∧ mask ⟨p.x, -p.y, p.z⟩ = mask p := by
  constructor
  · intro c d h p
    unfold circleMask
    congr 1
    rw [decide_eq_decide]
    simp only [toLocal, Option.elim_none, xyLength, rot_sq h]
  · intro mask hm p
    simp only [List.mem_cons, List.not_mem_nil, or_false] at hm
    rcases hm with rfl | rfl | rfl
    · unfold circleMask
      constructor <;> congr 1 <;> rw [decide_eq_decide] <;> simp only [toLocal, Option.elim_none, xyLength, neg_sq]
    · unfold ellipseMask
      constructor <;> simp only [] <;> congr 1 <;> rw [decide_eq_decide] <;>
        simp only [toLocal, Option.elim_none, neg_div, neg_sq]
    · unfold rectangleMask
      constructor <;> simp only [] <;> congr 1 <;> simp only [← Bool.decide_and] <;> rw [decide_eq_decide] <;>
        simp only [toLocal, Option.elim_none] <;> constructor <;> rintro ⟨⟨⟨_, _⟩, _⟩, _⟩ <;>
        refine ⟨⟨⟨?_, ?_⟩, ?_⟩, ?_⟩ <;> linarith

/-- Non-vacuity: a spherical mirror with a circular aperture, five units along the axis. -/
example : (⟨sphereSag (-20), mirror, some ⟨.length, circleMask 3 true false none⟩, none,
    some (Rigid.translation ⟨0, 0, 5⟩)⟩ : Surface).Revolved where
  sag := Or.inr (Or.inl ⟨_, rfl⟩)
  material := (C103_materials f2).2.1
  aperture m hm c d h p := by
    cases hm
    exact (C103_apertures 3 0 0 0 0 true false).1 c d h p
  frame := ⟨1, 0, 5, by norm_num, fun p => by
    show (Rigid.translation ⟨0, 0, 5⟩).point p = _
    rw [translation_point]; ext <;> vsimp <;> ring⟩
  rulings := rfl

/-- Non-vacuity: a toroidal grating that is turned about the `y` axis and moved in the plane of dispersion. -/
example (solver : LineSolver) : (⟨torusSag solver 20 30 none, mirror,
    some ⟨.length, rectangleMask 3 2 true false none⟩, some (idealRulings 1 1),
    some ⟨⟨⟨3 / 5, 0, 4 / 5⟩, ⟨0, 1, 0⟩, ⟨-4 / 5, 0, 3 / 5⟩⟩, ⟨2, 0, 7⟩,
      fun v => by ext <;> simp [M3.mulVec, M3.transpose, dot] <;> ring,
      fun v => by ext <;> simp [M3.mulVec, M3.transpose, dot] <;> ring⟩⟩ : Surface).Upright 1 (-1) where
  sag := C103_sags (by norm_num) (by norm_num) solver 20 0 0 30 _ (by simp)
  material := (C103_materials f2).2.1
  aperture m hm p := by
    cases hm
    have := ((C103_apertures 3 0 0 3 2 true false).2 (rectangleMask 3 2 true false none) (by simp) p).2
    show rectangleMask 3 2 true false none _ = rectangleMask 3 2 true false none p
    rw [← this]
    congr 1
    ext <;> simp only <;> ring
  frame p := by
    simp only [Surface.frame, Option.getD_some, Rigid.point, M3.mulVec, dot]
    ext <;> vsimp <;> ring
  rulings := Or.inr ⟨1, 1, rfl⟩

end Optika
