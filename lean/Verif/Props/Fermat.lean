import Verif.Props.Reverse
import Verif.Props.Conics
import Verif.Props.Parabola
import Verif.Props.Sphere
import Verif.Props.Transformed
import Mathlib.Analysis.SpecialFunctions.Sqrt

/-!
# C97: Fermat's principle
-/

namespace Optika
open V3

/-! ## Specification -/

/-- A moving point with its velocity at time zero. -/
structure Moving (p : ℝ → V3) (v : V3) : Prop where
  x : HasDerivAt (fun t => (p t).x) v.x 0
  y : HasDerivAt (fun t => (p t).y) v.y 0
  z : HasDerivAt (fun t => (p t).z) v.z 0

/-- The points that a surface is made of, where it is placed. -/
def Surface.Contains (s : Surface) (q : V3) : Prop := OnGraph s.sag.height (s.frame.ipoint q)

/-- A path in several straight pieces: the index along the next piece, where it ends, and the phase, as a
length, that rulings at the end add. -/
abbrev BentPath := List (ℝ × V3 × ℝ)

/-- The optical length of a path that starts in `p` and ends in `e`, with the index `n` on the last
piece. -/
noncomputable def opticalLength (n : ℝ) (e : V3) : V3 → BentPath → ℝ
  | p, [] => n * (e - p).len
  | p, (m, q, φ) :: rest => m * (q - p).len + φ + opticalLength n e q rest

/-- How the path of a ray may be varied at one surface.  The ray runs forward to the surface and strikes
it at an angle; the moving point starts where the ray strikes and remains on the surface; `φ` is the phase
that the rulings add, whose rate of change is the order times the wavelength for each ruling that is
crossed, with the sign of the side from which the light comes. -/
structure VariedAt (s : Surface) (r out : Ray) (p : ℝ → V3) (φ : ℝ → ℝ) : Prop where
  forward : ∃ t : ℝ, 0 < t ∧ out.position = r.position + t • r.direction
  before : 0 < r.index
  after : 0 < out.index
  starts : p 0 = out.position
  stays : ∀ t, s.Contains (p t)
  normal : ∀ n, s.sag.normal (s.frame.ipoint out.position) = some n →
    n.dot n = 1 ∧ (s.frame.ivec r.direction).dot n ≠ 0
      ∧ PerpendicularTo (OnGraph s.sag.height) (s.frame.ipoint out.position) n
  moves : ∃ v, Moving p v ∧ match s.rulings with
    | none => φ = fun _ => 0
    | some ru => ∀ n, s.sag.normal (s.frame.ipoint out.position) = some n →
      ∃ (d : ℝ) (g : V3), ru.spacing (s.frame.ipoint out.position) n = some (d • g) ∧ d ≠ 0 ∧ g.dot n = 0
        ∧ g.dot g = 1 ∧ HasDerivAt φ ((if (s.frame.ivec r.direction).dot n < 0 then -1 else 1)
          * (ru.order * r.wavelength * (g.dot (s.frame.ivec v) / d))) 0

/-- How the path of a ray through a system may be varied: each of the points where it is bent. -/
def Varied : List Surface → Ray → List ((ℝ → V3) × (ℝ → ℝ)) → Prop
  | [], _, [] => True
  | s :: ss, r, (p, φ) :: ps => ∃ mid, s.propagate r = some mid ∧ VariedAt s r mid p φ ∧ Varied ss mid ps
  | _, _, _ => False

/-- The path at time `t`, with the indices of the traced ray. -/
noncomputable def variedPath (t : ℝ) : List Surface → Ray → List ((ℝ → V3) × (ℝ → ℝ)) → BentPath
  | s :: ss, r, (p, φ) :: ps =>
    match s.propagate r with
    | none => []
    | some mid => (r.index, p t, φ t) :: variedPath t ss mid ps
  | _, _, _ => []

/-! ## Proofs -/

theorem Moving.const (p : V3) : Moving (fun _ => p) 0 :=
  ⟨hasDerivAt_const _ _, hasDerivAt_const _ _, hasDerivAt_const _ _⟩

/-- The length of a straight piece between two moving points changes by the relative velocity along
it. -/
theorem Moving.len {p q : ℝ → V3} {v w a : V3} {c : ℝ} (hp : Moving p v) (hq : Moving q w) (hc : 0 < c)
    (ha : a.dot a = 1) (h : q 0 = p 0 + c • a) :
    HasDerivAt (fun t => (q t - p t).len) (a.dot (w - v)) 0 := by
  have e : q 0 - p 0 = c • a := by rw [h]; vring
  have ex := congrArg V3.x e
  have ey := congrArg V3.y e
  have ez := congrArg V3.z e
  simp only [sub_x, sub_y, sub_z, smul_x, smul_y, smul_z] at ex ey ez
  have hd : HasDerivAt (fun t => ((q t).x - (p t).x) * ((q t).x - (p t).x)
      + ((q t).y - (p t).y) * ((q t).y - (p t).y) + ((q t).z - (p t).z) * ((q t).z - (p t).z))
      (2 * c * a.dot (w - v)) 0 := by
    have hx := (hq.x.sub hp.x).mul (hq.x.sub hp.x)
    have hy := (hq.y.sub hp.y).mul (hq.y.sub hp.y)
    have hz := (hq.z.sub hp.z).mul (hq.z.sub hp.z)
    refine ((hx.add hy).add hz).congr_deriv ?_
    simp only [Pi.sub_apply, ex, ey, ez, dot, sub_x, sub_y, sub_z]
    ring
  have h0 : ((q 0).x - (p 0).x) * ((q 0).x - (p 0).x)
      + ((q 0).y - (p 0).y) * ((q 0).y - (p 0).y) + ((q 0).z - (p 0).z) * ((q 0).z - (p 0).z) = c ^ 2 := by
    rw [ex, ey, ez]
    simp only [dot] at ha
    linear_combination c ^ 2 * ha
  have := hd.sqrt (by rw [h0]; positivity)
  rw [h0, Real.sqrt_sq hc.le] at this
  refine this.congr_deriv ?_
  field_simp

theorem Moving.ipoint (g : Rigid) {p : ℝ → V3} {v : V3} (hp : Moving p v) :
    Moving (fun t => g.ipoint (p t)) (g.ivec v) := by
  have hx := hp.x.sub_const g.shift.x
  have hy := hp.y.sub_const g.shift.y
  have hz := hp.z.sub_const g.shift.z
  constructor
  · exact (((hx.const_mul g.rot.r1.x).add (hy.const_mul g.rot.r2.x)).add (hz.const_mul g.rot.r3.x))
  · exact (((hx.const_mul g.rot.r1.y).add (hy.const_mul g.rot.r2.y)).add (hz.const_mul g.rot.r3.y))
  · exact (((hx.const_mul g.rot.r1.z).add (hy.const_mul g.rot.r2.z)).add (hz.const_mul g.rot.r3.z))

/-- Phase matching, along a tangent. -/
theorem PhaseMatched.along {a b n k v : V3} {n1 n2 : ℝ} (h : PhaseMatched a b n1 n2 n k)
    (hv : n.dot v = 0) : n2 * b.dot v = n1 * a.dot v + k.dot v := by
  have ht : ∀ w : V3, (w.tang n).dot v = w.dot v := fun w => by
    unfold tang
    rw [sub_dot, smul_dot, hv]; ring
  have := congrArg (fun w => V3.dot w v) h.tangential
  simp only [add_dot, smul_dot, ht] at this
  exact this

theorem fermat_step {s : Surface} {r out : Ray} (h : s.propagate r = some out)
    {p : ℝ → V3} {φ : ℝ → ℝ} (hp : VariedAt s r out p φ) :
    ∃ v φ', Moving p v ∧ HasDerivAt φ φ' 0 ∧ out.direction.dot out.direction = 1
      ∧ out.index * out.direction.dot v = r.index * r.direction.dot v + φ' := by
  obtain ⟨v, hv, hr⟩ := hp.moves
  have hdot : ∀ w : V3, (s.frame.ivec w).dot (s.frame.ivec v) = w.dot v := fun w =>
    Rigid.ivec_dot_ivec s.frame w v
  have htan : ∀ n, s.sag.normal (s.frame.ipoint out.position) = some n → n.dot (s.frame.ivec v) = 0 := by
    intro n hn
    have m := hv.ipoint s.frame
    refine (hp.normal n hn).2.2 _ _ _ _ _ _ hp.stays ?_ m.x m.y m.z
    rw [hp.starts]
    rfl
  cases hru : s.rulings with
  | none =>
    rw [hru] at hr
    simp only at hr
    obtain ⟨n, hn, -⟩ := surface_plain h hru
    obtain ⟨hn1, han, -⟩ := hp.normal n hn
    obtain ⟨hm, -⟩ := C01_surface h hru hn hn1 hp.before hp.after han
    refine ⟨v, 0, hv, by rw [hr]; exact hasDerivAt_const _ _, ?_, ?_⟩
    · rw [← Rigid.ivec_dot_ivec s.frame]; exact hm.unit
    · have := hm.along (htan n hn)
      rw [hdot, hdot] at this
      rw [this]
      simp [dot]
  | some ru =>
    rw [hru] at hr
    simp only at hr
    obtain ⟨n, hn, -⟩ := surface_ruled h hru
    obtain ⟨hn1, han, -⟩ := hp.normal n hn
    obtain ⟨d, g, hd, hd0, hg, hg1, hφ⟩ := hr n hn
    obtain ⟨hm, -⟩ := C06_surface h hru hn hd hd0 hg hg1 hn1 hp.before hp.after han
    refine ⟨v, _, hv, hφ, ?_, ?_⟩
    · rw [← Rigid.ivec_dot_ivec s.frame]; exact hm.unit
    · have := hm.along (htan n hn)
      rw [hdot, hdot] at this
      rw [this, smul_dot]
      ring

/-- How the optical length changes if both ends move, too. -/
theorem fermat_ends {ss : List Surface} {r out : Ray} (h : propagateSurfaces ss r = some out)
    {ps : List ((ℝ → V3) × (ℝ → ℝ))} (hps : Varied ss r ps) (hu : r.direction.dot r.direction = 1)
    {c : ℝ} (hc : 0 < c) {p e : ℝ → V3} {v w : V3} (hp : Moving p v) (h0 : p 0 = r.position)
    (he : Moving e w) (he0 : e 0 = out.position + c • out.direction) :
    HasDerivAt (fun t => opticalLength out.index (e t) (p t) (variedPath t ss r ps))
      (out.index * out.direction.dot w - r.index * r.direction.dot v) 0 := by
  induction ss generalizing r ps p v with
  | nil =>
    cases ps with
    | cons a ps => exact absurd hps (by simp [Varied])
    | nil =>
      rw [propagateSurfaces_nil, Option.some.injEq] at h
      subst h
      simp only [variedPath, opticalLength]
      have := (hp.len he hc hu (by rw [h0, he0])).const_mul r.index
      refine this.congr_deriv ?_
      simp [dot]; ring
  | cons s ss ih =>
    match ps, hps with
    | (q, φ) :: ps, hps =>
      obtain ⟨mid, hmid, hva, hrest⟩ := hps
      rw [propagateSurfaces_cons, hmid, Option.bind_some] at h
      obtain ⟨w', φ', hq, hφ, hu', heq⟩ := fermat_step hmid hva
      obtain ⟨t, ht, hpos⟩ := hva.forward
      have h1 := (hp.len hq ht hu (by rw [hva.starts, h0, hpos])).const_mul r.index
      have h2 := ih h hrest hu' hq hva.starts
      simp only [variedPath, hmid, opticalLength]
      refine ((h1.add hφ).add h2).congr_deriv ?_
      rw [heq]
      simp [dot]
      ring

/-- **C97**, Fermat's principle: the optical length of the path of a ray through a system does not change
to first order if the points where the ray is bent are moved along the surfaces, between a fixed point
before the system and a fixed point behind it. -/
theorem C97_system {ss : List Surface} {r out : Ray} (h : propagateSurfaces ss r = some out)
    {ps : List ((ℝ → V3) × (ℝ → ℝ))} (hps : Varied ss r ps) (hu : r.direction.dot r.direction = 1)
    {c : ℝ} (hc : 0 < c) :
    HasDerivAt (fun t => opticalLength out.index (out.position + c • out.direction) r.position
      (variedPath t ss r ps)) 0 0 := by
  have := fermat_ends h hps hu hc (Moving.const r.position) rfl (Moving.const _) rfl
  refine this.congr_deriv ?_
  simp [dot]

/-! ## The normals of the sags are perpendicular to all curves in them -/

/-- **C97** and **C09**: the normal of a plane. -/
theorem C97_flat_normal {q n : V3} (hn : flatSag.normal q = some n) :
    n.dot n = 1 ∧ PerpendicularTo (OnGraph flatSag.height) q n := by
  have hn' : some (⟨0, 0, -1⟩ : V3) = some n := hn
  rw [Option.some.injEq] at hn'
  subst hn'
  refine ⟨by simp [dot], fun x y z vx vy vz hS _ hx hy hz => ?_⟩
  have h0 : z = fun _ => 0 := by
    funext s
    have : some (0 : ℝ) = some (z s) := hS s
    rw [Option.some.injEq] at this
    exact this.symm
  rw [h0] at hz
  have := hz.unique (hasDerivAt_const _ _)
  simp [dot, this]

/-- A quadratic equation that holds along a curve, differentiated. -/
theorem quadric_tangent {x y z : ℝ → ℝ} {vx vy vz e a b : ℝ}
    (h : ∀ s, x s ^ 2 + e * y s ^ 2 + a * z s ^ 2 = b * z s)
    (hx : HasDerivAt x vx 0) (hy : HasDerivAt y vy 0) (hz : HasDerivAt z vz 0) :
    2 * x 0 * vx + 2 * e * y 0 * vy + 2 * a * z 0 * vz = b * vz := by
  have h1 := ((hx.pow 2).add ((hy.pow 2).const_mul e)).add ((hz.pow 2).const_mul a)
  have h2 := hz.const_mul b
  have he : (fun s => x s ^ 2 + e * y s ^ 2 + a * z s ^ 2) = fun s => b * z s := funext h
  have h1' : HasDerivAt (fun s => x s ^ 2 + e * y s ^ 2 + a * z s ^ 2) _ 0 := h1
  rw [he] at h1'
  have := h1'.unique h2
  simp at this
  linarith

/-- **C97** and **C09**: the normal of a conic surface. -/
theorem C97_conic_normal {R k : ℝ} {q n : V3} (hq : OnGraph (conicSag R k).height q)
    (hn : (conicSag R k).normal q = some n) :
    n.dot n = 1 ∧ PerpendicularTo (OnGraph (conicSag R k).height) q n := by
  obtain ⟨hR, hg, hne, hpos, κ, hκ, rfl, h1⟩ := conicNormal_eq hq hn
  refine ⟨h1, fun x y z vx vy vz hS h0 hx hy hz => ?_⟩
  have := quadric_tangent (e := 1) (a := 1 + k) (b := 2 * R) (fun s => by
    obtain ⟨-, h, -⟩ := onGraph_conic.1 (hS s)
    simp only at h
    field_simp at h
    linarith) hx hy hz
  rw [← h0]
  simp only [dot, smul_x, smul_y, smul_z]
  linear_combination κ / 2 * this

/-- **C97** and **C09**: the normal of a sphere. -/
theorem C97_sphere_normal {R : ℝ} {q n : V3} (hq : OnGraph (sphereSag R).height q)
    (hn : (sphereSag R).normal q = some n) :
    n.dot n = 1 ∧ PerpendicularTo (OnGraph (sphereSag R).height) q n := by
  obtain ⟨hR, rfl, h1, -⟩ := sphereNormal_eq hq hn
  refine ⟨h1, fun x y z vx vy vz hS h0 hx hy hz => ?_⟩
  have := quadric_tangent (e := 1) (a := 1) (b := 2 * R) (fun s => by
    obtain ⟨-, h, -⟩ := onGraph_sphere.1 (hS s)
    simp only at h
    linarith) hx hy hz
  rw [← h0]
  simp only [dot, smul_x, smul_y, smul_z, sub_x, sub_y, sub_z]
  linear_combination 1 / R / 2 * this

/-- **C97** and **C09**: the normal of a paraboloid. -/
theorem C97_parabola_normal {f : ℝ} {q n : V3} (hq : OnGraph (parabolaSag f).height q)
    (hn : (parabolaSag f).normal q = some n) :
    n.dot n = 1 ∧ PerpendicularTo (OnGraph (parabolaSag f).height) q n := by
  obtain ⟨hf, hg⟩ := onGraph_parabola.1 hq
  obtain ⟨n', k, hn', rfl, hk⟩ := parabolaNormal_eq hf q hq
  have hn2 : parabolaNormal f q = some n := hn
  rw [hn', Option.some.injEq] at hn2
  subst hn2
  refine ⟨?_, fun x y z vx vy vz hS h0 hx hy hz => ?_⟩
  · simp only [dot, smul_x, smul_y, smul_z]
    linear_combination k ^ 2 * hg + hk
  · have := quadric_tangent (e := 1) (a := 0) (b := 4 * f) (fun s => by
      obtain ⟨-, h⟩ := onGraph_parabola.1 (hS s)
      simp only at h
      linarith) hx hy hz
    rw [← h0]
    simp only [dot, smul_x, smul_y, smul_z]
    linear_combination k / 2 * this

/-- **C97** and **C09**: the normal of a cylinder. -/
theorem C97_cylinder_normal {R : ℝ} {q n : V3} (hq : OnGraph (cylinderSag R).height q)
    (hn : (cylinderSag R).normal q = some n) :
    n.dot n = 1 ∧ PerpendicularTo (OnGraph (cylinderSag R).height) q n := by
  obtain ⟨hR, hg, hle⟩ := onGraph_cylinder.1 hq
  have hq0 : ((R - q.z) / R) = Real.sqrt (1 - (q.x / R) ^ 2) := by
    rw [show 1 - (q.x / R) ^ 2 = ((R - q.z) / R) ^ 2 by field_simp; linarith, Real.sqrt_sq]
    have : 0 ≤ R * (R - q.z) := by nlinarith
    have h2 : (R - q.z) / R = R * (R - q.z) / R ^ 2 := by field_simp
    rw [h2]; positivity
  have hnn : n = ⟨q.x / R, 0, -((R - q.z) / R)⟩ := by
    have hn : cylinderNormal R q = some n := hn
    unfold cylinderNormal at hn
    rw [div?_of_ne hR] at hn
    simp only [Option.bind_eq_bind, Option.bind_some] at hn
    rw [sqrt?_of_nonneg (by
      rw [show 1 - (q.x / R) ^ 2 = ((R - q.z) / R) ^ 2 by field_simp; linarith]; positivity)] at hn
    simp only [Option.bind_some, Option.pure_def, Option.some.injEq] at hn
    rw [← hn, hq0]
  subst hnn
  refine ⟨?_, fun x y z vx vy vz hS h0 hx hy hz => ?_⟩
  · simp only [dot]
    field_simp
    linarith
  · have := quadric_tangent (e := 0) (a := 1) (b := 2 * R) (fun s => by
      obtain ⟨-, h, -⟩ := onGraph_cylinder.1 (hS s)
      simp only at h
      linarith) hx hy hz
    rw [← h0]
    simp only [dot]
    field_simp
    linarith

/-- A grating in vacuum with two wavelengths to a period, hit along its normal, whose first order leaves at
thirty degrees: the point where the ray is bent may be moved across the rulings. -/
example :
    let s : Surface := ⟨flatSag, vacuum, none, some (idealRulings 2 1), none⟩
    let r : Ray := ⟨1, ⟨0, 0, -1⟩, ⟨0, 0, 1⟩, 1, 0, 1, true⟩
    let out : Ray := ⟨1, ⟨0, 0, 0⟩, ⟨-(1 / 2), 0, Real.sqrt 3 / 2⟩, 1, 0, 1, true⟩
    propagateSurfaces [s] r = some out
      ∧ Varied [s] r [(fun t => ⟨t, 0, 0⟩, fun t => -(t / 2))] := by
  intro s r out
  have hb : ((rulingsIncidentEffective (some ((2 : ℝ) • (⟨1, 0, 0⟩ : V3))) 1 1 ⟨0, 0, 1⟩ 1
      ⟨0, 0, -1⟩).bind fun k => snellsLaw k 1 1 false ⟨0, 0, -1⟩)
      = some ⟨-(1 / 2), 0, Real.sqrt 3 / 2⟩ := by
    rw [ruled_iff (m := 1) (d := 2) false (by simp [dot]) (by simp [dot]) (by simp [dot]) one_pos
      one_pos two_ne_zero (by simp [dot])]
    have h3 : Real.sqrt 3 ^ 2 = 3 := Real.sq_sqrt (by norm_num)
    refine ⟨⟨?_, ?_⟩, ?_⟩
    · simp only [dot]; nlinarith
    · apply V3.ext <;> simp [tang, dot]
    · simp only [SameSide, dot]
      simp
      positivity
  have hsp : ∀ q u, (idealRulings 2 1).spacing q u = some ((2 : ℝ) • (⟨1, 0, 0⟩ : V3)) := fun q u => rfl
  obtain ⟨k, hk, hb⟩ := Option.bind_eq_some_iff.1 hb
  have ho : (idealRulings 2 1).order = 1 := rfl
  have hn : ∀ q, flatNormal q = some ⟨0, 0, -1⟩ := fun q => rfl
  have hprop : s.propagate r = some out := by
    simp [s, r, out, Surface.propagate, Surface.propagateLocal, Sag.propagate, flatSag, flatIntercept,
      div?, Surface.interact, Surface.effectiveRay, hsp, ho, hn, hk, hb, vacuum, Surface.rulingFactor,
      Surface.clip]
    simp [idealRulings]
  have hivec : ∀ v, s.frame.ivec v = v := fun v => by
    apply V3.ext <;> simp [s, dot, Surface.frame, Rigid.ivec, Rigid.id, M3.one, M3.mulVec, M3.transpose]
  refine ⟨?_, out, hprop, ⟨⟨1, one_pos, ?_⟩, one_pos, one_pos, rfl, fun t => ?_, fun n h => ?_,
    ⟨1, 0, 0⟩, ⟨hasDerivAt_id _, hasDerivAt_const _ _, hasDerivAt_const _ _⟩, fun n h => ?_⟩, trivial⟩
  · rw [propagateSurfaces_cons, hprop, Option.bind_some, propagateSurfaces_nil]
  · apply V3.ext <;> simp [r, out]
  · show some (0 : ℝ) = some (s.frame.ipoint ⟨t, 0, 0⟩).z
    simp [s, dot, Surface.frame, Rigid.ipoint, Rigid.id, M3.one, M3.mulVec, M3.transpose]
  · obtain ⟨h1, h2⟩ := C97_flat_normal h
    have hn' : some (⟨0, 0, -1⟩ : V3) = some n := h
    rw [Option.some.injEq] at hn'
    refine ⟨h1, ?_, h2⟩
    rw [← hn', hivec]
    simp [r, dot]
  · have hn' : some (⟨0, 0, -1⟩ : V3) = some n := h
    rw [Option.some.injEq] at hn'
    subst hn'
    refine ⟨2, ⟨1, 0, 0⟩, rfl, two_ne_zero, by simp [dot], by simp [dot], ?_⟩
    rw [hivec, hivec, ho]
    refine ((hasDerivAt_id (0 : ℝ)).div_const 2).neg.congr_deriv ?_
    simp [r, dot]

end Optika
