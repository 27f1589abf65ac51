import Verif.Props.SurfaceOptics
import Verif.Props.Snell
import Mathlib.Tactic.LinearCombination
import Mathlib.LinearAlgebra.Matrix.NonsingularInverse
import Mathlib.LinearAlgebra.Matrix.Notation

/-!
# C91: trains of plane mirrors

A plane mirror images every point perfectly, by reflection in its plane; a train of plane mirrors
moves the whole space rigidly, and turns it inside out exactly if the number of mirrors is odd.
-/

namespace Optika
open V3

/-- Reflection of a direction in a plane with unit normal `n`. -/
noncomputable def reflectDirection (n v : V3) : V3 := v - (2 * v.dot n) • n

/-- Reflection of a point in the plane through `c` with unit normal `n`. -/
noncomputable def reflectPoint (c n p : V3) : V3 := p - (2 * (p - c).dot n) • n

/-- A plane surface that reflects: any ideal or coated mirror without rulings, with any aperture,
placed anywhere. -/
structure PlaneMirror (s : Surface) : Prop where
  flat : s.sag = flatSag
  mirror : s.material.isMirror = true
  index : ∀ r, s.material.index r = some r.index
  rulings : s.rulings = none

/-- The origin of a surface in the coordinates of the system. -/
noncomputable def mirrorVertex (s : Surface) : V3 := s.frame.point 0

/-- The axis of a surface in the coordinates of the system. -/
noncomputable def mirrorNormal (s : Surface) : V3 := s.frame.vec ⟨0, 0, 1⟩

/-- The image of a point in a train of mirrors. -/
noncomputable def imagePoint (ss : List Surface) (p : V3) : V3 :=
  ss.foldl (fun p s => reflectPoint (mirrorVertex s) (mirrorNormal s) p) p

/-- The image of a direction in a train of mirrors. -/
noncomputable def imageDirection (ss : List Surface) (v : V3) : V3 :=
  ss.foldl (fun v s => reflectDirection (mirrorNormal s) v) v

theorem mirrorNormal_unit (s : Surface) : (mirrorNormal s).dot (mirrorNormal s) = 1 := by
  unfold mirrorNormal
  rw [Rigid.vec_dot_vec]; simp [dot]

theorem reflectDirection_dot {n : V3} (hn : n.dot n = 1) (v w : V3) :
    (reflectDirection n v).dot (reflectDirection n w) = v.dot w := by
  have : (reflectDirection n v).dot (reflectDirection n w)
      = v.dot w - 4 * v.dot n * w.dot n + 4 * v.dot n * w.dot n * n.dot n := by
    simp only [reflectDirection, dot, sub_x, sub_y, sub_z, smul_x, smul_y, smul_z]; ring
  rw [this, hn]; ring

theorem reflectPoint_add (c n p v : V3) :
    reflectPoint c n (p + v) = reflectPoint c n p + reflectDirection n v := by
  simp only [reflectPoint, reflectDirection, dot]; vring

theorem reflectDirection_smul (n v : V3) (t : ℝ) :
    reflectDirection n (t • v) = t • reflectDirection n v := by
  simp only [reflectDirection, dot]; vring

theorem imagePoint_add (ss : List Surface) (p v : V3) :
    imagePoint ss (p + v) = imagePoint ss p + imageDirection ss v := by
  induction ss generalizing p v with
  | nil => rfl
  | cons s ss ih =>
    simp only [imagePoint, imageDirection, List.foldl_cons] at ih ⊢
    rw [reflectPoint_add, ih]

theorem imageDirection_smul (ss : List Surface) (v : V3) (t : ℝ) :
    imageDirection ss (t • v) = t • imageDirection ss v := by
  induction ss generalizing v with
  | nil => rfl
  | cons s ss ih =>
    simp only [imageDirection, List.foldl_cons] at ih ⊢
    rw [reflectDirection_smul, ih]

theorem imageDirection_dot (ss : List Surface) (v w : V3) :
    (imageDirection ss v).dot (imageDirection ss w) = v.dot w := by
  induction ss generalizing v w with
  | nil => rfl
  | cons s ss ih =>
    simp only [imageDirection, List.foldl_cons] at ih ⊢
    rw [ih, reflectDirection_dot (mirrorNormal_unit s)]

/-- One plane mirror. -/
theorem planeMirror_ray {s : Surface} (hs : PlaneMirror s) {r out : Ray}
    (hu : r.direction.dot r.direction = 1) (h : s.propagate r = some out) :
    out.direction = reflectDirection (mirrorNormal s) r.direction ∧ out.index = r.index ∧
      out.wavelength = r.wavelength ∧
      ∃ t : ℝ, out.position = reflectPoint (mirrorVertex s) (mirrorNormal s)
          (r.position + t • r.direction) ∧
        out.position = r.position + t • r.direction := by
  obtain ⟨n, hn, hsn⟩ := surface_plain h hs.rulings
  rw [hs.flat] at hn
  have hn' : n = ⟨0, 0, -1⟩ := by simpa [flatSag, flatNormal, eq_comm] using hn
  rw [Surface.propagate_eq] at h
  simp only [Option.map_eq_some_iff] at h
  obtain ⟨o, ho, rfl⟩ := h
  obtain ⟨q, normal, r1, n2, b, e1, e2, att, hq, -, heff, hp, hw, hi, ha, hv, hI, hn2, hn20, hr0,
    hb, he1, he2, hatt, ow, op, od, oI, oa, oi, -⟩ := propagateLocal_eq_some ho
  have hidx : n2 = r.index := by
    rw [hs.index, hi] at hn2
    simpa [Ray.unmove, eq_comm] using hn2
  set g := s.frame with hg
  have hd1 : (g.ivec r.direction).dot (g.ivec r.direction) = 1 := by
    rw [Rigid.ivec_dot_ivec]; exact hu
  have hr0' : r.index ≠ 0 := by simpa [Ray.unmove] using hr0
  have hout : (Ray.move g o).index = r.index := by simp [Ray.move, oi, hidx]
  rw [hs.mirror, hout, hn', C02_reflection hd1 hr0'] at hsn
  simp only [Option.some.injEq, Ray.move, Rigid.ivec_vec] at hsn
  -- the intercept
  rw [hs.flat] at hq
  have hq' : ∃ t : ℝ, q = g.ipoint r.position + t • g.ivec r.direction ∧ q.z = 0 := by
    simp only [flatSag, flatIntercept, Ray.unmove, Option.bind_eq_bind, Option.bind_eq_some_iff,
      div?_eq_some, Option.pure_def, Option.some.injEq] at hq
    obtain ⟨d, ⟨hz, rfl⟩, rfl⟩ := hq
    refine ⟨-(g.ipoint r.position).z / (g.ivec r.direction).z, ?_, ?_⟩
    · apply V3.ext <;> simp [mul_comm]
    · simp only; field_simp; ring
  obtain ⟨t, hqt, hqz⟩ := hq'
  have hpos : g.point o.position = r.position + t • r.direction := by
    rw [op, hqt]
    have : g.ipoint r.position + t • g.ivec r.direction
        = g.ipoint (r.position + t • r.direction) := by
      simp only [Rigid.ipoint, Rigid.ivec, M3.mulVec_sub, M3.mulVec_add, M3.mulVec_smul]; vring
    rw [this, g.point_ipoint]
  have hplane : (r.position + t • r.direction - g.point 0).dot (g.vec ⟨0, 0, 1⟩) = 0 := by
    rw [← hpos, op]
    have : g.point q - g.point 0 = g.vec q := by
      simp only [Rigid.point, Rigid.vec]
      apply V3.ext <;> simp [M3.mulVec, dot]
    rw [this, Rigid.vec_dot_vec]; simp [dot, hqz]
  refine ⟨?_, hout, ?_, t, ?_, hpos⟩
  · have : o.direction = g.ivec r.direction - (2 * (g.ivec r.direction).z) • ⟨0, 0, 1⟩ := by
      rw [← hsn]; apply V3.ext <;> simp [dot]
    simp only [Ray.move, reflectDirection, mirrorNormal]
    rw [this]
    have hz : (g.ivec r.direction).z = r.direction.dot (g.vec ⟨0, 0, 1⟩) := by
      rw [← Rigid.ivec_dot_ivec g r.direction, g.ivec_vec]; simp [dot]
    rw [hz]
    have e : ∀ c : ℝ, g.vec (g.ivec r.direction - c • ⟨0, 0, 1⟩)
        = r.direction - c • g.vec ⟨0, 0, 1⟩ := by
      intro c
      have h1 := g.vec_ivec r.direction
      simp only [Rigid.vec] at h1 ⊢
      rw [M3.mulVec_sub, M3.mulVec_smul, h1]
    rw [e]
  · simp only [Ray.move]
    rw [ow, hidx]
    simp [Ray.unmove, hr0']
  · simp only [Ray.move, reflectPoint, mirrorVertex, mirrorNormal]
    rw [← hg, hplane, hpos]
    simp
    apply V3.ext <;> simp

/-- **C91 (a train of mirrors).**  Through any number of plane mirrors a ray is moved by the
reflections in their planes, the same for every ray: its direction is the image of its direction,
and its position the image of a point of its line, at the signed path length `t`. -/
theorem C91_train {ss : List Surface} (hs : ∀ s ∈ ss, PlaneMirror s) {r out : Ray}
    (hu : r.direction.dot r.direction = 1) (h : propagateSurfaces ss r = some out) :
    out.direction = imageDirection ss r.direction ∧ out.index = r.index ∧
      out.wavelength = r.wavelength ∧
      ∃ t : ℝ, out.position = imagePoint ss (r.position + t • r.direction) := by
  induction ss generalizing r with
  | nil =>
    rw [propagateSurfaces_nil, Option.some.injEq] at h
    subst h
    exact ⟨rfl, rfl, rfl, 0, by simp only [imagePoint, List.foldl_nil]; vring⟩
  | cons s ss ih =>
    rw [propagateSurfaces_cons, Option.bind_eq_some_iff] at h
    obtain ⟨r1, h1, h2⟩ := h
    obtain ⟨hd, hi, hw, t, ht, -⟩ := planeMirror_ray (hs s (by simp)) hu h1
    have hu1 : r1.direction.dot r1.direction = 1 := by
      rw [hd, reflectDirection_dot (mirrorNormal_unit s)]; exact hu
    obtain ⟨hd2, hi2, hw2, t2, ht2⟩ := ih (fun x hx => hs x (by simp [hx])) hu1 h2
    refine ⟨?_, hi2.trans hi, hw2.trans hw, t + t2, ?_⟩
    · rw [hd2, hd]; rfl
    · rw [ht2, ht, hd]
      have : r.position + (t + t2) • r.direction
          = (r.position + t • r.direction) + t2 • r.direction := by vring
      rw [this]
      simp only [imagePoint, List.foldl_cons]
      rw [reflectPoint_add _ _ (r.position + t • r.direction), reflectDirection_smul]

/-- **C91 (perfect images).**  All rays from a point leave the mirrors on lines through one
point, the image of the point. -/
theorem C91_image {ss : List Surface} (hs : ∀ s ∈ ss, PlaneMirror s) {r out : Ray}
    (hu : r.direction.dot r.direction = 1) (h : propagateSurfaces ss r = some out) :
    ∃ t : ℝ, out.position = imagePoint ss r.position + t • out.direction := by
  obtain ⟨hd, -, -, t, ht⟩ := C91_train hs hu h
  exact ⟨t, by rw [ht, imagePoint_add, imageDirection_smul, hd]⟩

/-- **C91 (nothing is distorted).**  Distances between images are the distances between the
points, and angles between rays are preserved. -/
theorem C91_isometry (ss : List Surface) (p q : V3) :
    (imagePoint ss p - imagePoint ss q).len = (p - q).len := by
  have : imagePoint ss p = imagePoint ss q + imageDirection ss (p - q) := by
    rw [← imagePoint_add]; congr 1; vring
  have e : imagePoint ss p - imagePoint ss q = imageDirection ss (p - q) := by
    rw [this]; vring
  rw [e]; unfold len; rw [imageDirection_dot]

theorem C91_angles {ss : List Surface} (hs : ∀ s ∈ ss, PlaneMirror s) {r out r' out' : Ray}
    (hu : r.direction.dot r.direction = 1) (hu' : r'.direction.dot r'.direction = 1)
    (h : propagateSurfaces ss r = some out) (h' : propagateSurfaces ss r' = some out') :
    out.direction.dot out'.direction = r.direction.dot r'.direction := by
  rw [(C91_train hs hu h).1, (C91_train hs hu' h').1, imageDirection_dot]

/-- **C91 (handedness).**  Three rays keep their handedness through an even number of mirrors and
change it through an odd number. -/
theorem C91_parity {ss : List Surface} (hs : ∀ s ∈ ss, PlaneMirror s) {r out r' out' r'' out'' : Ray}
    (hu : r.direction.dot r.direction = 1) (hu' : r'.direction.dot r'.direction = 1)
    (hu'' : r''.direction.dot r''.direction = 1)
    (h : propagateSurfaces ss r = some out) (h' : propagateSurfaces ss r' = some out')
    (h'' : propagateSurfaces ss r'' = some out'') :
    out.direction.dot (out'.direction.cross out''.direction)
      = (-1) ^ ss.length * r.direction.dot (r'.direction.cross r''.direction) := by
  have key : ∀ a b c : V3, (imageDirection ss a).dot ((imageDirection ss b).cross
      (imageDirection ss c)) = (-1) ^ ss.length * a.dot (b.cross c) := by
    clear h h' h'' hs
    induction ss with
    | nil => intro a b c; simp [imageDirection]
    | cons s ss ih =>
      intro a b c
      simp only [imageDirection, List.foldl_cons, List.length_cons] at ih ⊢
      rw [ih]
      have hn := mirrorNormal_unit s
      set n := mirrorNormal s
      have : (reflectDirection n a).dot ((reflectDirection n b).cross (reflectDirection n c))
          = a.dot (b.cross c) - 2 * n.dot n * a.dot (b.cross c) := by
        simp only [reflectDirection, dot, cross, sub_x, sub_y, sub_z, smul_x, smul_y, smul_z]
        ring
      rw [this, hn, pow_succ]; ring
  rw [(C91_train hs hu h).1, (C91_train hs hu' h').1, (C91_train hs hu'' h'').1, key]

/-- **C91 (two mirrors).**  A ray in the plane of the normals of two mirrors is turned by twice
the angle between the mirrors, however they are struck: the cosine of the deviation is
`2 (n1 · n2)² - 1`. -/
theorem C91_two_mirrors {s1 s2 : Surface} (h1 : PlaneMirror s1) (h2 : PlaneMirror s2) {r out : Ray}
    (hu : r.direction.dot r.direction = 1) (h : propagateSurfaces [s1, s2] r = some out)
    (hp : r.direction.dot ((mirrorNormal s1).cross (mirrorNormal s2)) = 0) :
    out.direction.dot r.direction = 2 * ((mirrorNormal s1).dot (mirrorNormal s2)) ^ 2 - 1 := by
  have hs : ∀ s ∈ [s1, s2], PlaneMirror s := by
    intro s hs; simp at hs; rcases hs with rfl | rfl <;> assumption
  rw [(C91_train hs hu h).1]
  have hn1 := mirrorNormal_unit s1
  have hn2 := mirrorNormal_unit s2
  simp only [imageDirection, List.foldl_cons, List.foldl_nil]
  set n := mirrorNormal s1
  set m := mirrorNormal s2
  set d := r.direction
  have gram : (d.dot (n.cross m)) ^ 2
      = d.dot d * (n.dot n * m.dot m - (n.dot m) ^ 2)
        - d.dot n * (d.dot n * m.dot m - n.dot m * d.dot m)
        + d.dot m * (d.dot n * n.dot m - n.dot n * d.dot m) := by
    simp only [dot, cross]; ring
  have ex : (reflectDirection m (reflectDirection n d)).dot d
      = d.dot d - 2 * (d.dot n) ^ 2 - 2 * (d.dot m) ^ 2 + 4 * d.dot n * d.dot m * n.dot m := by
    simp only [reflectDirection, dot, sub_x, sub_y, sub_z, smul_x, smul_y, smul_z]; ring
  rw [hp, hu, hn1, hn2] at gram
  rw [ex, hu]
  linear_combination (-2) * gram

theorem orthonormal_complete {a b c : V3} (ha : a.dot a = 1) (hb : b.dot b = 1) (hc : c.dot c = 1)
    (hab : a.dot b = 0) (hac : a.dot c = 0) (hbc : b.dot c = 0) (v : V3) :
    v = v.dot a • a + v.dot b • b + v.dot c • c := by
  have hM : (!![a.x, a.y, a.z; b.x, b.y, b.z; c.x, c.y, c.z] : Matrix (Fin 3) (Fin 3) ℝ)
      * !![a.x, b.x, c.x; a.y, b.y, c.y; a.z, b.z, c.z] = 1 := by
    simp only [dot] at ha hb hc hab hac hbc
    ext i j
    fin_cases i <;> fin_cases j <;>
      simp [Matrix.mul_apply, Fin.sum_univ_three] <;> linarith
  have hM' := mul_eq_one_comm.1 hM
  have e : ∀ i j, (!![a.x, b.x, c.x; a.y, b.y, c.y; a.z, b.z, c.z]
      * !![a.x, a.y, a.z; b.x, b.y, b.z; c.x, c.y, c.z] : Matrix (Fin 3) (Fin 3) ℝ) i j
      = (1 : Matrix (Fin 3) (Fin 3) ℝ) i j := fun i j => by rw [hM']
  have e00 := e 0 0
  have e01 := e 0 1
  have e02 := e 0 2
  have e11 := e 1 1
  have e12 := e 1 2
  have e22 := e 2 2
  simp [Matrix.mul_apply, Fin.sum_univ_three] at e00 e01 e02 e11 e12 e22
  apply V3.ext <;> simp only [dot, add_x, add_y, add_z, smul_x, smul_y, smul_z]
  · linear_combination (-v.x) * e00 - v.y * e01 - v.z * e02
  · linear_combination (-v.x) * e01 - v.y * e11 - v.z * e12
  · linear_combination (-v.x) * e02 - v.y * e12 - v.z * e22

/-- **C91 (corner cube).**  Three mutually perpendicular mirrors send every ray back where it came
from, whatever its direction and the orientation of the cube. -/
theorem C91_corner_cube {s1 s2 s3 : Surface} (h1 : PlaneMirror s1) (h2 : PlaneMirror s2)
    (h3 : PlaneMirror s3) (h12 : (mirrorNormal s1).dot (mirrorNormal s2) = 0)
    (h13 : (mirrorNormal s1).dot (mirrorNormal s3) = 0)
    (h23 : (mirrorNormal s2).dot (mirrorNormal s3) = 0) {r out : Ray}
    (hu : r.direction.dot r.direction = 1) (h : propagateSurfaces [s1, s2, s3] r = some out) :
    out.direction = -r.direction := by
  have hs : ∀ s ∈ [s1, s2, s3], PlaneMirror s := by
    intro s hs; simp at hs; rcases hs with rfl | rfl | rfl <;> assumption
  rw [(C91_train hs hu h).1]
  simp only [imageDirection, List.foldl_cons, List.foldl_nil]
  have hc := orthonormal_complete (mirrorNormal_unit s1) (mirrorNormal_unit s2)
    (mirrorNormal_unit s3) h12 h13 h23 r.direction
  set a := mirrorNormal s1
  set b := mirrorNormal s2
  set c := mirrorNormal s3
  set d := r.direction
  have e1 : (reflectDirection a d).dot b = d.dot b := by
    have : (reflectDirection a d).dot b = d.dot b - 2 * d.dot a * a.dot b := by
      simp only [reflectDirection, dot, sub_x, sub_y, sub_z, smul_x, smul_y, smul_z]; ring
    rw [this, h12]; ring
  have e2 : (reflectDirection b (reflectDirection a d)).dot c = d.dot c := by
    have : (reflectDirection b (reflectDirection a d)).dot c
        = d.dot c - 2 * d.dot a * a.dot c - 2 * (reflectDirection a d).dot b * b.dot c := by
      simp only [reflectDirection, dot, sub_x, sub_y, sub_z, smul_x, smul_y, smul_z]; ring
    rw [this, h13, h23]; ring
  have e3 : reflectDirection c (reflectDirection b (reflectDirection a d))
      = d - (2 * d.dot a) • a - (2 * d.dot b) • b - (2 * d.dot c) • c := by
    rw [reflectDirection, e2, reflectDirection, e1, reflectDirection]
  rw [e3]
  have hx := congrArg V3.x hc
  have hy := congrArg V3.y hc
  have hz := congrArg V3.z hc
  simp only [add_x, add_y, add_z, smul_x, smul_y, smul_z] at hx hy hz
  apply V3.ext <;> simp only [sub_x, sub_y, sub_z, smul_x, smul_y, smul_z, neg_x, neg_y, neg_z] <;>
    linarith

/-- An ideal plane mirror with any aperture and frame. -/
theorem planeMirror_ideal (a : Option Aperture) (g : Option Rigid) :
    PlaneMirror ⟨flatSag, mirror, a, none, g⟩ := ⟨rfl, rfl, fun _ => rfl, rfl⟩

/-- A ray that strikes a mirror at the origin at an angle and returns. -/
example (r : Ray) (hp : r.position = ⟨0, 0, -1⟩) (hd : r.direction = ⟨3 / 5, 0, 4 / 5⟩)
    (hi : r.index = 1) :
    ∃ out, propagateSurfaces [⟨flatSag, mirror, none, none, none⟩] r = some out ∧
      out.direction = ⟨3 / 5, 0, -4 / 5⟩ := by
  have hu : r.direction.dot r.direction = 1 := by rw [hd]; norm_num [dot]
  have hn : r.index ≠ 0 := by rw [hi]; norm_num
  have hs : ∃ out, propagateSurfaces [⟨flatSag, mirror, none, none, none⟩] r = some out := by
    simp only [propagateSurfaces_cons, propagateSurfaces_nil, Surface.propagate,
      Surface.propagateLocal, Sag.propagate, flatSag, flatIntercept, hp, hd, Surface.interact,
      flatNormal, Surface.effectiveRay, mirror, hi, Surface.rulingFactor, Surface.clip]
    have hr := C02_reflection (a := ⟨3 / 5, 0, 4 / 5⟩) (u := ⟨0, 0, -1⟩) (n := 1)
      (by norm_num [dot]) one_ne_zero
    simp [div?, hr, propagateSurfaces_nil]
  obtain ⟨out, h⟩ := hs
  refine ⟨out, h, ?_⟩
  rw [(C91_train (by simp [planeMirror_ideal]) hu h).1, hd]
  simp only [imageDirection, List.foldl_cons, List.foldl_nil, reflectDirection, mirrorNormal,
    Surface.frame, Option.getD_none]
  have : Rigid.id.vec ⟨0, 0, 1⟩ = ⟨0, 0, 1⟩ := by
    apply V3.ext <;> simp [Rigid.vec, Rigid.id, M3.one, M3.mulVec, dot]
  rw [this]
  apply V3.ext <;> norm_num [dot]

end Optika
