import Verif.Props.Fermat
import Mathlib.Analysis.Calculus.MeanValue
import Mathlib.Analysis.SpecialFunctions.Trigonometric.Deriv

/-!
# C99: wavefronts
-/

namespace Optika
open V3

/-! ## Specification -/

/-- A beam: for every `t` a ray `f t` that is traced to `out t`.  The points where the rays are bent and the
phases that rulings add there are `stages`; they move smoothly along the surfaces.  All rays of the beam have
the same index before each surface and behind the last one. -/
structure Beam (ss : List Surface) (f out : ℝ → Ray) (stages : List ((ℝ → V3) × (ℝ → ℝ))) : Prop where
  traced : ∀ t, propagateSurfaces ss (f t) = some (out t)
  unit : ∀ t, (f t).direction.dot (f t).direction = 1
  bent : ∀ t, Varied ss (f t) (stages.map fun s => (fun u => s.1 (t + u), fun u => s.2 (t + u)))
  indices : ∀ t u, variedPath u ss (f t) stages = variedPath u ss (f 0) stages
  index : ∀ t, (out t).index = (out 0).index

/-- The optical length along the ray number `t` of a beam, from its start to the point `e` behind the last
surface. -/
noncomputable def Beam.length (ss : List Surface) (f out : ℝ → Ray)
    (stages : List ((ℝ → V3) × (ℝ → ℝ))) (e : ℝ → V3) (t : ℝ) : ℝ :=
  opticalLength (out t).index (e t) (f t).position (variedPath t ss (f t) stages)

/-- A point that moves at all times. -/
def MovingAlways (p v : ℝ → V3) : Prop := ∀ t, Moving (fun u => p (t + u)) (v t)

/-! ## Theorems -/

theorem variedPath_shift (t u : ℝ) (ss : List Surface) (r : Ray) (stages : List ((ℝ → V3) × (ℝ → ℝ))) :
    variedPath u ss r (stages.map fun s => (fun u => s.1 (t + u), fun u => s.2 (t + u)))
      = variedPath (t + u) ss r stages := by
  induction ss generalizing r stages with
  | nil => simp [variedPath]
  | cons s ss ih =>
    cases stages with
    | nil => simp [variedPath]
    | cons a stages =>
      simp only [List.map_cons, variedPath]
      cases s.propagate r with
      | none => rfl
      | some mid => simp only [ih]

/-- **C99**, the optical length along a beam: its rate of change is that of the ends along the ray. -/
theorem C99_length {ss : List Surface} {f out : ℝ → Ray} {stages : List ((ℝ → V3) × (ℝ → ℝ))}
    (hb : Beam ss f out stages) {e v w : ℝ → V3} (hv : MovingAlways (fun t => (f t).position) v)
    (hw : MovingAlways e w)
    (behind : ∀ t, ∃ c : ℝ, 0 < c ∧ e t = (out t).position + c • (out t).direction) (t : ℝ) :
    HasDerivAt (Beam.length ss f out stages e)
      ((out t).index * (out t).direction.dot (w t) - (f t).index * (f t).direction.dot (v t)) t := by
  obtain ⟨c, hc, hec⟩ := behind t
  have h := fermat_ends (hb.traced t) (hb.bent t) (hb.unit t) hc (hv t) (by simp) (hw t)
    (by simpa using hec)
  have e1 : (fun u => opticalLength (out t).index (e (t + u)) (f (t + u)).position
      (variedPath u ss (f t) (stages.map fun s => (fun u => s.1 (t + u), fun u => s.2 (t + u)))))
      = fun u => Beam.length ss f out stages e (t + u) := by
    funext u
    rw [variedPath_shift]
    unfold Beam.length
    rw [hb.indices t, hb.indices (t + u), hb.index t, hb.index (t + u)]
  rw [e1] at h
  rw [show (0 : ℝ) = -t + t by ring] at h
  have h' := h.comp_const_add (-t) t
  simpa using h'

/-- **C99**, theorem of Malus and Dupin: if the rays of a beam start perpendicularly to the curve of their
starting points, then they are perpendicular to every curve behind the system that is reached after the same
optical length along all of them. -/
theorem C99_malus {ss : List Surface} {f out : ℝ → Ray} {stages : List ((ℝ → V3) × (ℝ → ℝ))}
    (hb : Beam ss f out stages) {e v w : ℝ → V3} (hv : MovingAlways (fun t => (f t).position) v)
    (hw : MovingAlways e w)
    (behind : ∀ t, ∃ c : ℝ, 0 < c ∧ e t = (out t).position + c • (out t).direction)
    (start : ∀ t, (f t).direction.dot (v t) = 0) (hn : ∀ t, (out t).index ≠ 0)
    (wavefront : ∀ t, Beam.length ss f out stages e t = Beam.length ss f out stages e 0) (t : ℝ) :
    (out t).direction.dot (w t) = 0 := by
  have h := C99_length hb hv hw behind t
  have h0 : Beam.length ss f out stages e = fun _ => Beam.length ss f out stages e 0 := funext wavefront
  rw [h0] at h
  have := h.unique (hasDerivAt_const _ _)
  rw [start t, mul_zero, sub_zero] at this
  exact (mul_eq_zero.1 this).resolve_left (hn t)

/-- **C99**, the converse: a curve that all rays cross perpendicularly is reached after the same optical
length along all of them. -/
theorem C99_converse {ss : List Surface} {f out : ℝ → Ray} {stages : List ((ℝ → V3) × (ℝ → ℝ))}
    (hb : Beam ss f out stages) {e v w : ℝ → V3} (hv : MovingAlways (fun t => (f t).position) v)
    (hw : MovingAlways e w)
    (behind : ∀ t, ∃ c : ℝ, 0 < c ∧ e t = (out t).position + c • (out t).direction)
    (start : ∀ t, (f t).direction.dot (v t) = 0) (stop : ∀ t, (out t).direction.dot (w t) = 0) (t : ℝ) :
    Beam.length ss f out stages e t = Beam.length ss f out stages e 0 := by
  have h : ∀ t, HasDerivAt (Beam.length ss f out stages e) 0 t := fun t =>
    (C99_length hb hv hw behind t).congr_deriv (by rw [start t, stop t]; ring)
  exact is_const_of_deriv_eq_zero (fun t => (h t).differentiableAt) (fun t => (h t).deriv) t 0

/-- **C99**, equal paths: between a point and its sharp image, all rays have the same optical length. -/
theorem C99_image {ss : List Surface} {f out : ℝ → Ray} {stages : List ((ℝ → V3) × (ℝ → ℝ))}
    (hb : Beam ss f out stages) {A B : V3} (source : ∀ t, (f t).position = A)
    (image : ∀ t, ∃ c : ℝ, 0 < c ∧ B = (out t).position + c • (out t).direction) (t : ℝ) :
    Beam.length ss f out stages (fun _ => B) t = Beam.length ss f out stages (fun _ => B) 0 := by
  refine C99_converse hb (e := fun _ => B) (v := fun _ => 0) (w := fun _ => 0) (fun t => ?_)
    (fun t => Moving.const B) image (fun t => by simp [dot]) (fun t => by simp [dot]) t
  simp only [source]
  exact Moving.const A

/-- **C99**, cosine theorem: if two beams connect the same moving object point with the same moving image
point, and have the same optical length to first order (as it is for object points that are imaged sharply,
`C99_image`), then `n' d' · w - n d · v` is the same for both. -/
theorem C99_cosine {ss : List Surface} {f out f' out' : ℝ → Ray}
    {stages stages' : List ((ℝ → V3) × (ℝ → ℝ))} (hb : Beam ss f out stages)
    (hb' : Beam ss f' out' stages') {a b v w : ℝ → V3} (hv : MovingAlways a v) (hw : MovingAlways b w)
    (object : ∀ t, (f t).position = a t ∧ (f' t).position = a t)
    (image : ∀ t, ∃ c : ℝ, 0 < c ∧ b t = (out t).position + c • (out t).direction)
    (image' : ∀ t, ∃ c : ℝ, 0 < c ∧ b t = (out' t).position + c • (out' t).direction)
    {t : ℝ} (sharp : HasDerivAt (fun u => Beam.length ss f out stages b u
      - Beam.length ss f' out' stages' b u) 0 t) :
    (out t).index * (out t).direction.dot (w t) - (f t).index * (f t).direction.dot (v t)
      = (out' t).index * (out' t).direction.dot (w t) - (f' t).index * (f' t).direction.dot (v t) := by
  have h := C99_length hb (v := v) (by simpa only [(object _).1] using hv) hw image t
  have h' := C99_length hb' (v := v) (by simpa only [(object _).2] using hv) hw image' t
  have := (h.sub h').unique sharp
  linarith

/-- **C99**, the sine condition of Abbe: a system that images a small object perpendicular to the axis
sharply, with the magnification `m`, satisfies `n sin θ = m n' sin θ'` for every ray, where the sines are the
components of the directions along the object. -/
theorem C99_abbe {ss : List Surface} {f out f' out' : ℝ → Ray}
    {stages stages' : List ((ℝ → V3) × (ℝ → ℝ))} (hb : Beam ss f out stages)
    (hb' : Beam ss f' out' stages') {a b v w : ℝ → V3} (hv : MovingAlways a v) (hw : MovingAlways b w)
    (object : ∀ t, (f t).position = a t ∧ (f' t).position = a t)
    (image : ∀ t, ∃ c : ℝ, 0 < c ∧ b t = (out t).position + c • (out t).direction)
    (image' : ∀ t, ∃ c : ℝ, 0 < c ∧ b t = (out' t).position + c • (out' t).direction)
    (sharp : HasDerivAt (fun u => Beam.length ss f out stages b u - Beam.length ss f' out' stages' b u) 0 0)
    {m : ℝ} (magnified : w 0 = m • v 0)
    (axis : (f' 0).direction.dot (v 0) = 0 ∧ (out' 0).direction.dot (v 0) = 0) :
    (f 0).index * (f 0).direction.dot (v 0) = m * ((out 0).index * (out 0).direction.dot (v 0)) := by
  have h := C99_cosine hb hb' hv hw object image image' sharp
  rw [magnified] at h
  simp only [dot_smul, axis.1, axis.2] at h
  linarith

/-! ## A beam -/

/-- The rays of a lamp in front of a plane mirror. -/
noncomputable def lampRay (t : ℝ) : Ray :=
  ⟨1, ⟨0, 0, -1⟩, (1 / Real.sqrt (1 + t ^ 2)) • ⟨t, 0, 1⟩, 1, 0, 1, true⟩

/-- What the mirror makes of them. -/
noncomputable def lampReflected (t : ℝ) : Ray :=
  ⟨1, ⟨t, 0, 0⟩, (1 / Real.sqrt (1 + t ^ 2)) • ⟨t, 0, -1⟩, 1, 0, 1, true⟩

theorem lamp_traced (t : ℝ) :
    (⟨flatSag, mirror, none, none, none⟩ : Surface).propagate (lampRay t) = some (lampReflected t) := by
  have h0 : 0 < Real.sqrt (1 + t ^ 2) := Real.sqrt_pos.2 (by positivity)
  have hs : snellsLaw ((1 / Real.sqrt (1 + t ^ 2)) • ⟨t, 0, 1⟩) 1 1 true ⟨0, 0, -1⟩
      = some ((1 / Real.sqrt (1 + t ^ 2)) • ⟨t, 0, -1⟩) := by
    have h2 := Real.sq_sqrt (show (0 : ℝ) ≤ 1 + t ^ 2 by positivity)
    rw [snellsLaw_iff true (by simp [dot]) one_pos one_pos (by simp [dot]; positivity)]
    refine ⟨⟨?_, ?_⟩, ?_⟩
    · simp only [dot, smul_x, smul_y, smul_z]; field_simp; rw [h2]; ring
    · apply V3.ext <;> simp [tang, dot]
    · simp only [if_true, OppositeSide, dot, smul_x, smul_y, smul_z]
      simp
      positivity
  have hi : flatIntercept ⟨0, 0, -1⟩ ((1 / Real.sqrt (1 + t ^ 2)) • ⟨t, 0, 1⟩) = some ⟨t, 0, 0⟩ := by
    unfold flatIntercept
    rw [div?_of_ne (by simp only [smul_z]; positivity)]
    simp only [Option.bind_eq_bind, Option.bind_some, Option.pure_def, Option.some.injEq]
    apply V3.ext
    · simp only [smul_x, smul_z]; field_simp; ring
    · simp
    · simp only [smul_z]; field_simp; ring
  rw [one_div] at hi hs
  simp [Surface.propagate, Surface.propagateLocal, Sag.propagate, flatSag, hi, Surface.interact, div?,
    Surface.effectiveRay, flatNormal, mirror, Surface.rulingFactor, Surface.clip, lampRay, lampReflected, hs]

theorem lamp_beam : Beam [⟨flatSag, mirror, none, none, none⟩] (fun t => lampRay (Real.sin t))
    (fun t => lampReflected (Real.sin t)) [(fun t => ⟨Real.sin t, 0, 0⟩, fun _ => 0)] where
  traced t := by rw [propagateSurfaces_cons, lamp_traced, Option.bind_some, propagateSurfaces_nil]
  unit t := by
    generalize Real.sin t = t
    have h2 := Real.sq_sqrt (show (0 : ℝ) ≤ 1 + t ^ 2 by positivity)
    have h0 : 0 < Real.sqrt (1 + t ^ 2) := Real.sqrt_pos.2 (by positivity)
    simp only [lampRay, dot, smul_x, smul_y, smul_z]; field_simp; rw [h2]; ring
  bent t := by
    have h0 : 0 < Real.sqrt (1 + Real.sin t ^ 2) := Real.sqrt_pos.2 (by positivity)
    have hivec : ∀ v, (⟨flatSag, mirror, none, none, none⟩ : Surface).frame.ivec v = v := fun v => by
      apply V3.ext <;> simp [dot, Surface.frame, Rigid.ivec, Rigid.id, M3.one, M3.mulVec, M3.transpose]
    refine ⟨_, lamp_traced _, ⟨⟨Real.sqrt (1 + Real.sin t ^ 2), h0, ?_⟩, one_pos, one_pos, ?_, fun u => ?_,
      fun n h => ?_, ⟨Real.cos t, 0, 0⟩, ⟨?_, ?_, ?_⟩, rfl⟩, trivial⟩
    · apply V3.ext
      · simp only [lampReflected, lampRay, add_x, smul_x]; field_simp; ring
      · simp [lampReflected, lampRay]
      · simp only [lampReflected, lampRay, add_z, smul_z]; field_simp; ring
    · simp [lampReflected]
    · show some (0 : ℝ) = some (Surface.frame _ |>.ipoint ⟨Real.sin (t + u), 0, 0⟩).z
      simp [dot, Surface.frame, Rigid.ipoint, Rigid.id, M3.one, M3.mulVec, M3.transpose]
    · obtain ⟨h1, h2⟩ := C97_flat_normal h
      have hn' : some (⟨0, 0, -1⟩ : V3) = some n := h
      rw [Option.some.injEq] at hn'
      refine ⟨h1, ?_, h2⟩
      rw [← hn', hivec]
      simp [lampRay, dot]
      positivity
    · have := (Real.hasDerivAt_sin (t + 0)).comp_const_add t 0
      simpa using this
    · exact hasDerivAt_const _ _
    · exact hasDerivAt_const _ _
  indices t u := by simp only [variedPath, lamp_traced]; rfl
  index t := rfl

/-- The light of the lamp seems to come from its image behind the mirror: along every ray it arrives at the
circle of radius three around the image after the same length. -/
example (t : ℝ) :
    let e : ℝ → V3 := fun t => ⟨0, 0, 1⟩ + (3 / Real.sqrt (1 + Real.sin t ^ 2) : ℝ) • ⟨Real.sin t, 0, -1⟩
    (∃ c : ℝ, 0 < c ∧ e t = (lampReflected (Real.sin t)).position
      + c • (lampReflected (Real.sin t)).direction) ∧
    Beam.length [⟨flatSag, mirror, none, none, none⟩] (fun t => lampRay (Real.sin t))
      (fun t => lampReflected (Real.sin t)) [(fun t => ⟨Real.sin t, 0, 0⟩, fun _ => 0)] e t = 3 := by
  intro e
  have h1 : Real.sin t ^ 2 ≤ 1 := Real.sin_sq_le_one t
  simp only [Beam.length, variedPath, lamp_traced, opticalLength, e]
  generalize Real.sin t = s at h1
  have h2 := Real.sq_sqrt (show (0 : ℝ) ≤ 1 + s ^ 2 by positivity)
  have h0 : 0 < Real.sqrt (1 + s ^ 2) := Real.sqrt_pos.2 (by positivity)
  have h3 : Real.sqrt (1 + s ^ 2) < 3 := by nlinarith
  have e0 : (⟨0, 0, 1⟩ : V3) + (3 / Real.sqrt (1 + s ^ 2) : ℝ) • ⟨s, 0, -1⟩ = (lampReflected s).position
      + (3 - Real.sqrt (1 + s ^ 2)) • (lampReflected s).direction := by
    apply V3.ext
    · simp only [lampReflected, add_x, smul_x]; field_simp; ring
    · simp [lampReflected]
    · simp only [lampReflected, add_z, smul_z]; field_simp; ring
  refine ⟨⟨_, sub_pos.2 h3, e0⟩, ?_⟩
  have e1 : ((⟨s, 0, 0⟩ : V3) - (lampRay s).position).len = Real.sqrt (1 + s ^ 2) := by
    simp only [lampRay, len, dot, sub_x, sub_y, sub_z]
    congr 1; ring
  have e2 : ((⟨0, 0, 1⟩ : V3) + (3 / Real.sqrt (1 + s ^ 2) : ℝ) • ⟨s, 0, -1⟩ - ⟨s, 0, 0⟩).len
      = 3 - Real.sqrt (1 + s ^ 2) := by
    rw [e0]
    simp only [lampReflected, len, dot, sub_x, sub_y, sub_z, add_x, add_y, add_z, smul_x, smul_y, smul_z]
    rw [← Real.sqrt_sq (sub_pos.2 h3).le]
    congr 1
    rw [Real.sqrt_sq (sub_pos.2 h3).le]
    field_simp; rw [h2]; ring
  rw [e1, e2]
  simp [lampRay, lampReflected]

/-! ## A concave mirror

Points beside its centre of curvature are imaged onto the opposite points by the rays that strike the mirror
halfway between. -/

/-- From the point `s` beside the centre to the mirror of radius one. -/
noncomputable def besideRay (η κ s : ℝ) : Ray :=
  ⟨1, ⟨s, 0, -1⟩, (1 / Real.sqrt (1 + s ^ 2)) • ⟨-s, η, κ⟩, 1, 0, 1, true⟩

/-- Back from the mirror. -/
noncomputable def besideReflected (η κ s : ℝ) : Ray :=
  ⟨1, ⟨0, η, κ - 1⟩, (1 / Real.sqrt (1 + s ^ 2)) • ⟨-s, -η, -κ⟩, 1, 0, 1, true⟩

theorem beside_graph {η κ : ℝ} (h : η ^ 2 + κ ^ 2 = 1) (hκ : 0 < κ) :
    OnGraph (sphereSag (-1)).height ⟨0, η, κ - 1⟩ :=
  onGraph_sphere.2 ⟨by norm_num, by simp only; linarith, by simp only; nlinarith⟩

theorem beside_normal {η κ : ℝ} (h : η ^ 2 + κ ^ 2 = 1) (hκ : 0 < κ) :
    sphereNormal (-1) ⟨0, η, κ - 1⟩ = some ⟨0, -η, -κ⟩ := by
  unfold sphereNormal
  rw [div?_of_ne (by norm_num)]
  simp only [Option.bind_eq_bind, Option.bind_some]
  have e : 1 - (1 / -1 * (0 : ℝ)) ^ 2 - (1 / -1 * η) ^ 2 = κ ^ 2 := by linarith
  rw [e, sqrt?_of_nonneg (sq_nonneg κ), Real.sqrt_sq hκ.le]
  simp

theorem beside_traced {η κ : ℝ} (h : η ^ 2 + κ ^ 2 = 1) (hκ : 0 < κ) (s : ℝ) :
    (⟨sphereSag (-1), mirror, none, none, none⟩ : Surface).propagate (besideRay η κ s)
      = some (besideReflected η κ s) := by
  have h0 : 0 < Real.sqrt (1 + s ^ 2) := Real.sqrt_pos.2 (by positivity)
  have h2 := Real.sq_sqrt (show (0 : ℝ) ≤ 1 + s ^ 2 by positivity)
  have hs : snellsLaw ((1 / Real.sqrt (1 + s ^ 2)) • ⟨-s, η, κ⟩) 1 1 true ⟨0, -η, -κ⟩
      = some ((1 / Real.sqrt (1 + s ^ 2)) • ⟨-s, -η, -κ⟩) := by
    have ha : ((1 / Real.sqrt (1 + s ^ 2)) • (⟨-s, η, κ⟩ : V3)).dot ⟨0, -η, -κ⟩
        = -(1 / Real.sqrt (1 + s ^ 2)) := by
      simp only [dot, smul_x, smul_y, smul_z]; linear_combination (-(1 / Real.sqrt (1 + s ^ 2))) * h
    rw [snellsLaw_iff true (by simp only [dot]; linarith) one_pos one_pos (by rw [ha]; simp; positivity)]
    refine ⟨⟨?_, ?_⟩, ?_⟩
    · simp only [dot, smul_x, smul_y, smul_z]; field_simp; rw [h2]; linarith
    · apply V3.ext <;>
        simp only [tang, dot, smul_x, smul_y, smul_z, sub_x, sub_y, sub_z, add_x, add_y, add_z, zero_x,
          zero_y, zero_z] <;> field_simp
      · ring
      · linear_combination 2 * η * h
      · linear_combination 2 * κ * h
    · simp only [if_true, OppositeSide]
      rw [ha]
      simp only [dot, smul_x, smul_y, smul_z]
      field_simp
      nlinarith
  have hi : sphereIntercept (-1) ⟨s, 0, -1⟩ ((1 / Real.sqrt (1 + s ^ 2)) • ⟨-s, η, κ⟩)
      = some ⟨0, η, κ - 1⟩ := by
    unfold sphereIntercept
    have hsg : sgn (-1 * ((1 / Real.sqrt (1 + s ^ 2)) • (⟨-s, η, κ⟩ : V3)).z) = -1 := by
      have : -1 * ((1 / Real.sqrt (1 + s ^ 2)) • (⟨-s, η, κ⟩ : V3)).z < 0 := by
        simp only [smul_z]
        have : 0 < 1 / Real.sqrt (1 + s ^ 2) * κ := by positivity
        linarith
      unfold sgn
      rw [if_pos this]
    have hb : (((1 / Real.sqrt (1 + s ^ 2)) • (⟨-s, η, κ⟩ : V3)).x * s
        + ((1 / Real.sqrt (1 + s ^ 2)) • (⟨-s, η, κ⟩ : V3)).y * 0
        + ((1 / Real.sqrt (1 + s ^ 2)) • (⟨-s, η, κ⟩ : V3)).z * (-1 - -1))
        = -(s ^ 2 / Real.sqrt (1 + s ^ 2)) := by
      simp only [smul_x, smul_y, smul_z]; ring
    simp only [hsg, hb]
    have hr : (-(s ^ 2 / Real.sqrt (1 + s ^ 2))) ^ 2 - (s ^ 2 + 0 ^ 2 + (-1 - -1 : ℝ) ^ 2 - (-1) ^ 2)
        = (1 / Real.sqrt (1 + s ^ 2)) ^ 2 := by
      field_simp; rw [h2]; ring
    rw [hr, sqrt?_of_nonneg (sq_nonneg _), Real.sqrt_sq (by positivity)]
    have ht : - -(s ^ 2 / Real.sqrt (1 + s ^ 2)) - -1 * (1 / Real.sqrt (1 + s ^ 2))
        = Real.sqrt (1 + s ^ 2) := by
      field_simp; rw [h2]; ring
    simp only [Option.bind_eq_bind, Option.bind_some, Option.pure_def, Option.some.injEq, ht]
    apply V3.ext
    · simp only [smul_x]; field_simp; ring
    · simp only [smul_y]; field_simp; ring
    · simp only [smul_z]; field_simp; ring
  have hn := beside_normal h hκ
  rw [one_div] at hi hs
  simp [Surface.propagate, Surface.propagateLocal, Sag.propagate, sphereSag, hi, Surface.interact, div?,
    Surface.effectiveRay, hn, mirror, Surface.rulingFactor, Surface.clip, besideRay, besideReflected, hs]

theorem beside_beam {η κ : ℝ} (h : η ^ 2 + κ ^ 2 = 1) (hκ : 0 < κ) :
    Beam [⟨sphereSag (-1), mirror, none, none, none⟩] (besideRay η κ) (besideReflected η κ)
      [(fun _ => ⟨0, η, κ - 1⟩, fun _ => 0)] where
  traced t := by rw [propagateSurfaces_cons, beside_traced h hκ, Option.bind_some, propagateSurfaces_nil]
  unit t := by
    have h2 := Real.sq_sqrt (show (0 : ℝ) ≤ 1 + t ^ 2 by positivity)
    have h0 : 0 < Real.sqrt (1 + t ^ 2) := Real.sqrt_pos.2 (by positivity)
    simp only [besideRay, dot, smul_x, smul_y, smul_z]; field_simp; rw [h2]; linarith
  bent t := by
    have h0 : 0 < Real.sqrt (1 + t ^ 2) := Real.sqrt_pos.2 (by positivity)
    have hivec : ∀ v, (⟨sphereSag (-1), mirror, none, none, none⟩ : Surface).frame.ivec v = v := fun v => by
      apply V3.ext <;> simp [dot, Surface.frame, Rigid.ivec, Rigid.id, M3.one, M3.mulVec, M3.transpose]
    have hipoint : ∀ v, (⟨sphereSag (-1), mirror, none, none, none⟩ : Surface).frame.ipoint v = v := fun v => by
      apply V3.ext <;> simp [dot, Surface.frame, Rigid.ipoint, Rigid.id, M3.one, M3.mulVec, M3.transpose]
    refine ⟨_, beside_traced h hκ t, ⟨⟨Real.sqrt (1 + t ^ 2), h0, ?_⟩, one_pos, one_pos, rfl, fun u => ?_,
      fun n hn => ?_, 0, Moving.const _, rfl⟩, trivial⟩
    · apply V3.ext
      · simp only [besideReflected, besideRay, add_x, smul_x]; field_simp; ring
      · simp only [besideReflected, besideRay, add_y, smul_y]; field_simp; ring
      · simp only [besideReflected, besideRay, add_z, smul_z]; field_simp; ring
    · show OnGraph _ (Surface.frame _ |>.ipoint _)
      rw [hipoint]; exact beside_graph h hκ
    · rw [hipoint] at hn ⊢
      obtain ⟨h1, h2⟩ := C97_sphere_normal (beside_graph h hκ) hn
      have hn' : sphereNormal (-1) ⟨0, η, κ - 1⟩ = some n := hn
      rw [beside_normal h hκ, Option.some.injEq] at hn'
      refine ⟨h1, ?_, h2⟩
      rw [← hn', hivec]
      have : (besideRay η κ t).direction.dot ⟨0, -η, -κ⟩ = -(1 / Real.sqrt (1 + t ^ 2)) := by
        simp only [besideRay, dot, smul_x, smul_y, smul_z]
        linear_combination (-(1 / Real.sqrt (1 + t ^ 2))) * h
      rw [this]
      simp
      positivity
  indices t u := by simp only [variedPath, beside_traced h hκ]; rfl
  index t := rfl

theorem beside_length {η κ : ℝ} (h : η ^ 2 + κ ^ 2 = 1) (hκ : 0 < κ) (t : ℝ) :
    Beam.length [⟨sphereSag (-1), mirror, none, none, none⟩] (besideRay η κ) (besideReflected η κ)
      [(fun _ => ⟨0, η, κ - 1⟩, fun _ => 0)] (fun t => ⟨-t, 0, -1⟩) t = 2 * Real.sqrt (1 + t ^ 2) := by
  simp only [Beam.length, variedPath, beside_traced h hκ, opticalLength]
  have e1 : ((⟨0, η, κ - 1⟩ : V3) - (besideRay η κ t).position).len = Real.sqrt (1 + t ^ 2) := by
    simp only [besideRay, len, dot, sub_x, sub_y, sub_z]
    congr 1; linear_combination h
  have e2 : ((⟨-t, 0, -1⟩ : V3) - ⟨0, η, κ - 1⟩).len = Real.sqrt (1 + t ^ 2) := by
    simp only [len, dot, sub_x, sub_y, sub_z]
    congr 1; linear_combination h
  rw [e1, e2]
  simp [besideRay, besideReflected]
  ring

/-- The hypotheses of the cosine theorem are met by this mirror, for any two rays. -/
example {η κ η' κ' : ℝ} (h : η ^ 2 + κ ^ 2 = 1) (hκ : 0 < κ) (h' : η' ^ 2 + κ' ^ 2 = 1) (hκ' : 0 < κ')
    (t : ℝ) :
    (besideReflected η κ t).index * (besideReflected η κ t).direction.dot ⟨-1, 0, 0⟩
        - (besideRay η κ t).index * (besideRay η κ t).direction.dot ⟨1, 0, 0⟩
      = (besideReflected η' κ' t).index * (besideReflected η' κ' t).direction.dot ⟨-1, 0, 0⟩
        - (besideRay η' κ' t).index * (besideRay η' κ' t).direction.dot ⟨1, 0, 0⟩ := by
  have image : ∀ {η κ : ℝ} (t : ℝ), ∃ c : ℝ, 0 < c ∧ (⟨-t, 0, -1⟩ : V3)
      = (besideReflected η κ t).position + c • (besideReflected η κ t).direction := by
    intro η κ t
    have h0 : 0 < Real.sqrt (1 + t ^ 2) := Real.sqrt_pos.2 (by positivity)
    refine ⟨Real.sqrt (1 + t ^ 2), h0, ?_⟩
    apply V3.ext
    · simp only [besideReflected, add_x, smul_x]; field_simp; ring
    · simp only [besideReflected, add_y, smul_y]; field_simp; ring
    · simp only [besideReflected, add_z, smul_z]; field_simp; ring
  refine C99_cosine (beside_beam h hκ) (beside_beam h' hκ') (a := fun t => ⟨t, 0, -1⟩)
    (b := fun t => ⟨-t, 0, -1⟩) (v := fun _ => ⟨1, 0, 0⟩) (w := fun _ => ⟨-1, 0, 0⟩)
    (fun t => ⟨?_, hasDerivAt_const _ _, hasDerivAt_const _ _⟩)
    (fun t => ⟨?_, hasDerivAt_const _ _, hasDerivAt_const _ _⟩) (fun t => ⟨rfl, rfl⟩) image image ?_
  · simpa using (hasDerivAt_id (0 : ℝ)).const_add t
  · exact ((hasDerivAt_id (0 : ℝ)).const_add t).neg
  · simp only [beside_length h hκ, beside_length h' hκ', sub_self]
    exact hasDerivAt_const _ _

end Optika
