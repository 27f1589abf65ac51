import Verif.Lemmas.Surface
import Verif.Lemmas.Snell
import Verif.Lemmas.Sags
import Verif.Props.Snell
import Mathlib.Algebra.BigOperators.Group.List.Basic

/-!
# C11 to C17: propagation of rays through surfaces
-/

namespace Optika
open V3

/-! ## C12: Beer–Lambert -/

/-- **C12**: propagation to a sag multiplies the intensity by `exp(-α d)` with `d` the distance
travelled, and changes nothing else but the position. -/
theorem C12_beer_lambert {s : Sag} {r out : Ray} (h : s.propagate r = some out) :
    out.intensity = Real.exp (-(r.attenuation * (out.position - r.position).len)) * r.intensity ∧
    s.intercept r.position r.direction = some out.position ∧
    out.direction = r.direction ∧ out.wavelength = r.wavelength ∧
    out.attenuation = r.attenuation ∧ out.index = r.index ∧ out.unvignetted = r.unvignetted := by
  unfold Sag.propagate at h
  simp only [Option.bind_eq_bind, Option.bind_eq_some_iff, Option.pure_def, Option.some.injEq] at h
  obtain ⟨q, hq, rfl⟩ := h
  simp only [neg_mul]
  exact ⟨trivial, hq, trivial, trivial, trivial, trivial, trivial⟩

/-- **C12**: with non-negative attenuation the intensity never increases, nor changes sign. -/
theorem C12_never_increases {s : Sag} {r out : Ray} (h : s.propagate r = some out)
    (hα : 0 ≤ r.attenuation) (hI : 0 ≤ r.intensity) :
    0 ≤ out.intensity ∧ out.intensity ≤ r.intensity := by
  rw [(C12_beer_lambert h).1]
  have h1 : Real.exp (-(r.attenuation * (out.position - r.position).len)) ≤ 1 := by
    rw [Real.exp_le_one_iff]
    have := mul_nonneg hα (len_nonneg (out.position - r.position))
    linarith
  have h2 := Real.exp_pos (-(r.attenuation * (out.position - r.position).len))
  exact ⟨by positivity, mul_le_of_le_one_left hI h1⟩

/-- **C12**: splitting the path at a surface between the starting point and the end point gives
the same ray. -/
theorem C12_split {s1 s2 : Sag} {r m out : Ray} (h1 : s1.propagate r = some m)
    (h2 : s2.propagate r = some out)
    (hbetween : ∃ a b : ℝ, 0 ≤ a ∧ 0 ≤ b ∧ m.position = r.position + a • r.direction ∧
      out.position = m.position + b • r.direction)
    (hsame : s2.intercept m.position r.direction = some out.position) :
    s2.propagate m = some out := by
  obtain ⟨i1, -, d1, w1, a1, n1, u1⟩ := C12_beer_lambert h1
  obtain ⟨i2, -, d2, w2, a2, n2, u2⟩ := C12_beer_lambert h2
  obtain ⟨a, b, ha, hb, hm, ho⟩ := hbetween
  have hlen : (out.position - r.position).len
      = (m.position - r.position).len + (out.position - m.position).len := by
    have e1 : m.position - r.position = a • r.direction := by rw [hm]; vring
    have e2 : out.position - m.position = b • r.direction := by rw [ho]; vring
    have e3 : out.position - r.position = (a + b) • r.direction := by rw [ho, hm]; vring
    rw [e1, e2, e3, len_smul, len_smul, len_smul, abs_of_nonneg ha, abs_of_nonneg hb,
      abs_of_nonneg (by positivity)]
    ring
  unfold Sag.propagate
  rw [d1, hsame]
  simp only [Option.bind_eq_bind, Option.bind_some, Option.pure_def, Option.some.injEq]
  have hi : Real.exp (-m.attenuation * (out.position - m.position).len) * m.intensity
      = out.intensity := by
    rw [i1, i2, a1, hlen, ← mul_assoc, ← Real.exp_add]
    congr 2
    ring
  rw [hi]
  cases out; cases m; simp_all

/-- **C12**, two planes: for planes at `z = z1` and `z = z2`, in the order met by the ray, the
ray propagated to the second directly or by way of the first is the same. -/
theorem C12_split_planes {r : Ray} {z1 z2 : ℝ} (hz : r.direction.z ≠ 0)
    (h1 : 0 ≤ (z1 - r.position.z) / r.direction.z) (h2 : 0 ≤ (z2 - z1) / r.direction.z) :
    let plane (z : ℝ) := flatSagWithTransformation (.translation ⟨0, 0, z⟩)
    ∃ out, (plane z2).propagate r = some out ∧
      ((plane z1).propagate r).bind (plane z2).propagate = some out := by
  intro plane
  have hint : ∀ (z : ℝ) (o u : V3), u.z ≠ 0 →
      (plane z).intercept o u = some (o + ((z - o.z) / u.z) • u) := by
    intro z o u hu
    have hi : (Rigid.translation ⟨0, 0, z⟩).ipoint o = ⟨o.x, o.y, o.z - z⟩ := by
      apply V3.ext <;> simp [Rigid.ipoint, Rigid.translation, Rigid.id, M3.one, M3.mulVec,
        M3.transpose, dot]
    have hv : (Rigid.translation ⟨0, 0, z⟩).ivec u = u := by
      apply V3.ext <;> simp [Rigid.ivec, Rigid.translation, Rigid.id, M3.one, M3.mulVec,
        M3.transpose, dot]
    have hp : ∀ v : V3, (Rigid.translation ⟨0, 0, z⟩).point v = ⟨v.x, v.y, v.z + z⟩ := by
      intro v
      apply V3.ext <;> simp [Rigid.point, Rigid.translation, Rigid.id, M3.one, M3.mulVec, dot]
    show (flatIntercept _ _).map _ = _
    rw [hi, hv]
    unfold flatIntercept
    rw [div?_of_ne hu]
    simp only [Option.bind_eq_bind, Option.bind_some, Option.pure_def, Option.map_some, hp,
      Option.some.injEq]
    ext <;> vsimp <;> field_simp <;> ring
  have hprop : ∀ z, (plane z).propagate r = some { r with
      position := r.position + ((z - r.position.z) / r.direction.z) • r.direction
      intensity := Real.exp (-r.attenuation * (r.position + ((z - r.position.z) / r.direction.z) •
        r.direction - r.position).len) * r.intensity } := by
    intro z
    unfold Sag.propagate
    rw [hint z _ _ hz]
    rfl
  refine ⟨_, hprop z2, ?_⟩
  rw [hprop z1, Option.bind_some]
  have hadd : ∀ (p d : V3) (a b : ℝ), p + a • d + b • d = p + (a + b) • d := by
    intro p d a b; vring
  refine C12_split (hprop z1) (hprop z2) ⟨_, _, h1, h2, rfl, ?_⟩ ?_
  · simp only
    rw [hadd]
    congr 2
    field_simp
    ring
  · simp only
    rw [hint z2 _ _ hz, hadd]
    congr 3
    vsimp
    field_simp
    ring

/-- Non-vacuity of `C12_split_planes` (a ray travelling towards negative `z`). -/
example : (0 : ℝ) ≤ ((-1) - 0) / (-1) ∧ (0 : ℝ) ≤ ((-3) - (-1)) / (-1) := by norm_num

/-- An intermediate surface that is *not* between the end points does change the intensity (the
ray is attenuated on the way out and on the way back). -/
theorem C12_not_between : ∃ (r out : Ray),
    (flatSagWithTransformation (.translation ⟨0, 0, 1⟩)).propagate r = some out ∧
    ∃ out', ((flatSagWithTransformation (.translation ⟨0, 0, 3⟩)).propagate r).bind
      (flatSagWithTransformation (.translation ⟨0, 0, 1⟩)).propagate = some out' ∧
    out'.position = out.position ∧ out'.intensity < out.intensity := by
  have hp : ∀ (z : ℝ) (v : V3), (Rigid.translation ⟨0, 0, z⟩).point v = ⟨v.x, v.y, v.z + z⟩ := by
    intro z v
    apply V3.ext <;> simp [Rigid.point, Rigid.translation, Rigid.id, M3.one, M3.mulVec, dot]
  have hi : ∀ (z : ℝ) (v : V3), (Rigid.translation ⟨0, 0, z⟩).ipoint v = ⟨v.x, v.y, v.z - z⟩ := by
    intro z v
    apply V3.ext <;> simp [Rigid.ipoint, Rigid.translation, Rigid.id, M3.one, M3.mulVec,
      M3.transpose, dot]
  have hv : ∀ (z : ℝ) (v : V3), (Rigid.translation ⟨0, 0, z⟩).ivec v = v := by
    intro z v
    apply V3.ext <;> simp [Rigid.ivec, Rigid.translation, Rigid.id, M3.one, M3.mulVec,
      M3.transpose, dot]
  have hint : ∀ (z w : ℝ), (flatSagWithTransformation (.translation ⟨0, 0, z⟩)).intercept
      ⟨0, 0, w⟩ ⟨0, 0, 1⟩ = some ⟨0, 0, z⟩ := by
    intro z w
    show (flatIntercept _ _).map _ = _
    rw [hi, hv]
    simp [flatIntercept, div?, hp]
  have hprop : ∀ (z w I : ℝ), (flatSagWithTransformation (.translation ⟨0, 0, z⟩)).propagate
      ⟨1, ⟨0, 0, w⟩, ⟨0, 0, 1⟩, I, 1, 1, true⟩
      = some ⟨1, ⟨0, 0, z⟩, ⟨0, 0, 1⟩, Real.exp (-|z - w|) * I, 1, 1, true⟩ := by
    intro z w I
    unfold Sag.propagate
    rw [hint]
    have : ((⟨0, 0, z⟩ : V3) - ⟨0, 0, w⟩).len = |z - w| := by
      rw [← Real.sqrt_sq_eq_abs]; unfold len; simp only [dot]; vsimp; congr 1; ring
    simp [this]
  refine ⟨⟨1, ⟨0, 0, 0⟩, ⟨0, 0, 1⟩, 1, 1, 1, true⟩, _, hprop _ _ _,
    ⟨1, ⟨0, 0, 1⟩, ⟨0, 0, 1⟩, Real.exp (-|1 - 3|) * (Real.exp (-|3 - 0|) * 1), 1, 1, true⟩,
    ?_, ?_, ?_⟩
  · rw [hprop, Option.bind_some, hprop]
  · rfl
  · simp only [mul_one]
    rw [← Real.exp_add]
    apply Real.exp_lt_exp.2
    norm_num

/-! ## C13: composition -/

/-- **C13**: propagation through a concatenation. -/
theorem C13_append {P R : Type} (step : P → R → R) (ps qs : List P) (r : R) :
    propagateRays step (.many (ps ++ qs)) r
      = propagateRays step (.many qs) (propagateRays step (.many ps) r) := by
  simp [propagateRays, Propagators.toList]

/-- **C13**: the empty sequence does nothing, and a lone propagator acts once. -/
theorem C13_lone {P R : Type} (step : P → R → R) (p : P) (r : R) :
    propagateRays step (.one p) r = step p r ∧
    propagateRays step (.many [p]) r = step p r ∧
    propagateRays step (.many ([] : List P)) r = r ∧
    accumulateRays step (.one p) r = some [step p r] :=
  ⟨rfl, rfl, rfl, rfl⟩

/-- **C13** for surfaces: no surface leaves the ray alone, one surface acts once, and behind a concatenation is the ray
that the second part makes of the ray behind the first part; a ray that is not finite behind the first part stays so. -/
theorem C13_surfaces (s : Surface) (ss ts : List Surface) (r : Ray) :
    propagateSurfaces [] r = some r ∧ propagateSurfaces [s] r = s.propagate r ∧
    (∀ r', propagateSurfaces ss r = some r' → propagateSurfaces (ss ++ ts) r = propagateSurfaces ts r') ∧
    (propagateSurfaces ss r = none → propagateSurfaces (ss ++ ts) r = none) := by
  refine ⟨rfl, ?_, fun r' h => ?_, fun h => ?_⟩
  · rw [propagateSurfaces_cons]
    cases s.propagate r <;> rfl
  · rw [propagateSurfaces_append, h]; rfl
  · rw [propagateSurfaces_append, h]; rfl

theorem accumulateLoop_eq {P R : Type} (step : P → R → R) (ps : List P) (r : R) (acc : List R) :
    ∃ rs, accumulateLoop step ps r acc = acc ++ rs ∧ rs.length = ps.length ∧
      ∀ k, k < ps.length → rs[k]? = some (propagateRays step (.many (ps.take (k + 1))) r) := by
  induction ps generalizing r acc with
  | nil => exact ⟨[], by simp [accumulateLoop], rfl, by simp⟩
  | cons p ps ih =>
    obtain ⟨rs, h1, h2, h3⟩ := ih (step p r) (acc ++ [step p r])
    refine ⟨step p r :: rs, by simp [accumulateLoop, h1], by simp [h2], ?_⟩
    intro k hk
    cases k with
    | zero => simp [propagateRays, Propagators.toList]
    | succ k =>
      have := h3 k (by simpa using hk)
      simpa [propagateRays, Propagators.toList] using this

/-- **C13**: `accumulate_rays` of a non-empty sequence has one entry per propagator, entry `k`
being the propagation through the first `k + 1` propagators; so the last is
`propagate_rays`.  The empty sequence is an error. -/
theorem C13_accumulate {P R : Type} (step : P → R → R) (ps : List P) (r : R) :
    (ps = [] → accumulateRays step (.many ps) r = none) ∧
    (ps ≠ [] → ∃ rs, accumulateRays step (.many ps) r = some rs ∧ rs.length = ps.length ∧
      (∀ k, k < ps.length → rs[k]? = some (propagateRays step (.many (ps.take (k + 1))) r)) ∧
      rs.getLast? = some (propagateRays step (.many ps) r)) := by
  constructor
  · rintro rfl; rfl
  · intro hne
    obtain ⟨rs, h1, h2, h3⟩ := accumulateLoop_eq step ps r []
    have hpos : 0 < ps.length := List.length_pos_iff.2 hne
    refine ⟨rs, ?_, h2, h3, ?_⟩
    · unfold accumulateRays
      rw [show (Propagators.many ps).toList = ps from rfl, h1, List.nil_append]
      cases rs with
      | nil => simp at h2; omega
      | cons a b => rfl
    · rw [List.getLast?_eq_getElem?, h2, h3 _ (by omega)]
      congr 3
      rw [Nat.sub_add_cancel hpos, List.take_length]

/-- Non-vacuity of `C13_accumulate`. -/
example : accumulateRays (fun (p : ℕ) (r : ℕ) => 10 * r + p) (.many [1, 2, 3]) 0
    = some [1, 12, 123] := rfl

/-! ## C14: vignetting -/

/-- A ray, given in global coordinates after the surface, lies inside the aperture of the
surface: apertures measured in units of length look at the position, dimensionless ones at the
direction, both in the coordinate system of the surface. -/
def InsideAperture (s : Surface) (r : Ray) : Prop :=
  ∀ a, s.aperture = some a →
    (a.unit = .length ∧ a.mask (s.frame.ipoint r.position) = true) ∨
    (a.unit = .dimensionless ∧ a.mask (s.frame.ivec r.direction) = true)

theorem unvignetted_local {s : Surface} {r out : Ray} (h : s.propagateLocal r = some out) :
    out.unvignetted = true ↔ r.unvignetted = true ∧ ∀ a, s.aperture = some a →
      (a.unit = .length ∧ a.mask out.position = true) ∨
      (a.unit = .dimensionless ∧ a.mask out.direction = true) := by
  obtain ⟨q, normal, r1, n2, b, e1, e2, att, -, -, -, hp, -, -, -, hv, -, -, -, -, -, -, -, -,
    -, ho2, ho3, -, -, -, hclip⟩ := propagateLocal_eq_some h
  unfold Surface.clip at hclip
  cases ha : s.aperture with
  | none =>
    rw [ha] at hclip
    simp only [Option.some.injEq] at hclip
    rw [← hclip]; simp [hv]
  | some a =>
    rw [ha] at hclip
    simp only [Aperture.clip] at hclip
    cases hu : a.unit with
    | length =>
      rw [hu] at hclip
      simp only [Option.some.injEq] at hclip
      rw [← hclip]; simp [hv, hp, hu]
    | dimensionless =>
      rw [hu] at hclip
      simp only [Option.some.injEq] at hclip
      rw [← hclip]; simp [hv, hu]
    | other => rw [hu] at hclip; simp at hclip

/-- **C14**, one surface. -/
theorem C14_one_surface {s : Surface} {r out : Ray} (h : s.propagate r = some out) :
    out.unvignetted = true ↔ r.unvignetted = true ∧ InsideAperture s out := by
  rw [Surface.propagate_eq] at h
  simp only [Option.map_eq_some_iff] at h
  obtain ⟨o, ho, rfl⟩ := h
  have := unvignetted_local ho
  simpa [Ray.move, Ray.unmove, InsideAperture] using this

/-- **C14**: after any sequence of surfaces the ray is unvignetted exactly when it was at the
start and lies inside the aperture of each surface at the moment it leaves that surface. -/
theorem C14_vignetting {ss : List Surface} {r out : Ray} (h : propagateSurfaces ss r = some out) :
    out.unvignetted = true ↔ r.unvignetted = true ∧
      ∀ k (hk : k < ss.length), ∃ rk, propagateSurfaces (ss.take (k + 1)) r = some rk ∧
        InsideAperture ss[k] rk := by
  induction ss generalizing r with
  | nil => simp only [propagateSurfaces_nil, Option.some.injEq] at h; subst h; simp
  | cons s ss ih =>
    rw [propagateSurfaces_cons] at h
    simp only [Option.bind_eq_some_iff] at h
    obtain ⟨r1, h1, h2⟩ := h
    rw [ih h2, C14_one_surface h1]
    constructor
    · rintro ⟨⟨h3, h4⟩, h5⟩
      refine ⟨h3, ?_⟩
      intro k hk
      cases k with
      | zero => exact ⟨r1, by simp [propagateSurfaces_cons, h1, propagateSurfaces_nil], h4⟩
      | succ k =>
        obtain ⟨rk, h6, h7⟩ := h5 k (by simpa using hk)
        exact ⟨rk, by simp [propagateSurfaces_cons, h1, h6], h7⟩
    · rintro ⟨h3, h4⟩
      refine ⟨⟨h3, ?_⟩, ?_⟩
      · obtain ⟨rk, h6, h7⟩ := h4 0 (by simp)
        simp [propagateSurfaces_cons, h1, propagateSurfaces_nil] at h6
        subst h6; exact h7
      · intro k hk
        obtain ⟨rk, h6, h7⟩ := h4 (k + 1) (by simpa using hk)
        refine ⟨rk, ?_, h7⟩
        simpa [propagateSurfaces_cons, h1] using h6

/-- **C14**: in particular a vignetted ray never becomes unvignetted again. -/
theorem C14_never_returns {ss : List Surface} {r out : Ray}
    (h : propagateSurfaces ss r = some out) (hr : r.unvignetted = false) :
    out.unvignetted = false := by
  by_contra hne
  have := ((C14_vignetting h).1 (by simpa using hne)).1
  rw [hr] at this
  exact absurd this (by simp)

/-- A plane that blocks everything, behind a plane without aperture: the hypotheses of C14, C15,
C16 and C17 are met, and the flag is indeed cleared by the second surface. -/
theorem C14_example :
    let open_ : Surface := ⟨flatSag, vacuum, none, none, none⟩
    let shut : Surface := ⟨flatSag, vacuum, some ⟨.length, fun _ => false⟩, none, none⟩
    propagateSurfaces [open_, shut] ⟨1, ⟨0, 0, -1⟩, ⟨0, 0, 1⟩, 1, 0, 1, true⟩
      = some ⟨1, ⟨0, 0, 0⟩, ⟨0, 0, 1⟩, 1, 0, 1, false⟩ := by
  intro open_ shut
  have hs : snellsLaw ⟨0, 0, 1⟩ 1 1 false ⟨0, 0, -1⟩ = some ⟨0, 0, 1⟩ := by
    rw [snellsLaw_iff (m := false) (by simp [dot]) (by norm_num) (by norm_num)
      (by simp [dot])]
    refine ⟨⟨by simp [dot], ?_⟩, by simp [SameSide, dot]⟩
    ext <;> simp [tang, dot]
  simp [open_, shut, propagateSurfaces_cons, propagateSurfaces_nil,
    Surface.propagate, Surface.propagateLocal, Sag.propagate, flatSag, flatIntercept, div?,
    Surface.interact, flatNormal, Surface.effectiveRay, Surface.rulingFactor, vacuum, hs,
    Surface.clip, Aperture.clip]

/-! ## C15: energy -/

/-- The efficiency of every part of a surface is between zero and one, and its material does
not amplify. -/
structure Passive (s : Surface) : Prop where
  material : ∀ r n e, s.material.efficiency r n = some e → 0 ≤ e ∧ e ≤ 1
  rulings : ∀ ru, s.rulings = some ru → ∀ r n e, ru.efficiency r n = some e → 0 ≤ e ∧ e ≤ 1
  attenuation : ∀ r a, 0 ≤ r.attenuation → s.material.attenuation r = some a → 0 ≤ a

/-- **C15**, one surface: the intensity is multiplied by the Beer–Lambert factor of the segment
travelled and by an efficiency `e₁ e₂`, the product of an efficiency of the material and of an
efficiency of the rulings (one if there are none) for a ray at the point of incidence. -/
theorem C15_one_surface {s : Surface} {r out : Ray} (h : s.propagate r = some out) :
    ∃ rin normal e1 e2, rin.position = s.frame.ipoint out.position ∧
      s.sag.normal rin.position = some normal ∧
      rin.wavelength = r.wavelength ∧ rin.index = r.index ∧
      (s.rulings = none → rin.direction = s.frame.ivec r.direction) ∧
      s.material.efficiency rin normal = some e1 ∧
      (s.rulings = none → e2 = 1) ∧
      (∀ ru, s.rulings = some ru → ru.efficiency rin normal = some e2) ∧
      s.material.attenuation rin = some out.attenuation ∧
      rin.attenuation = r.attenuation ∧
      out.intensity = r.intensity
        * Real.exp (-(r.attenuation * (out.position - r.position).len)) * (e1 * e2) := by
  rw [Surface.propagate_eq] at h
  simp only [Option.map_eq_some_iff] at h
  obtain ⟨o, ho, rfl⟩ := h
  obtain ⟨q, normal, r1, n2, b, e1, e2, att, hq, hn, heff, hp, hw, hi, ha, hv, hI, hn2, -, -, hb,
    he1, he2, hatt, ow, op, od, oI, oa, oi, -⟩ := propagateLocal_eq_some ho
  refine ⟨r1, normal, e1, e2, ?_, ?_, ?_, ?_, ?_, he1, ?_, ?_, ?_, ?_, ?_⟩
  · simp [Ray.move, hp, op]
  · rw [hp]; exact hn
  · rw [hw]; rfl
  · rw [hi]; rfl
  · intro hru
    unfold Surface.effectiveRay at heff
    rw [hru] at heff
    simp only [Option.some.injEq] at heff
    rw [← heff]; rfl
  · intro hru
    unfold Surface.rulingFactor at he2
    rw [hru] at he2
    simpa using he2.symm
  · intro ru hru
    unfold Surface.rulingFactor at he2
    rw [hru] at he2
    exact he2
  · rw [hatt]; simp [Ray.move, oa]
  · rw [ha]; rfl
  · have hlen : (q - (r.unmove s.frame).position).len
        = ((o.move s.frame).position - r.position).len := by
      have : (o.move s.frame).position - r.position
          = s.frame.vec (q - (r.unmove s.frame).position) := by
        rw [← Rigid.point_sub_point]
        simp [Ray.move, Ray.unmove, op]
      rw [this, Rigid.vec_len]
    rw [hlen] at hI
    show o.intensity = _
    rw [oI, hI]
    simp only [Ray.unmove, neg_mul]
    ring

/-- **C15**: passive surfaces never create energy. -/
theorem C15_no_energy_created {ss : List Surface} {r out : Ray}
    (h : propagateSurfaces ss r = some out) (hp : ∀ s ∈ ss, Passive s)
    (hα : 0 ≤ r.attenuation) (hI : 0 ≤ r.intensity) :
    0 ≤ out.intensity ∧ out.intensity ≤ r.intensity ∧ 0 ≤ out.attenuation := by
  induction ss generalizing r with
  | nil =>
    simp only [propagateSurfaces_nil, Option.some.injEq] at h; subst h
    exact ⟨hI, le_refl _, hα⟩
  | cons s ss ih =>
    rw [propagateSurfaces_cons] at h
    simp only [Option.bind_eq_some_iff] at h
    obtain ⟨r1, h1, h2⟩ := h
    obtain ⟨rin, normal, e1, e2, -, -, -, -, -, he1, he2, he2', hatt, hatt', hout⟩ :=
      C15_one_surface h1
    have hs := hp s (by simp)
    have b1 := hs.material _ _ _ he1
    have b2 : 0 ≤ e2 ∧ e2 ≤ 1 := by
      cases hru : s.rulings with
      | none => rw [he2 hru]; norm_num
      | some ru => exact hs.rulings ru hru _ _ _ (he2' ru hru)
    have b3 := hs.attenuation _ _ (by rw [hatt']; exact hα) hatt
    have hx : Real.exp (-(r.attenuation * (r1.position - r.position).len)) ≤ 1 := by
      rw [Real.exp_le_one_iff]
      have := mul_nonneg hα (len_nonneg (r1.position - r.position))
      linarith
    have hx0 := Real.exp_pos (-(r.attenuation * (r1.position - r.position).len))
    generalize Real.exp (-(r.attenuation * (r1.position - r.position).len)) = x at *
    have hee : e1 * e2 ≤ 1 := mul_le_one₀ b1.2 b2.1 b2.2
    have hee0 : 0 ≤ e1 * e2 := mul_nonneg b1.1 b2.1
    have hI1 : 0 ≤ r1.intensity := by rw [hout]; positivity
    have hI2 : r1.intensity ≤ r.intensity := by
      rw [hout, mul_assoc]
      exact mul_le_of_le_one_right hI (mul_le_one₀ hx hee0 hee)
    obtain ⟨c1, c2, c3⟩ := ih h2 (fun s hs => hp s (by simp [hs])) b3 hI1
    exact ⟨c1, c2.trans hI2, c3⟩

/-- The factor by which an ideal (efficiency one) segment multiplies the intensity. -/
noncomputable def segmentFactor (before after : Ray) : ℝ :=
  Real.exp (-(before.attenuation * (after.position - before.position).len))

/-- **C15**: through a sequence of surfaces the intensity is the initial one times the product,
over the surfaces, of the attenuation factor of the segment before the surface and the
efficiency of the surface. -/
theorem C15_product {ss : List Surface} {r out : Ray} (h : propagateSurfaces ss r = some out) :
    ∃ (rays : List Ray) (effs : List ℝ),
      rays.length = ss.length ∧ effs.length = ss.length ∧
      (∀ k, k < ss.length → propagateSurfaces (ss.take (k + 1)) r = rays[k]?) ∧
      (∀ k (hk : k < ss.length), ∃ rin normal e1 e2, effs[k]? = some (e1 * e2) ∧
        ss[k].material.efficiency rin normal = some e1 ∧
        (ss[k].rulings = none → e2 = 1) ∧
        (∀ ru, ss[k].rulings = some ru → ru.efficiency rin normal = some e2)) ∧
      out.intensity = r.intensity * (List.zipWith segmentFactor (r :: rays) rays).prod
        * effs.prod := by
  induction ss generalizing r with
  | nil =>
    simp only [propagateSurfaces_nil, Option.some.injEq] at h; subst h
    exact ⟨[], [], rfl, rfl, by simp, by simp, by simp⟩
  | cons s ss ih =>
    rw [propagateSurfaces_cons] at h
    simp only [Option.bind_eq_some_iff] at h
    obtain ⟨r1, h1, h2⟩ := h
    obtain ⟨rin, normal, e1, e2, -, -, -, -, -, he1, he2, he2', hatt, hatt', hout⟩ :=
      C15_one_surface h1
    obtain ⟨rays, effs, l1, l2, hr, he, hprod⟩ := ih h2
    refine ⟨r1 :: rays, (e1 * e2) :: effs, by simp [l1], by simp [l2], ?_, ?_, ?_⟩
    · intro k hk
      cases k with
      | zero => simp [propagateSurfaces_cons, h1, propagateSurfaces_nil]
      | succ k =>
        simpa [propagateSurfaces_cons, h1] using hr k (by simpa using hk)
    · intro k hk
      cases k with
      | zero => exact ⟨rin, normal, e1, e2, by simp, he1, he2, he2'⟩
      | succ k => simpa using he k (by simpa using hk)
    · rw [hprod, hout]
      simp only [List.zipWith_cons_cons, List.prod_cons, segmentFactor]
      ring

/-- Vacuum, mirrors and ideal rulings are passive. -/
theorem C15_passive_ideal (sag : Sag) (ap : Option Aperture) (tr : Option Rigid) (d m : ℝ) :
    Passive ⟨sag, vacuum, ap, none, tr⟩ ∧ Passive ⟨sag, mirror, ap, none, tr⟩ ∧
    Passive ⟨sag, mirror, ap, some (idealRulings d m), tr⟩ := by
  refine ⟨⟨?_, ?_, ?_⟩, ⟨?_, ?_, ?_⟩, ⟨?_, ?_, ?_⟩⟩ <;>
    simp +contextual [vacuum, mirror, idealRulings, eq_comm]

/-! ## C16: coordinate frames -/

/-- The surface moved by a rigid motion: `g @ transformation`. -/
def Surface.moved (g : Rigid) (s : Surface) : Surface :=
  { s with transformation := some (g.comp s.frame) }

/-- **C16**: moving every surface and the incoming ray by the same rigid motion moves the
outgoing ray by that motion, and leaves the scalar properties unchanged (`Ray.move` changes only
position and direction). -/
theorem C16_rigid (g : Rigid) (ss : List Surface) (r : Ray) :
    propagateSurfaces (ss.map (Surface.moved g)) (r.move g)
      = (propagateSurfaces ss r).map (Ray.move g) := by
  induction ss generalizing r with
  | nil => rfl
  | cons s ss ih =>
    have key : (s.moved g).propagate (r.move g) = (s.propagate r).map (Ray.move g) := by
      rw [Surface.propagate_eq, Surface.propagate_eq]
      have hf : (s.moved g).frame = g.comp s.frame := rfl
      have hl : (s.moved g).propagateLocal = s.propagateLocal := rfl
      rw [hf, hl, Ray.unmove_comp, Ray.unmove_move, Option.map_map]
      congr 1
      funext o
      exact Ray.move_comp _ _ _
    rw [List.map_cons, propagateSurfaces_cons, propagateSurfaces_cons, key]
    cases s.propagate r with
    | none => rfl
    | some r' => simpa using ih r'

/-- **C16**: scalar properties and lengths under a rigid motion, and a translation does not
change directions. -/
theorem C16_move (g : Rigid) (r : Ray) (t : V3) :
    (r.move g).wavelength = r.wavelength ∧ (r.move g).intensity = r.intensity ∧
    (r.move g).index = r.index ∧ (r.move g).unvignetted = r.unvignetted ∧
    (r.move g).direction.len = r.direction.len ∧
    (r.move (.translation t)).direction = r.direction ∧
    (r.move (.translation t)).position = r.position + t := by
  refine ⟨rfl, rfl, rfl, rfl, Rigid.vec_len _ _, Rigid.id_vec _, ?_⟩
  apply V3.ext <;> simp [Ray.move, Rigid.point, Rigid.translation, Rigid.id, M3.one, M3.mulVec, dot]

/-! ## C17: wavelength -/

/-- **C17** (partial): what the code conserves is the *quotient* of wavelength and index; so a
ray that comes back to a medium of its initial index gets its wavelength back. -/
theorem C17_quotient_partial {ss : List Surface} {r out : Ray} (hr : r.index ≠ 0)
    (h : propagateSurfaces ss r = some out) :
    out.wavelength / out.index = r.wavelength / r.index ∧
      (out.index = r.index → out.wavelength = r.wavelength) := by
  have key : out.index ≠ 0 ∧ out.wavelength / out.index = r.wavelength / r.index := by
    induction ss generalizing r with
    | nil => simp only [propagateSurfaces_nil, Option.some.injEq] at h; subst h; exact ⟨hr, rfl⟩
    | cons s ss ih =>
      rw [propagateSurfaces_cons] at h
      simp only [Option.bind_eq_some_iff] at h
      obtain ⟨r1, h1, h2⟩ := h
      rw [Surface.propagate_eq] at h1
      simp only [Option.map_eq_some_iff] at h1
      obtain ⟨o, ho, rfl⟩ := h1
      obtain ⟨q, normal, r1, n2, b, e1, e2, att, -, -, -, -, -, -, -, -, -, -, hn2, -, -, -, -, -,
        ow, -, -, -, -, oi, -⟩ := propagateLocal_eq_some ho
      have h0 : (o.move s.frame).index ≠ 0 := by show o.index ≠ 0; rw [oi]; exact hn2
      obtain ⟨i1, i2⟩ := ih h0 h2
      refine ⟨i1, ?_⟩
      rw [i2]
      show o.wavelength / o.index = _
      rw [ow, oi]
      show (r.wavelength * n2 / r.index) / n2 = _
      field_simp
  refine ⟨key.2, ?_⟩
  intro heq
  have := key.2
  rw [heq] at this
  field_simp at this
  exact this

/-- Disagreement with C17: entering glass of index 3/2 at normal incidence, the wavelength grows
from 1 to 3/2 instead of shrinking to 2/3: `index * wavelength` is not conserved. -/
theorem C17_frequency_counterexample :
    let glass : Material := ⟨fun _ => some (3 / 2), fun _ => some 0, fun _ _ => some 1, false⟩
    let s : Surface := ⟨flatSag, glass, none, none, none⟩
    ∃ out, s.propagate ⟨1, ⟨0, 0, -1⟩, ⟨0, 0, 1⟩, 1, 0, 1, true⟩ = some out ∧
      out.index = 3 / 2 ∧ out.wavelength = 3 / 2 ∧ out.index * out.wavelength ≠ 1 * 1 := by
  intro glass s
  have hs : snellsLaw ⟨0, 0, 1⟩ 1 (3 / 2) false ⟨0, 0, -1⟩ = some ⟨0, 0, 1⟩ := by
    rw [snellsLaw_iff (m := false) (by simp [dot]) (by norm_num) (by norm_num)
      (by simp [dot])]
    refine ⟨⟨by simp [dot], ?_⟩, by simp [SameSide, dot]⟩
    ext <;> simp [tang, dot]
  refine ⟨⟨3 / 2, ⟨0, 0, 0⟩, ⟨0, 0, 1⟩, 1, 0, 3 / 2, true⟩, ?_, rfl, rfl, by norm_num⟩
  simp [s, Surface.propagate, Surface.propagateLocal, Sag.propagate, flatSag, flatIntercept, div?,
    Surface.interact, flatNormal, Surface.effectiveRay, Surface.rulingFactor, glass, hs,
    Surface.clip]

end Optika
