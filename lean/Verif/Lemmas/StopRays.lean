import Verif.Model.StopRays
import Verif.Lemmas.Surface
import Verif.Lemmas.Snell

/-!
# Lemmas about the rays that connect the stops
-/

namespace Optika
open V3

/-! ## The flag of vignetting -/

/-- The ray without its flag of vignetting. -/
def Ray.plain (r : Ray) : Ray := { r with unvignetted := true }

/-- The properties of a surface do not depend on whether the ray has been vignetted. -/
structure FlagBlind (s : Surface) : Prop where
  index : ∀ r : Ray, s.material.index r.plain = s.material.index r
  attenuation : ∀ r : Ray, s.material.attenuation r.plain = s.material.attenuation r
  efficiency : ∀ (r : Ray) n, s.material.efficiency r.plain n = s.material.efficiency r n
  rulings : ∀ ru, s.rulings = some ru → ∀ (r : Ray) n, ru.efficiency r.plain n = ru.efficiency r n

theorem clip_plain (s : Surface) (r : Ray) :
    (s.clip r.plain).map Ray.plain = (s.clip r).map Ray.plain := by
  unfold Surface.clip
  cases s.aperture with
  | none => rfl
  | some ap =>
    unfold Aperture.clip
    dsimp only
    cases ap.unit <;> rfl

theorem effectiveRay_plain (s : Surface) (r : Ray) (n : V3) :
    s.effectiveRay r.plain n = (s.effectiveRay r n).map Ray.plain := by
  unfold Surface.effectiveRay
  cases s.rulings with
  | none => rfl
  | some ru =>
    simp only [Ray.plain, Option.map_map]
    rfl

theorem interact_plain {s : Surface} (hs : FlagBlind s) (r : Ray) :
    s.interact r.plain = (s.interact r).map Ray.plain := by
  have hp : r.plain.position = r.position := rfl
  unfold Surface.interact
  rw [hp]
  cases s.sag.normal r.position with
  | none => rfl
  | some n =>
    simp only [Option.bind_eq_bind, Option.bind_some]
    rw [effectiveRay_plain]
    cases s.effectiveRay r n with
    | none => rfl
    | some r1 =>
      simp only [Option.map_some, Option.bind_some]
      have h4 : s.rulingFactor r1.plain n = s.rulingFactor r1 n := by
        unfold Surface.rulingFactor
        cases h : s.rulings with
        | none => rfl
        | some ru => exact hs.rulings ru h _ _
      rw [hs.index, hs.attenuation, hs.efficiency, h4]
      have h5 : r1.plain.index = r1.index := rfl
      have h6 : r1.plain.wavelength = r1.wavelength := rfl
      have h7 : r1.plain.direction = r1.direction := rfl
      rw [h5, h6, h7]
      cases s.material.index r1 with
      | none => rfl
      | some n2 =>
        simp only [Option.bind_some]
        cases div? r1.index n2 with
        | none => rfl
        | some ratio =>
          simp only [Option.bind_some]
          cases div? r1.wavelength ratio with
          | none => rfl
          | some w2 =>
            simp only [Option.bind_some]
            cases snellsLaw r1.direction r1.index n2 s.material.isMirror n with
            | none => rfl
            | some b =>
              simp only [Option.bind_some]
              cases s.material.efficiency r1 n with
              | none => rfl
              | some e1 =>
                simp only [Option.bind_some]
                cases s.rulingFactor r1 n with
                | none => rfl
                | some e2 =>
                  simp only [Option.bind_some]
                  cases s.material.attenuation r1 with
                  | none => rfl
                  | some att => rfl

theorem propagateLocal_plain {s : Surface} (hs : FlagBlind s) (r : Ray) :
    (s.propagateLocal r.plain).map Ray.plain = (s.propagateLocal r).map Ray.plain := by
  have h0 : s.sag.propagate r.plain = (s.sag.propagate r).map Ray.plain := by
    unfold Sag.propagate
    have h1 : r.plain.position = r.position := rfl
    have h2 : r.plain.direction = r.direction := rfl
    rw [h1, h2]
    cases s.sag.intercept r.position r.direction <;> rfl
  unfold Surface.propagateLocal
  rw [h0]
  cases s.sag.propagate r with
  | none => rfl
  | some r0 =>
    simp only [Option.map_some, Option.bind_eq_bind, Option.bind_some]
    rw [interact_plain hs]
    cases s.interact r0 with
    | none => rfl
    | some r2 => simp only [Option.map_some, Option.bind_some]; exact clip_plain s r2

theorem propagate_plain {s : Surface} (hs : FlagBlind s) (r : Ray) :
    (s.propagate r.plain).map Ray.plain = (s.propagate r).map Ray.plain := by
  rw [Surface.propagate_eq, Surface.propagate_eq]
  have h := propagateLocal_plain hs (r.unmove s.frame)
  have h1 : (r.unmove s.frame).plain = r.plain.unmove s.frame := rfl
  rw [h1] at h
  rw [Option.map_map, Option.map_map]
  have h2 : Ray.plain ∘ Ray.move s.frame = Ray.move s.frame ∘ Ray.plain := rfl
  rw [h2, ← Option.map_map, ← Option.map_map, h]

theorem propagateSurfaces_plain {ss : List Surface} (hs : ∀ s ∈ ss, FlagBlind s) {r r' : Ray}
    (h : r.plain = r'.plain) :
    (propagateSurfaces ss r).map Ray.plain = (propagateSurfaces ss r').map Ray.plain := by
  induction ss generalizing r r' with
  | nil => simp [propagateSurfaces_nil, h]
  | cons s ss ih =>
    rw [propagateSurfaces_cons, propagateSurfaces_cons]
    have h1 := propagate_plain (hs s (by simp)) r
    have h2 := propagate_plain (hs s (by simp)) r'
    rw [h, h2] at h1
    cases ha : s.propagate r with
    | none =>
      cases hb : s.propagate r' with
      | none => rfl
      | some o' => rw [ha, hb] at h1; simp at h1
    | some o =>
      cases hb : s.propagate r' with
      | none => rw [ha, hb] at h1; simp at h1
      | some o' =>
        rw [ha, hb] at h1
        simp only [Option.map_some, Option.some.injEq] at h1
        exact ih (fun x hx => hs x (by simp [hx])) h1.symm

/-! ## Rays along the same line -/

/-- The intercept only depends on the line, not on the point of the line where the ray starts or on
the sense of the direction. -/
structure LineSag (s : Sag) : Prop where
  shift : ∀ (o u : V3) (t : ℝ), u.dot u = 1 → s.intercept (o + t • u) u = s.intercept o u
  flip : ∀ (o u : V3), u.dot u = 1 → s.intercept o (-u) = s.intercept o u

theorem lineSag_flat : LineSag flatSag := by
  constructor
  · intro o u t _
    simp only [flatSag, flatIntercept, Option.bind_eq_bind, Option.pure_def]
    by_cases h : u.z = 0
    · simp [h, div?_eq_none.2]
    · rw [div?_of_ne h, div?_of_ne h]
      simp only [Option.bind_some, Option.some.injEq, V3.mk.injEq, add_x, add_y, add_z, smul_x,
        smul_y, smul_z]
      refine ⟨?_, ?_, ?_⟩ <;> field_simp <;> ring
  · intro o u _
    simp only [flatSag, flatIntercept, Option.bind_eq_bind, Option.pure_def]
    by_cases h : u.z = 0
    · have h' : (-u).z = 0 := by simp [h]
      simp [h, h', div?_eq_none.2]
    · have h' : (-u).z ≠ 0 := by simpa using h
      rw [div?_of_ne h, div?_of_ne h']
      simp only [Option.bind_some, Option.some.injEq, V3.mk.injEq, neg_x, neg_y, neg_z]
      refine ⟨?_, ?_, ?_⟩ <;> field_simp

theorem sgn_neg' (x : ℝ) : sgn (-x) = -sgn x := by
  unfold sgn
  rcases lt_trichotomy x 0 with h | h | h
  · simp [h, not_lt.2 h.le, h.ne, h.ne']
  · simp [h]
  · simp [h, not_lt.2 h.le, h.ne, h.ne']

theorem lineSag_sphere (radius : ℝ) : LineSag (sphereSag radius) := by
  constructor
  · intro o u t hu
    simp only [dot] at hu
    simp only [sphereSag, sphereIntercept, Option.bind_eq_bind, Option.pure_def, add_x, add_y, add_z,
      smul_x, smul_y, smul_z]
    have hb : u.x * (o.x + t * u.x) + u.y * (o.y + t * u.y) + u.z * (o.z + t * u.z - radius)
        = u.x * o.x + u.y * o.y + u.z * (o.z - radius) + t := by linear_combination t * hu
    have hd : (u.x * o.x + u.y * o.y + u.z * (o.z - radius) + t) ^ 2 - ((o.x + t * u.x) ^ 2 +
        (o.y + t * u.y) ^ 2 + (o.z + t * u.z - radius) ^ 2 - radius ^ 2)
        = (u.x * o.x + u.y * o.y + u.z * (o.z - radius)) ^ 2 - (o.x ^ 2 + o.y ^ 2 +
          (o.z - radius) ^ 2 - radius ^ 2) := by linear_combination (-t ^ 2) * hu
    rw [hb, hd]
    cases sqrt? ((u.x * o.x + u.y * o.y + u.z * (o.z - radius)) ^ 2 - (o.x ^ 2 + o.y ^ 2 +
          (o.z - radius) ^ 2 - radius ^ 2)) with
    | none => rfl
    | some s =>
      simp only [Option.bind_some, Option.some.injEq, V3.mk.injEq]
      refine ⟨?_, ?_, ?_⟩ <;> ring
  · intro o u _
    simp only [sphereSag, sphereIntercept, Option.bind_eq_bind, Option.pure_def, neg_x, neg_y, neg_z]
    have hd : (-u.x * o.x + -u.y * o.y + -u.z * (o.z - radius)) ^ 2
        = (u.x * o.x + u.y * o.y + u.z * (o.z - radius)) ^ 2 := by ring
    rw [hd, mul_neg, sgn_neg']
    cases sqrt? ((u.x * o.x + u.y * o.y + u.z * (o.z - radius)) ^ 2 - (o.x ^ 2 + o.y ^ 2 +
          (o.z - radius) ^ 2 - radius ^ 2)) with
    | none => rfl
    | some s =>
      simp only [Option.bind_some, Option.some.injEq, V3.mk.injEq]
      refine ⟨?_, ?_, ?_⟩ <;> ring

theorem cylinder_dist {q s d : ℝ} (h : 0 < d * q ^ 2 - s ^ 2) : d ≠ 0 := by
  rintro rfl; nlinarith [sq_nonneg s]

theorem lineSag_cylinder (radius : ℝ) : LineSag (cylinderSag radius) := by
  constructor
  · intro o u t hu
    simp only [cylinderSag, cylinderIntercept, Option.bind_eq_bind, Option.pure_def]
    have hd : (((⟨0, 0, radius⟩ : V3) - (o + t • u)).dot (u.cross ⟨0, 1, 0⟩)) =
        (((⟨0, 0, radius⟩ : V3) - o).dot (u.cross ⟨0, 1, 0⟩)) := by
      simp [dot]; ring
    have hn : ((u.cross ⟨0, 1, 0⟩).dot (((⟨0, 0, radius⟩ : V3) - (o + t • u)).cross ⟨0, 1, 0⟩)) =
        ((u.cross ⟨0, 1, 0⟩).dot (((⟨0, 0, radius⟩ : V3) - o).cross ⟨0, 1, 0⟩)) -
          t * (u.cross ⟨0, 1, 0⟩).dot (u.cross ⟨0, 1, 0⟩) := by
      simp [dot]; ring
    rw [hd, hn]
    split_ifs with h
    · have h0 := cylinder_dist h
      rw [div?_of_ne h0, div?_of_ne h0]
      simp only [Option.bind_some, Option.some.injEq, V3.mk.injEq, add_x, add_y, add_z, smul_x,
        smul_y, smul_z]
      refine ⟨?_, ?_, ?_⟩ <;> field_simp <;> ring
    · by_cases h : u.z = 0
      · simp [h, div?_eq_none.2]
      · rw [div?_of_ne h, div?_of_ne h]
        simp only [Option.bind_some, Option.some.injEq, V3.mk.injEq, add_x, add_y, add_z, smul_x,
          smul_y, smul_z]
        refine ⟨?_, ?_, ?_⟩ <;> field_simp <;> ring
  · intro o u _
    simp only [cylinderSag, cylinderIntercept, Option.bind_eq_bind, Option.pure_def]
    have hd : (((⟨0, 0, radius⟩ : V3) - o).dot ((-u).cross ⟨0, 1, 0⟩)) =
        -(((⟨0, 0, radius⟩ : V3) - o).dot (u.cross ⟨0, 1, 0⟩)) := by
      simp [dot]; ring
    have hn : (((-u).cross ⟨0, 1, 0⟩).dot (((⟨0, 0, radius⟩ : V3) - o).cross ⟨0, 1, 0⟩)) =
        -((u.cross ⟨0, 1, 0⟩).dot (((⟨0, 0, radius⟩ : V3) - o).cross ⟨0, 1, 0⟩)) := by
      simp [dot]; ring
    have hs : ((-u).cross ⟨0, 1, 0⟩).dot ((-u).cross ⟨0, 1, 0⟩) =
        (u.cross ⟨0, 1, 0⟩).dot (u.cross ⟨0, 1, 0⟩) := by
      simp [dot]
    have hz : sgn (radius * (-u).z) = -sgn (radius * u.z) := by rw [← sgn_neg']; simp
    rw [hd, hn, hs, hz, neg_sq]
    split_ifs with h
    · have h0 := cylinder_dist h
      rw [div?_of_ne h0, div?_of_ne h0]
      simp only [Option.bind_some, Option.some.injEq, V3.mk.injEq, neg_x, neg_y, neg_z]
      refine ⟨?_, ?_, ?_⟩ <;> field_simp <;> ring
    · by_cases h : u.z = 0
      · have h' : (-u).z = 0 := by simp [h]
        rw [div?_eq_none.2 h, div?_eq_none.2 h']
        rfl
      · have h' : (-u).z ≠ 0 := by simpa using h
        rw [div?_of_ne h, div?_of_ne h']
        simp only [Option.bind_some, Option.some.injEq, V3.mk.injEq, neg_x, neg_y, neg_z]
        refine ⟨?_, ?_, ?_⟩ <;> field_simp

/-- If the ray is not attenuated, it does not matter for such a surface at which point of its line
the ray starts. -/
theorem propagate_shift {s : Surface} (hs : LineSag s.sag) {r : Ray} (ha : r.attenuation = 0)
    (hd : r.direction.dot r.direction = 1) (t : ℝ) :
    s.propagate { r with position := r.position + t • r.direction } = s.propagate r := by
  rw [Surface.propagate_eq, Surface.propagate_eq]
  congr 1
  unfold Surface.propagateLocal
  congr 1
  unfold Sag.propagate Ray.unmove
  simp only [ha, neg_zero, zero_mul, Real.exp_zero, one_mul]
  rw [Rigid.ipoint_add_smul, hs.shift _ _ _ (by rw [Rigid.ivec_dot_ivec, hd])]

/-! ## Plane mirrors and planes in vacuum -/

/-- A flat mirror, or a flat surface in vacuum. -/
structure Fold (s : Surface) : Prop where
  sag : s.sag = flatSag
  rulings : s.rulings = none
  material : s.material = vacuum ∨ s.material = mirror
  unit : ∀ a, s.aperture = some a → a.unit ≠ .other

/-- A ray in vacuum. -/
structure Free (r : Ray) : Prop where
  index : r.index = 1
  attenuation : r.attenuation = 0
  unit : r.direction.dot r.direction = 1

theorem copysign1_mul_abs (x : ℝ) : copysign1 x * |x| = x := by
  unfold copysign1
  split
  · rename_i h; rw [abs_of_neg h]; ring
  · rename_i h; rw [abs_of_nonneg (not_lt.1 h)]; ring

theorem snell_flat {d : V3} (hd : d.dot d = 1) (m : Bool) :
    snellsLaw d 1 1 m ⟨0, 0, -1⟩ = some ⟨d.x, d.y, if m then -d.z else d.z⟩ := by
  unfold snellsLaw
  simp only [Option.bind_eq_bind, Option.pure_def]
  rw [div?_of_ne one_ne_zero]
  simp only [Option.bind_some, div_one, mul_one]
  rw [div?_of_ne one_ne_zero]
  simp only [Option.bind_some, div_one]
  have h1 : 1 + (d.x * 0 + d.y * 0 + d.z * -1) * (d.x * 0 + d.y * 0 + d.z * -1) -
      (d.x * d.x + d.y * d.y + d.z * d.z) = d.z ^ 2 := by
    unfold dot at hd; linear_combination -hd
  rw [h1, sqrt?_of_nonneg (sq_nonneg _), Real.sqrt_sq_eq_abs]
  simp only [Option.bind_some, Option.some.injEq, V3.mk.injEq]
  have h2 : d.x * 0 + d.y * 0 + d.z * -1 = -d.z := by ring
  rw [h2]
  have h3 := copysign1_mul_abs (-d.z)
  rw [abs_neg] at h3
  refine ⟨by ring, by ring, ?_⟩
  cases m
  · simp only [Bool.false_eq_true, if_false]; linear_combination -h3
  · simp only [if_true]; linear_combination h3

/-- Where the line through `p` along `d` meets the plane `z = 0`. -/
noncomputable def planeHit (p d : V3) : V3 := p + (-p.z / d.z) • d

/-- The direction after the surface. -/
def Surface.turn (s : Surface) (d : V3) : V3 := ⟨d.x, d.y, if s.material.isMirror then -d.z else d.z⟩

theorem fold_local {s : Surface} (hs : Fold s) {r : Ray} (hr : Free r) (hz : r.direction.z ≠ 0) :
    ∃ b, s.propagateLocal r = some { r with
      position := planeHit r.position r.direction, direction := s.turn r.direction,
      unvignetted := b } := by
  obtain ⟨h1, h2, h3⟩ := hr
  have hm : s.material.index = (fun _ => some 1) ∨ s.material.index = fun r => some r.index := by
    rcases hs.material with h | h <;> rw [h]
    · exact Or.inl rfl
    · exact Or.inr rfl
  have hq : s.sag.intercept r.position r.direction = some (planeHit r.position r.direction) := by
    rw [hs.sag]
    simp only [flatSag, flatIntercept, Option.bind_eq_bind, Option.pure_def]
    rw [div?_of_ne hz]
    simp only [Option.bind_some, planeHit, Option.some.injEq]
    apply V3.ext <;> simp <;> ring
  unfold Surface.propagateLocal Sag.propagate
  rw [hq]
  simp only [Option.bind_eq_bind, Option.bind_some, Option.pure_def, h2, neg_zero, zero_mul,
    Real.exp_zero, one_mul]
  have hint : ∀ r0 : Ray, r0.index = 1 → r0.attenuation = 0 → r0.direction.dot r0.direction = 1 →
      s.interact r0 = some { r0 with direction := s.turn r0.direction } := by
    intro r0 e1 e2 e3
    unfold Surface.interact Surface.effectiveRay Surface.rulingFactor
    rw [hs.sag, hs.rulings]
    simp only [flatSag, flatNormal, Option.bind_eq_bind, Option.bind_some, Option.pure_def]
    rcases hs.material with h | h
    · simp only [h, vacuum, Option.bind_some, e1]
      rw [div?_of_ne one_ne_zero]
      simp only [Option.bind_some, div_one]
      rw [div?_of_ne one_ne_zero]
      simp only [Option.bind_some, div_one]
      rw [snell_flat e3]
      simp only [Option.bind_some, Surface.turn, h, vacuum, mul_one, Option.some.injEq]
      cases r0; simp_all
    · simp only [h, mirror, Option.bind_some, e1]
      rw [div?_of_ne one_ne_zero]
      simp only [Option.bind_some, div_one]
      rw [div?_of_ne one_ne_zero]
      simp only [Option.bind_some, div_one]
      rw [snell_flat e3]
      simp only [Option.bind_some, Surface.turn, h, mirror, mul_one]
  rw [hint ⟨r.wavelength, planeHit r.position r.direction, r.direction, r.intensity, 0, r.index,
    r.unvignetted⟩ h1 rfl h3]
  simp only [Option.bind_some]
  unfold Surface.clip
  cases ha : s.aperture with
  | none => exact ⟨r.unvignetted, rfl⟩
  | some a =>
    have := hs.unit a ha
    unfold Aperture.clip
    dsimp only
    cases hu : a.unit with
    | length => exact ⟨_, rfl⟩
    | dimensionless => exact ⟨_, rfl⟩
    | other => exact absurd hu this

theorem fold_dz {s : Surface} (hs : Fold s) {r out : Ray} (h : s.propagateLocal r = some out) :
    r.direction.z ≠ 0 := by
  obtain ⟨q, -, -, -, -, -, -, -, hq, -⟩ := propagateLocal_eq_some h
  rw [hs.sag] at hq
  simp only [flatSag, flatIntercept, Option.bind_eq_bind, Option.bind_eq_some_iff] at hq
  obtain ⟨d, hd, -⟩ := hq
  exact (div?_eq_some.1 hd).1

theorem Surface.turn_turn (s : Surface) (d : V3) : s.turn (s.turn d) = d := by
  unfold Surface.turn; split <;> simp
theorem Surface.turn_dot (s : Surface) (d : V3) : (s.turn d).dot (s.turn d) = d.dot d := by
  unfold Surface.turn dot; split <;> simp
theorem Surface.turn_smul (s : Surface) (k : ℝ) (d : V3) : s.turn (k • d) = k • s.turn d := by
  unfold Surface.turn; apply V3.ext <;> simp <;> split <;> simp
theorem Surface.turn_z (s : Surface) {d : V3} (h : d.z ≠ 0) : (s.turn d).z ≠ 0 := by
  unfold Surface.turn; dsimp only; split <;> simpa using h

theorem planeHit_z (p : V3) {d : V3} (h : d.z ≠ 0) : (planeHit p d).z = 0 := by
  unfold planeHit; simp only [add_z, smul_z]; field_simp; ring

/-- From a point of the plane and along any direction, the line meets the plane at this point. -/
theorem planeHit_line {q d : V3} (hq : q.z = 0) (hd : d.z ≠ 0) (τ : ℝ) {σ : ℝ} (hσ : σ ≠ 0) :
    planeHit (q + τ • d) (σ • d) = q := by
  unfold planeHit
  apply V3.ext <;> simp [hq] <;> field_simp <;> ring

/-- Everything a fold does to a ray. -/
theorem fold_propagate {s : Surface} (hs : Fold s) {r out : Ray} (hr : Free r)
    (h : s.propagate r = some out) :
    (s.frame.ivec r.direction).z ≠ 0 ∧
    out.position = s.frame.point (planeHit (s.frame.ipoint r.position) (s.frame.ivec r.direction)) ∧
    out.direction = s.frame.vec (s.turn (s.frame.ivec r.direction)) ∧
    out.wavelength = r.wavelength ∧ out.intensity = r.intensity ∧ Free out := by
  rw [Surface.propagate_eq] at h
  simp only [Option.map_eq_some_iff] at h
  obtain ⟨o, ho, rfl⟩ := h
  have hz := fold_dz hs ho
  have hr' : Free (r.unmove s.frame) :=
    ⟨hr.index, hr.attenuation, by
      simp only [Ray.unmove]; rw [Rigid.ivec_dot_ivec, hr.unit]⟩
  obtain ⟨b, hb⟩ := fold_local hs hr' hz
  rw [hb] at ho
  simp only [Option.some.injEq] at ho
  subst ho
  refine ⟨hz, rfl, rfl, rfl, rfl, hr.index, hr.attenuation, ?_⟩
  simp only [Ray.move, Ray.unmove]
  rw [Rigid.vec_dot_vec, Surface.turn_dot, Rigid.ivec_dot_ivec, hr.unit]

theorem fold_defined {s : Surface} (hs : Fold s) {r : Ray} (hr : Free r)
    (hz : (s.frame.ivec r.direction).z ≠ 0) : ∃ out, s.propagate r = some out := by
  rw [Surface.propagate_eq]
  have hr' : Free (r.unmove s.frame) :=
    ⟨hr.index, hr.attenuation, by
      simp only [Ray.unmove]; rw [Rigid.ivec_dot_ivec, hr.unit]⟩
  obtain ⟨b, hb⟩ := fold_local hs hr' hz
  rw [hb]
  exact ⟨_, rfl⟩

theorem V3.one_smul (v : V3) : (1 : ℝ) • v = v := by apply V3.ext <;> simp
theorem V3.zero_smul (v : V3) : (0 : ℝ) • v = 0 := by apply V3.ext <;> simp
theorem V3.add_zero (v : V3) : v + 0 = v := by apply V3.ext <;> simp
theorem V3.neg_one_smul (v : V3) : (-1 : ℝ) • v = -v := by apply V3.ext <;> simp

/-- A ray that leaves a fold, and is sent through the fold again along the same line in either
sense, returns along the line of the original ray. -/
theorem fold_reverse {s : Surface} (hs : Fold s) {r r1 r2 : Ray} (hr : Free r)
    (h : s.propagate r = some r1) (hr2 : Free r2) {σ τ : ℝ} (hσ : σ ≠ 0)
    (hp : r2.position = r1.position + τ • r1.direction) (hd : r2.direction = σ • r1.direction) :
    ∃ r3, s.propagate r2 = some r3 ∧ r3.position = r1.position ∧ r3.direction = σ • r.direction ∧
      r3.wavelength = r2.wavelength ∧ r3.intensity = r2.intensity ∧ Free r3 := by
  obtain ⟨hz, e1, e2, e3, e4, e5⟩ := fold_propagate hs hr h
  have hi : s.frame.ivec r2.direction = σ • s.turn (s.frame.ivec r.direction) := by
    rw [hd, e2]
    have : σ • s.frame.vec (s.turn (s.frame.ivec r.direction))
        = s.frame.vec (σ • s.turn (s.frame.ivec r.direction)) := by
      unfold Rigid.vec; rw [M3.mulVec_smul]
    rw [this, Rigid.ivec_vec]
  have hz2 : (s.frame.ivec r2.direction).z ≠ 0 := by
    rw [hi]; simp only [smul_z]; exact mul_ne_zero hσ (s.turn_z hz)
  obtain ⟨r3, h3⟩ := fold_defined hs hr2 hz2
  obtain ⟨-, f1, f2, f3, f4, f5⟩ := fold_propagate hs hr2 h3
  refine ⟨r3, h3, ?_, ?_, f3, f4, f5⟩
  · rw [f1, e1, hi, hp, e1, e2, Rigid.ipoint_add_smul, Rigid.ipoint_point, Rigid.ivec_vec]
    rw [planeHit_line (planeHit_z _ hz) (s.turn_z hz) τ hσ]
  · rw [f2, hi, Surface.turn_smul, Surface.turn_turn]
    unfold Rigid.vec; rw [M3.mulVec_smul]
    have := Rigid.vec_ivec s.frame r.direction
    unfold Rigid.vec at this
    rw [this]

theorem fold_on_line {s : Surface} (hs : Fold s) {r r1 : Ray} (hr : Free r)
    (h : s.propagate r = some r1) : ∃ t : ℝ, r1.position = r.position + t • r.direction := by
  obtain ⟨hz, e1, -⟩ := fold_propagate hs hr h
  refine ⟨-(s.frame.ipoint r.position).z / (s.frame.ivec r.direction).z, ?_⟩
  rw [e1, planeHit, Rigid.point_add_smul, Rigid.point_ipoint, Rigid.vec_ivec]

/-- The same for a sequence of folds. -/
theorem folds_reverse {L : List Surface} (hL : ∀ s ∈ L, Fold s) {r r0 r2 : Ray} (hr : Free r)
    (h : propagateSurfaces L r = some r0) (hr2 : Free r2) {σ : ℝ} (hσ : σ ≠ 0)
    (hp : ∃ τ : ℝ, r2.position = r0.position + τ • r0.direction)
    (hd : r2.direction = σ • r0.direction) :
    ∃ r3, propagateSurfaces L.reverse r2 = some r3 ∧
      (∃ t : ℝ, r3.position = r.position + t • r.direction) ∧ r3.direction = σ • r.direction ∧
      r3.wavelength = r2.wavelength ∧ r3.intensity = r2.intensity ∧ Free r3 ∧
      ∀ s L', L = s :: L' → ∃ r1, s.propagate r = some r1 ∧ r3.position = r1.position := by
  induction L generalizing r with
  | nil =>
    simp only [propagateSurfaces_nil, Option.some.injEq] at h
    subst h
    exact ⟨r2, rfl, hp, hd, rfl, rfl, hr2, by simp⟩
  | cons s L ih =>
    rw [propagateSurfaces_cons] at h
    obtain ⟨r1, h1, h2⟩ := Option.bind_eq_some_iff.1 h
    have hs := hL s (by simp)
    have hf : Free r1 := (fold_propagate hs hr h1).2.2.2.2.2
    obtain ⟨r3, g1, ⟨t, g2⟩, g3, g4, g5, g6, -⟩ := ih (fun x hx => hL x (by simp [hx])) hf h2
    obtain ⟨r4, k1, k2, k3, k4, k5, k6⟩ := fold_reverse hs hr h1 g6 hσ g2 g3
    obtain ⟨u, hu⟩ := fold_on_line hs hr h1
    refine ⟨r4, ?_, ⟨u, by rw [k2, hu]⟩, k3, by rw [k4, g4], by rw [k5, g5], k6, ?_⟩
    · rw [List.reverse_cons, propagateSurfaces_append, g1]
      simp [propagateSurfaces_cons, k1, propagateSurfaces_nil]
    · intro s' L' hh
      simp only [List.cons.injEq] at hh
      obtain ⟨rfl, rfl⟩ := hh
      exact ⟨r1, h1, k2⟩

theorem folds_free {L : List Surface} (hL : ∀ s ∈ L, Fold s) {r r0 : Ray} (hr : Free r)
    (h : propagateSurfaces L r = some r0) :
    Free r0 ∧ r0.wavelength = r.wavelength ∧ r0.intensity = r.intensity := by
  induction L generalizing r with
  | nil =>
    simp only [propagateSurfaces_nil, Option.some.injEq] at h
    subst h; exact ⟨hr, rfl, rfl⟩
  | cons s L ih =>
    rw [propagateSurfaces_cons] at h
    obtain ⟨r1, h1, h2⟩ := Option.bind_eq_some_iff.1 h
    obtain ⟨-, -, -, e3, e4, e5⟩ := fold_propagate (hL s (by simp)) hr h1
    obtain ⟨a, b, c⟩ := ih (fun x hx => hL x (by simp [hx])) e5 h2
    exact ⟨a, by rw [b, e3], by rw [c, e4]⟩

/-! ## Mirrors and planes that light can pass in either sense -/

/-- The ray in the opposite sense. -/
def Ray.flip (r : Ray) : Ray := { r with direction := -r.direction, unvignetted := true }

/-- A surface without rulings that does not change the index, and whose properties do not depend on
the sense of the direction. -/
structure Reversible (s : Surface) : Prop where
  sag : LineSag s.sag
  normal : ∀ q n, s.sag.normal q = some n → n.dot n = 1
  rulings : s.rulings = none
  index : ∀ r : Ray, r.index = 1 → s.material.index r = some 1
  attenuation : ∀ r : Ray, s.material.attenuation r.flip = s.material.attenuation r
  efficiency : ∀ (r : Ray) n, s.material.efficiency r.flip n = s.material.efficiency r n

theorem snell_unit_index {d n : V3} (hd : d.dot d = 1) (m : Bool) :
    snellsLaw d 1 1 m n = some (if m then d - (2 * d.dot n) • n else d) := by
  unfold snellsLaw
  simp only [Option.bind_eq_bind, Option.pure_def]
  rw [div?_of_ne one_ne_zero]
  simp only [Option.bind_some, div_one, mul_one]
  rw [div?_of_ne one_ne_zero]
  simp only [Option.bind_some, div_one]
  have h1 : 1 + (d.x * n.x + d.y * n.y + d.z * n.z) * (d.x * n.x + d.y * n.y + d.z * n.z) -
      (d.x * d.x + d.y * d.y + d.z * d.z) = (d.dot n) ^ 2 := by
    unfold dot at hd ⊢; linear_combination -hd
  rw [h1, sqrt?_of_nonneg (sq_nonneg _), Real.sqrt_sq_eq_abs]
  simp only [Option.bind_some, Option.some.injEq]
  have h2 : d.x * n.x + d.y * n.y + d.z * n.z = d.dot n := rfl
  rw [h2]
  have h3 := copysign1_mul_abs (d.dot n)
  cases m
  · simp only [Bool.false_eq_true, if_false]
    apply V3.ext <;> simp only
    · linear_combination n.x * h3
    · linear_combination n.y * h3
    · linear_combination n.z * h3
  · simp only [if_true]
    apply V3.ext <;> simp only [sub_x, sub_y, sub_z, smul_x, smul_y, smul_z]
    · linear_combination -n.x * h3
    · linear_combination -n.y * h3
    · linear_combination -n.z * h3

theorem clip_flip (s : Surface) (r : Ray) :
    (s.clip r.flip).map Ray.plain = (s.clip r).map Ray.flip := by
  unfold Surface.clip
  cases s.aperture with
  | none => rfl
  | some ap =>
    unfold Aperture.clip
    dsimp only
    cases ap.unit <;> rfl

theorem interact_flip {s : Surface} (hs : Reversible s) {r : Ray} (hi : r.index = 1)
    (hd : r.direction.dot r.direction = 1) :
    s.interact r.flip = (s.interact r).map Ray.flip := by
  have hp : r.flip.position = r.position := rfl
  unfold Surface.interact
  rw [hp]
  cases hn : s.sag.normal r.position with
  | none => rfl
  | some n =>
    simp only [Option.bind_eq_bind, Option.bind_some]
    unfold Surface.effectiveRay Surface.rulingFactor
    rw [hs.rulings]
    simp only [Option.bind_some]
    rw [hs.attenuation, hs.efficiency, hs.index r hi, hs.index r.flip hi]
    have h5 : r.flip.index = 1 := hi
    have h6 : r.flip.wavelength = r.wavelength := rfl
    have h7 : r.flip.direction = -r.direction := rfl
    rw [h5, h6, h7, hi]
    simp only [Option.bind_some]
    have hd' : (-r.direction).dot (-r.direction) = 1 := by rw [neg_dot, dot_neg, hd]; norm_num
    rw [snell_unit_index hd, snell_unit_index hd']
    cases div? (1 : ℝ) 1 with
    | none => rfl
    | some ratio =>
      simp only [Option.bind_some]
      cases div? r.wavelength ratio with
      | none => rfl
      | some w2 =>
        simp only [Option.bind_some]
        cases s.material.efficiency r n with
        | none => rfl
        | some e1 =>
          simp only [Option.bind_some]
          cases s.material.attenuation r with
          | none => rfl
          | some att =>
            simp only [Option.bind_some, Option.pure_def, Option.map_some, Option.some.injEq,
              Ray.flip, Ray.mk.injEq, true_and, and_true]
            split
            · apply V3.ext <;> simp [neg_dot] <;> ring
            · rfl

theorem propagateLocal_flip {s : Surface} (hs : Reversible s) {r : Ray} (hi : r.index = 1)
    (hd : r.direction.dot r.direction = 1) :
    (s.propagateLocal r.flip).map Ray.plain = (s.propagateLocal r).map Ray.flip := by
  have h0 : s.sag.propagate r.flip = (s.sag.propagate r).map Ray.flip := by
    unfold Sag.propagate
    have h1 : r.flip.position = r.position := rfl
    have h2 : r.flip.direction = -r.direction := rfl
    rw [h1, h2, hs.sag.flip _ _ hd]
    cases s.sag.intercept r.position r.direction <;> rfl
  unfold Surface.propagateLocal
  rw [h0]
  cases h : s.sag.propagate r with
  | none => rfl
  | some r0 =>
    simp only [Option.map_some, Option.bind_eq_bind, Option.bind_some]
    unfold Sag.propagate at h
    simp only [Option.bind_eq_bind, Option.bind_eq_some_iff, Option.pure_def,
      Option.some.injEq] at h
    obtain ⟨q, -, rfl⟩ := h
    rw [interact_flip hs (by exact hi) (by exact hd)]
    generalize s.interact _ = o
    cases o with
    | none => rfl
    | some r2 => simp only [Option.map_some, Option.bind_some]; exact clip_flip s r2

theorem ivec_neg (g : Rigid) (v : V3) : g.ivec (-v) = -g.ivec v := by
  unfold Rigid.ivec; rw [← V3.neg_one_smul, M3.mulVec_smul, V3.neg_one_smul]
theorem vec_neg (g : Rigid) (v : V3) : g.vec (-v) = -g.vec v := by
  unfold Rigid.vec; rw [← V3.neg_one_smul, M3.mulVec_smul, V3.neg_one_smul]

theorem propagate_flip {s : Surface} (hs : Reversible s) {r : Ray} (hi : r.index = 1)
    (hd : r.direction.dot r.direction = 1) :
    (s.propagate r.flip).map Ray.plain = (s.propagate r).map Ray.flip := by
  rw [Surface.propagate_eq, Surface.propagate_eq]
  have h := propagateLocal_flip hs (r := r.unmove s.frame) hi
    (by simp only [Ray.unmove]; rw [Rigid.ivec_dot_ivec, hd])
  have h1 : (r.unmove s.frame).flip = r.flip.unmove s.frame := by
    simp [Ray.flip, Ray.unmove, ivec_neg]
  rw [h1] at h
  rw [Option.map_map, Option.map_map]
  have h2 : Ray.plain ∘ Ray.move s.frame = Ray.move s.frame ∘ Ray.plain := rfl
  have h3 : Ray.flip ∘ Ray.move s.frame = Ray.move s.frame ∘ Ray.flip := by
    funext r; simp [Ray.flip, Ray.move, vec_neg]
  rw [h2, h3, ← Option.map_map, ← Option.map_map, h]

/-- Such a surface keeps the index and the length of the direction. -/
theorem reversible_keeps {s : Surface} (hs : Reversible s) {r out : Ray} (hi : r.index = 1)
    (hd : r.direction.dot r.direction = 1) (h : s.propagate r = some out) :
    out.index = 1 ∧ out.direction.dot out.direction = 1 := by
  rw [Surface.propagate_eq] at h
  simp only [Option.map_eq_some_iff] at h
  obtain ⟨o, ho, rfl⟩ := h
  obtain ⟨q, n, r1, n2, b, e1, e2, att, hq, hn, hr1, h1, h2, h3, -, -, -, h4, -, -, h5, -, -, -, -, -,
    h6, -, -, h7, -⟩ := propagateLocal_eq_some ho
  have hi1 : r1.index = 1 := by rw [h3]; exact hi
  rw [hs.index r1 hi1] at h4
  simp only [Option.some.injEq] at h4
  subst h4
  have hdir : r1.direction.dot r1.direction = 1 := by
    unfold Surface.effectiveRay at hr1
    rw [hs.rulings] at hr1
    simp only [Option.some.injEq] at hr1
    subst hr1
    simp only [Ray.unmove]
    rw [Rigid.ivec_dot_ivec, hd]
  rw [hi1, snell_unit_index hdir] at h5
  simp only [Option.some.injEq] at h5
  refine ⟨h7, ?_⟩
  simp only [Ray.move]
  rw [Rigid.vec_dot_vec, h6, ← h5]
  split
  · have := hs.normal q n hn
    simp only [dot_sub, sub_dot, dot_smul, smul_dot]
    rw [dot_comm n r1.direction, this, hdir]
    ring
  · exact hdir

theorem propagateSurfaces_flip {ss : List Surface} (hs : ∀ s ∈ ss, Reversible s)
    (hb : ∀ s ∈ ss, FlagBlind s) {r : Ray} (hi : r.index = 1)
    (hd : r.direction.dot r.direction = 1) :
    (propagateSurfaces ss r.flip).map Ray.plain = (propagateSurfaces ss r).map Ray.flip := by
  induction ss generalizing r with
  | nil => rfl
  | cons s ss ih =>
    rw [propagateSurfaces_cons, propagateSurfaces_cons]
    have h1 := propagate_flip (hs s (by simp)) hi hd
    cases ha : s.propagate r with
    | none =>
      cases hb : s.propagate r.flip with
      | none => rfl
      | some o' => rw [ha, hb] at h1; simp at h1
    | some o =>
      cases hb' : s.propagate r.flip with
      | none => rw [ha, hb'] at h1; simp at h1
      | some o' =>
        rw [ha, hb'] at h1
        simp only [Option.map_some, Option.some.injEq] at h1
        obtain ⟨k1, k2⟩ := reversible_keeps (hs s (by simp)) hi hd ha
        have h2 := ih (fun x hx => hs x (by simp [hx])) (fun x hx => hb x (by simp [hx])) k1 k2
        have h3 : o'.plain = o.flip.plain := h1
        simp only [Option.bind_some]
        rw [propagateSurfaces_plain (fun x hx => hb x (by simp [hx])) h3, h2]

/-! ## The sequence of surfaces -/

section lists
variable (init : List Surface) (first : Surface) (mid : List Surface) (last : Surface)
  (post : List Surface)

/-- All the surfaces of a system: those before the first stop, the first stop, those between the
stops, the last stop, and those after it. -/
def arrange : List Surface := init ++ first :: (mid ++ last :: post)

theorem arrange_first : (arrange init first mid last post)[init.length]? = some first := by
  simp [arrange]
theorem arrange_last :
    (arrange init first mid last post)[init.length + 1 + mid.length]? = some last := by
  unfold arrange
  rw [List.getElem?_append_right (by omega)]
  have : init.length + 1 + mid.length - init.length = mid.length + 1 := by omega
  rw [this]; simp
theorem arrange_take_first :
    (arrange init first mid last post).take (init.length + 1) = init ++ [first] := by
  unfold arrange
  rw [List.take_append, List.take_of_length_le (by omega)]
  simp
theorem arrange_take_last : (arrange init first mid last post).take
    (init.length + 1 + mid.length + 1) = init ++ [first] ++ (mid ++ [last]) := by
  unfold arrange
  rw [List.take_append, List.take_of_length_le (by omega)]
  have : init.length + 1 + mid.length + 1 - init.length = (mid.length + 1) + 1 := by omega
  rw [this, List.take_succ_cons, List.take_append, List.take_of_length_le (by omega)]
  simp
theorem arrange_between : ((arrange init first mid last post).take
    (init.length + 1 + mid.length + 1)).drop (init.length + 1) = mid ++ [last] := by
  rw [arrange_take_last]
  have h : (init ++ [first]).length = init.length + 1 := by simp
  rw [← h, List.drop_left]
end lists

theorem elim_frame_point (s : Surface) (p : V3) :
    (s.transformation.elim p fun g => g.point p) = s.frame.point p := by
  unfold Surface.frame; cases s.transformation <;> simp [Rigid.id_point]
theorem elim_frame_vec (s : Surface) (p : V3) :
    (s.transformation.elim p fun g => g.vec p) = s.frame.vec p := by
  unfold Surface.frame; cases s.transformation <;> simp [Rigid.id_vec]
theorem elim_frame_unmove (s : Surface) (r : Ray) :
    (s.transformation.elim r fun g => r.unmove g) = r.unmove s.frame := by
  unfold Surface.frame; cases s.transformation <;> simp [Ray.unmove_id]

theorem unit_of_sqrt {x y s : ℝ} (h : sqrt? (1 - (x ^ 2 + y ^ 2)) = some s) :
    (⟨x, y, s⟩ : V3).dot ⟨x, y, s⟩ = 1 ∧ 0 ≤ s := by
  obtain ⟨h1, rfl⟩ := sqrt?_eq_some.1 h
  refine ⟨?_, Real.sqrt_nonneg _⟩
  simp only [dot, Real.mul_self_sqrt h1]; ring

theorem stopRay_length {w : ℝ} {first : Surface} {grid a : V2} {r : Ray}
    (h : stopRay w first .length grid a = some r) :
    ∃ z s, first.sag.height ⟨grid.x, grid.y, 0⟩ = some z ∧ sqrt? (1 - (a.x ^ 2 + a.y ^ 2)) = some s ∧
      r = ⟨w, first.frame.point ⟨grid.x, grid.y, z⟩, ⟨a.x, a.y, s⟩, 1, 0, 1, true⟩ := by
  simp only [stopRay, Option.bind_eq_bind, Option.bind_eq_some_iff, Option.pure_def,
    Option.some.injEq] at h
  obtain ⟨z, hz, s, hs, rfl⟩ := h
  exact ⟨z, s, hz, hs, by rw [elim_frame_point]⟩

theorem stopRay_dimensionless {w : ℝ} {first : Surface} {grid a : V2} {r : Ray}
    (h : stopRay w first .dimensionless grid a = some r) :
    ∃ z s, first.sag.height ⟨a.x, a.y, 0⟩ = some z ∧ sqrt? (1 - (grid.x ^ 2 + grid.y ^ 2)) = some s ∧
      r = ⟨w, ⟨a.x, a.y, z⟩, first.frame.vec ⟨grid.x, grid.y, s⟩, 1, 0, 1, true⟩ := by
  simp only [stopRay, Option.bind_eq_bind, Option.bind_eq_some_iff, Option.pure_def,
    Option.some.injEq] at h
  obtain ⟨s, hs, z, hz, rfl⟩ := h
  exact ⟨z, s, hz, hs, by rw [elim_frame_vec]⟩

theorem stopRay_free {w : ℝ} {first : Surface} {unit : ApertureUnit} {grid a : V2} {r : Ray}
    (h : stopRay w first unit grid a = some r) : Free r ∧ r.wavelength = w ∧ r.intensity = 1 := by
  cases unit with
  | length =>
    obtain ⟨z, s, -, hs, rfl⟩ := stopRay_length h
    exact ⟨⟨rfl, rfl, (unit_of_sqrt hs).1⟩, rfl, rfl⟩
  | dimensionless =>
    obtain ⟨z, s, -, hs, rfl⟩ := stopRay_dimensionless h
    refine ⟨⟨rfl, rfl, ?_⟩, rfl, rfl⟩
    simp only
    rw [Rigid.vec_dot_vec]; exact (unit_of_sqrt hs).1
  | other => simp [stopRay] at h

/-- The steps of `stopRays`. -/
theorem stopRays_eq_some {solver : RootFinder} {guess : V2} {w : ℝ} {init mid post : List Surface}
    {first last : Surface} {gridFirst gridLast : V2} {T : Option Rigid} {r : Ray}
    (h : stopRays solver guess w (arrange init first mid last post) init.length
      (init.length + 1 + mid.length) gridFirst gridLast T = some r) :
    ∃ apFirst apLast a ρ out c r0 obj n, first.aperture = some apFirst ∧ last.aperture = some apLast ∧
      stopRay w first apFirst.unit gridFirst a = some ρ ∧
      propagateSurfaces (mid ++ [last]) ρ = some out ∧
      stopComponent apLast.unit (out.unmove last.frame) = some c ∧ c.x = gridLast.x ∧
      c.y = gridLast.y ∧
      propagateSurfaces (init ++ [first]).reverse ρ = some r0 ∧
      (init ++ [first]).head? = some obj ∧
      obj.sag.normal (obj.frame.ipoint r0.position) = some n ∧
      ∃ σ : ℝ, σ ≠ 0 ∧ (σ = 1 ∨ σ = -1) ∧
        ((obj.frame.ivec r0.direction).dot n ≤ 0 → σ = 1) ∧
        (T.elim r fun g => r.unmove g) = { r0 with direction := σ • r0.direction } := by
  unfold stopRays stopRaysFound stopRaysOnlyFound at h
  simp only [Option.bind_eq_bind, Option.bind_eq_some_iff, Option.pure_def, Option.some.injEq,
    arrange_first, arrange_last, arrange_between, arrange_take_first, elim_frame_unmove] at h
  obtain ⟨ρ, ⟨f, rfl, l, rfl, apf, hf, apl, hl, a, ha, hρ⟩, r0, hr0, obj, hobj, n, hn, hr⟩ := h
  have hroot := solver.root _ _ _ ha
  simp only [rayError, Option.bind_eq_bind, Option.bind_eq_some_iff, Option.pure_def,
    Option.some.injEq, V2.mk.injEq, elim_frame_unmove] at hroot
  obtain ⟨ρ', hρ', out, hout, c, hc, c1, c2⟩ := hroot
  rw [hρ] at hρ'
  simp only [Option.some.injEq] at hρ'
  subst hρ'
  have hobj' : (init ++ [first]).head? = some obj := by
    unfold arrange at hobj
    cases init with
    | nil => simpa using hobj
    | cons => simpa using hobj
  refine ⟨apf, apl, a, ρ, out, c, r0, obj, n, hf, hl, hρ, hout, hc, by linarith, by linarith, hr0,
    hobj', hn, ?_⟩
  have hT : ∀ x : Ray, (T.elim x fun g => x.move g) = r → (T.elim r fun g => r.unmove g) = x := by
    intro x hx
    cases T with
    | none => exact hx.symm
    | some g => simp only [Option.elim_some] at hx ⊢; rw [← hx, Ray.unmove_move]
  rw [hT _ hr]
  have hd : (r0.unmove obj.frame).direction = obj.frame.ivec r0.direction := rfl
  rw [hd]
  split
  · rename_i hlt
    exact ⟨-1, by norm_num, Or.inr rfl, fun hle => absurd hle (not_le.2 hlt),
      by rw [V3.neg_one_smul]⟩
  · exact ⟨1, one_ne_zero, Or.inl rfl, fun _ => rfl, by rw [V3.one_smul]⟩

/-- The rays of the stops are sent back along the ray that leaves the first stop. -/
theorem stopRays_forward {solver : RootFinder} {guess : V2} {w : ℝ} {init mid post : List Surface}
    {first last : Surface} {gridFirst gridLast : V2} {T : Option Rigid} {r : Ray}
    (hfold : ∀ s ∈ init ++ [first], Fold s)
    (h : stopRays solver guess w (arrange init first mid last post) init.length
      (init.length + 1 + mid.length) gridFirst gridLast T = some r) :
    ∃ apFirst apLast a ρ out c r3 r1 r0, first.aperture = some apFirst ∧ last.aperture = some apLast ∧
      stopRay w first apFirst.unit gridFirst a = some ρ ∧ Free ρ ∧
      propagateSurfaces (mid ++ [last]) ρ = some out ∧
      stopComponent apLast.unit (out.unmove last.frame) = some c ∧ c.x = gridLast.x ∧
      c.y = gridLast.y ∧
      propagateSurfaces (init ++ [first]) (T.elim r fun g => r.unmove g) = some r3 ∧ Free r3 ∧
      r3.wavelength = ρ.wavelength ∧ r3.intensity = ρ.intensity ∧
      (∃ t : ℝ, r3.position = ρ.position + t • ρ.direction) ∧
      first.propagate ρ = some r1 ∧ r3.position = r1.position ∧
      propagateSurfaces (init ++ [first]).reverse ρ = some r0 ∧
      ∃ σ : ℝ, (σ = 1 ∨ σ = -1) ∧ r3.direction = σ • ρ.direction ∧
        (T.elim r fun g => r.unmove g) = { r0 with direction := σ • r0.direction } ∧
        ∀ obj n, (init ++ [first]).head? = some obj →
          obj.sag.normal (obj.frame.ipoint r0.position) = some n →
          (obj.frame.ivec r0.direction).dot n ≤ 0 → σ = 1 := by
  obtain ⟨apf, apl, a, ρ, out, c, r0, obj, n, h1, h2, h3, h4, h5, h6, h7, h8, h9, h10, σ, hσ, h11, h12,
    h13⟩ := stopRays_eq_some h
  obtain ⟨hfree, hw, hI⟩ := stopRay_free h3
  have hfold' : ∀ s ∈ (init ++ [first]).reverse, Fold s := fun s hs => hfold s (List.mem_reverse.1 hs)
  obtain ⟨f0, fw, fI⟩ := folds_free hfold' hfree h8
  have hx : Free { r0 with direction := σ • r0.direction } := by
    refine ⟨f0.index, f0.attenuation, ?_⟩
    simp only [smul_dot, dot_smul, f0.unit]
    rcases h11 with rfl | rfl <;> norm_num
  obtain ⟨r3, g1, g2, g3, g4, g5, g6, g7⟩ := folds_reverse hfold' hfree h8 hx hσ
    ⟨0, by rw [V3.zero_smul, V3.add_zero]⟩ rfl
  rw [List.reverse_reverse] at g1
  obtain ⟨r1, k1, k2⟩ := g7 first init.reverse (by simp)
  refine ⟨apf, apl, a, ρ, out, c, r3, r1, r0, h1, h2, h3, hfree, h4, h5, h6, h7, by rw [h13]; exact g1,
    g6, ?_, ?_, g2, k1, k2, h8, σ, h11, g3, h13, ?_⟩
  · rw [g4]; exact fw
  · rw [g5]; exact fI
  · intro obj' n' e1 e2 e3
    rw [h9] at e1
    simp only [Option.some.injEq] at e1
    subst e1
    rw [h10] at e2
    simp only [Option.some.injEq] at e2
    subst e2
    exact h12 e3

end Optika
