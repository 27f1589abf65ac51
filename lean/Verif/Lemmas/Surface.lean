import Verif.Model.Surface

/-! Helper lemmas about `Surface.propagate`. -/

namespace Optika
open V3

/-- The coordinate transformation of a surface, the identity if there is none. -/
def Surface.frame (s : Surface) : Rigid := s.transformation.getD Rigid.id

theorem Rigid.id_point (v : V3) : Rigid.id.point v = v := by
  apply V3.ext <;> simp [Rigid.id, Rigid.point, M3.one, M3.mulVec, dot]
theorem Rigid.id_vec (v : V3) : Rigid.id.vec v = v := by
  apply V3.ext <;> simp [Rigid.id, Rigid.vec, M3.one, M3.mulVec, dot]
theorem Rigid.id_ipoint (v : V3) : Rigid.id.ipoint v = v := by
  conv_lhs => rw [← Rigid.id_point v]
  simp
theorem Rigid.id_ivec (v : V3) : Rigid.id.ivec v = v := by
  conv_lhs => rw [← Rigid.id_vec v]
  simp

theorem Ray.move_id (r : Ray) : r.move Rigid.id = r := by
  simp [Ray.move, Rigid.id_point, Rigid.id_vec]
theorem Ray.unmove_id (r : Ray) : r.unmove Rigid.id = r := by
  simp [Ray.unmove, Rigid.id_ipoint, Rigid.id_ivec]
theorem Ray.unmove_move (g : Rigid) (r : Ray) : (r.move g).unmove g = r := by
  simp [Ray.move, Ray.unmove]
theorem Ray.move_unmove (g : Rigid) (r : Ray) : (r.unmove g).move g = r := by
  simp [Ray.move, Ray.unmove]
theorem Ray.move_comp (g h : Rigid) (r : Ray) : r.move (g.comp h) = (r.move h).move g := by
  simp [Ray.move, Rigid.comp_point, Rigid.comp_vec]
theorem Ray.unmove_comp (g h : Rigid) (r : Ray) :
    r.unmove (g.comp h) = (r.unmove g).unmove h := by
  simp [Ray.unmove, Rigid.comp_ipoint, Rigid.comp_ivec]

theorem Surface.propagate_eq (s : Surface) (r : Ray) :
    s.propagate r = (s.propagateLocal (r.unmove s.frame)).map (Ray.move s.frame) := by
  unfold Surface.propagate Surface.frame
  cases s.transformation with
  | none =>
    simp only [Option.getD_none, Ray.unmove_id]
    have : Ray.move Rigid.id = fun r => r := funext Ray.move_id
    rw [this]; simp
  | some g => simp

theorem propagateSurfaces_nil (r : Ray) : propagateSurfaces [] r = some r := rfl

theorem foldl_step_none (ss : List Surface) :
    ss.foldl (fun r p => Surface.step p r) none = none := by
  induction ss with
  | nil => rfl
  | cons s ss ih => simpa [List.foldl, Surface.step] using ih

theorem propagateSurfaces_cons (s : Surface) (ss : List Surface) (r : Ray) :
    propagateSurfaces (s :: ss) r = (s.propagate r).bind (propagateSurfaces ss) := by
  unfold propagateSurfaces propagateRays Propagators.toList
  simp only [List.foldl, Surface.step, Option.bind_some]
  cases s.propagate r with
  | none => exact foldl_step_none ss
  | some r' => rfl

theorem propagateSurfaces_append (ss ts : List Surface) (r : Ray) :
    propagateSurfaces (ss ++ ts) r = (propagateSurfaces ss r).bind (propagateSurfaces ts) := by
  induction ss generalizing r with
  | nil => simp [propagateSurfaces_nil]
  | cons s ss ih =>
    simp only [List.cons_append, propagateSurfaces_cons]
    cases s.propagate r with
    | none => rfl
    | some r' => simp [ih]

/-- Everything one surface does to a ray, in the local frame. -/
theorem propagateLocal_eq_some {s : Surface} {r out : Ray}
    (h : s.propagateLocal r = some out) :
    ∃ q normal r1 n2 b e1 e2 att,
      s.sag.intercept r.position r.direction = some q ∧
      s.sag.normal q = some normal ∧
      s.effectiveRay { r with
        position := q
        intensity := Real.exp (-r.attenuation * (q - r.position).len) * r.intensity } normal
        = some r1 ∧
      r1.position = q ∧ r1.wavelength = r.wavelength ∧ r1.index = r.index ∧
      r1.attenuation = r.attenuation ∧ r1.unvignetted = r.unvignetted ∧
      r1.intensity = Real.exp (-r.attenuation * (q - r.position).len) * r.intensity ∧
      s.material.index r1 = some n2 ∧ n2 ≠ 0 ∧ r.index ≠ 0 ∧
      snellsLaw r1.direction r1.index n2 s.material.isMirror normal = some b ∧
      s.material.efficiency r1 normal = some e1 ∧ s.rulingFactor r1 normal = some e2 ∧
      s.material.attenuation r1 = some att ∧
      out.wavelength = r.wavelength * n2 / r.index ∧ out.position = q ∧ out.direction = b ∧
      out.intensity = r1.intensity * (e1 * e2) ∧ out.attenuation = att ∧ out.index = n2 ∧
      (s.clip { r1 with
        wavelength := out.wavelength
        direction := b
        intensity := r1.intensity * (e1 * e2)
        attenuation := att
        index := n2 } = some out) := by
  unfold Surface.propagateLocal Sag.propagate Surface.interact at h
  simp only [Option.bind_eq_bind, Option.bind_eq_some_iff, Option.pure_def, Option.some.injEq] at h
  obtain ⟨r0, ⟨q, hq, rfl⟩, r2, ⟨normal, hn, r1, hr1, n2, hn2, ratio, hratio, w2, hw2, b, hb,
    e1, he1, e2, he2, att, hatt, rfl⟩, hclip⟩ := h
  have hr1' : r1.position = q ∧ r1.wavelength = r.wavelength ∧ r1.index = r.index ∧
      r1.attenuation = r.attenuation ∧ r1.unvignetted = r.unvignetted ∧
      r1.intensity = Real.exp (-r.attenuation * (q - r.position).len) * r.intensity := by
    have hr1 := hr1
    unfold Surface.effectiveRay at hr1
    cases hru : s.rulings with
    | none => rw [hru] at hr1; simp only [Option.some.injEq] at hr1; subst hr1; simp
    | some ru =>
      rw [hru] at hr1
      simp only [Option.map_eq_some_iff] at hr1
      obtain ⟨d, -, rfl⟩ := hr1
      simp
  obtain ⟨h1, h2, h3, h4, h5, h6⟩ := hr1'
  obtain ⟨hn20, rfl⟩ := div?_eq_some.1 hratio
  obtain ⟨hrat0, rfl⟩ := div?_eq_some.1 hw2
  have hi0 : r.index ≠ 0 := by
    rw [← h3]; intro h0; rw [h0] at hrat0; simp at hrat0
  have hclip0 := hclip
  have hout : ∀ r2 : Ray, s.clip r2 = some out → out.wavelength = r2.wavelength ∧
      out.position = r2.position ∧ out.direction = r2.direction ∧ out.intensity = r2.intensity ∧
      out.attenuation = r2.attenuation ∧ out.index = r2.index := by
    intro r2 h
    unfold Surface.clip at h
    cases ha : s.aperture with
    | none => rw [ha] at h; simp only [Option.some.injEq] at h; subst h; simp
    | some a =>
      rw [ha] at h
      simp only [Aperture.clip] at h
      cases hu : a.unit <;> rw [hu] at h <;> simp at h <;> subst h <;> simp
  obtain ⟨o1, o2, o3, o4, o5, o6⟩ := hout _ hclip
  refine ⟨q, normal, r1, n2, b, e1, e2, att, hq, hn, hr1, h1, h2, h3, h4, h5, h6, hn2, hn20, hi0,
    hb, he1, he2, hatt, ?_, by rw [o2]; exact h1, o3, o4, o5, o6, ?_⟩
  · rw [o1]; simp only; rw [h2, h3]; field_simp
  · rw [o1]; exact hclip0

end Optika
