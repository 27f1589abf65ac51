import Verif.Props.Spacing
import Verif.Props.Propagation

/-!
# C01, C02 and C06 for whole surfaces

The laws of refraction, reflection and diffraction between the ray that enters
`Surface.propagate_rays` and the ray that leaves it, in the coordinates of the surface.
-/

namespace Optika
open V3

/-- The ray before and behind a surface without rulings. -/
theorem surface_plain {s : Surface} {r out : Ray} (h : s.propagate r = some out)
    (hr : s.rulings = none) :
    ∃ u, s.sag.normal (s.frame.ipoint out.position) = some u ∧
      snellsLaw (s.frame.ivec r.direction) r.index out.index s.material.isMirror u
        = some (s.frame.ivec out.direction) := by
  rw [Surface.propagate_eq] at h
  simp only [Option.map_eq_some_iff] at h
  obtain ⟨o, ho, rfl⟩ := h
  obtain ⟨q, normal, r1, n2, b, e1, e2, att, hq, hn, heff, hp, hw, hi, ha, hv, hI, hn2, -, hr0, hb,
    he1, he2, hatt, ow, op, od, oI, oa, oi, -⟩ := propagateLocal_eq_some ho
  unfold Surface.effectiveRay at heff
  rw [hr] at heff
  simp only [Option.some.injEq] at heff
  refine ⟨normal, ?_, ?_⟩
  · show s.sag.normal (s.frame.ipoint (s.frame.point o.position)) = _
    rw [Rigid.ipoint_point, op]
    exact hn
  · show snellsLaw _ r.index o.index _ normal = some (s.frame.ivec (s.frame.vec o.direction))
    rw [Rigid.ivec_vec, od, oi, ← hb, ← heff]
    rfl

/-- The ray before and behind a ruled surface. -/
theorem surface_ruled {s : Surface} {r out : Ray} (h : s.propagate r = some out) {ru : RulingProfile}
    (hr : s.rulings = some ru) :
    ∃ u, s.sag.normal (s.frame.ipoint out.position) = some u ∧
      ((rulingsIncidentEffective (ru.spacing (s.frame.ipoint out.position) u) ru.order r.wavelength
          (s.frame.ivec r.direction) r.index u).bind fun k =>
        snellsLaw k r.index out.index s.material.isMirror u) = some (s.frame.ivec out.direction) := by
  rw [Surface.propagate_eq] at h
  simp only [Option.map_eq_some_iff] at h
  obtain ⟨o, ho, rfl⟩ := h
  obtain ⟨q, normal, r1, n2, b, e1, e2, att, hq, hn, heff, hp, hw, hi, ha, hv, hI, hn2, -, hr0, hb,
    he1, he2, hatt, ow, op, od, oI, oa, oi, -⟩ := propagateLocal_eq_some ho
  unfold Surface.effectiveRay at heff
  rw [hr] at heff
  simp only [Option.map_eq_some_iff] at heff
  obtain ⟨d, hd, rfl⟩ := heff
  have hpos : s.frame.ipoint (Ray.move s.frame o).position = q := by
    show s.frame.ipoint (s.frame.point o.position) = _
    rw [Rigid.ipoint_point, op]
  refine ⟨normal, ?_, ?_⟩
  · rw [hpos]; exact hn
  · rw [hpos]
    have hd' : rulingsIncidentEffective (ru.spacing q normal) ru.order r.wavelength
        (s.frame.ivec r.direction) r.index normal = some d := hd
    rw [hd', Option.bind_some]
    show snellsLaw d r.index o.index _ normal = some (s.frame.ivec (s.frame.vec o.direction))
    rw [Rigid.ivec_vec, od, oi, ← hb]
    rfl

/-- **C01** and **C02** for a whole surface: in the coordinates of the surface the ray obeys Snell's
law with the indices before and behind the surface, and it goes on to the other side; at a mirror it
comes back. -/
theorem C01_surface {s : Surface} {r out : Ray} (h : s.propagate r = some out)
    (hr : s.rulings = none) {u : V3} (hu : s.sag.normal (s.frame.ipoint out.position) = some u)
    (hu1 : u.dot u = 1) (h1 : 0 < r.index) (h2 : 0 < out.index)
    (hau : (s.frame.ivec r.direction).dot u ≠ 0) :
    PhaseMatched (s.frame.ivec r.direction) (s.frame.ivec out.direction) r.index out.index u 0 ∧
    (s.material.isMirror = false →
      SameSide (s.frame.ivec r.direction) (s.frame.ivec out.direction) u) ∧
    (s.material.isMirror = true →
      OppositeSide (s.frame.ivec r.direction) (s.frame.ivec out.direction) u) := by
  obtain ⟨u', hu', hs⟩ := surface_plain h hr
  rw [hu, Option.some.injEq] at hu'
  subst hu'
  obtain ⟨p, q⟩ := (snellsLaw_iff s.material.isMirror hu1 h1 h2 hau _).1 hs
  refine ⟨p, fun hm => ?_, fun hm => ?_⟩
  · simpa [hm] using q
  · simpa [hm] using q

/-- **C06** for a whole surface: in the coordinates of the surface the ray obeys the grating
equation, with the spacing `d` and the normal `g` of the rulings at the point where the ray meets the
surface. -/
theorem C06_surface {s : Surface} {r out : Ray} (h : s.propagate r = some out) {ru : RulingProfile}
    (hr : s.rulings = some ru) {u g : V3} {d : ℝ}
    (hu : s.sag.normal (s.frame.ipoint out.position) = some u)
    (hd : ru.spacing (s.frame.ipoint out.position) u = some (d • g)) (hd0 : d ≠ 0)
    (hg : g.dot u = 0) (hg1 : g.dot g = 1)
    (hu1 : u.dot u = 1) (h1 : 0 < r.index) (h2 : 0 < out.index)
    (hau : (s.frame.ivec r.direction).dot u ≠ 0) :
    PhaseMatched (s.frame.ivec r.direction) (s.frame.ivec out.direction) r.index out.index u
      (((if (s.frame.ivec r.direction).dot u < 0 then -1 else 1)
        * (ru.order * r.wavelength / d)) • g) ∧
    (s.material.isMirror = false →
      SameSide (s.frame.ivec r.direction) (s.frame.ivec out.direction) u) ∧
    (s.material.isMirror = true →
      OppositeSide (s.frame.ivec r.direction) (s.frame.ivec out.direction) u) := by
  obtain ⟨u', hu', hs⟩ := surface_ruled h hr
  rw [hu, Option.some.injEq] at hu'
  subst hu'
  rw [hd] at hs
  obtain ⟨p, q⟩ := (ruled_iff s.material.isMirror hu1 hg hg1 h1 h2 hd0 hau _).1 hs
  refine ⟨p, fun hm => ?_, fun hm => ?_⟩
  · simpa [hm] using q
  · simpa [hm] using q

/-- The hypotheses are met by a plane grating in vacuum with two wavelengths to a period, hit by a ray
along its normal: the first order leaves at thirty degrees. -/
example :
    let s : Surface := ⟨flatSag, vacuum, none, some (idealRulings 2 1), none⟩
    let r : Ray := ⟨1, ⟨0, 0, -1⟩, ⟨0, 0, 1⟩, 1, 0, 1, true⟩
    let out : Ray := ⟨1, ⟨0, 0, 0⟩, ⟨-(1 / 2), 0, Real.sqrt 3 / 2⟩, 1, 0, 1, true⟩
    s.propagate r = some out ∧ s.sag.normal (s.frame.ipoint out.position) = some ⟨0, 0, -1⟩ ∧
    (idealRulings 2 1).spacing (s.frame.ipoint out.position) ⟨0, 0, -1⟩ = some ((2 : ℝ) • ⟨1, 0, 0⟩) ∧
    (s.frame.ivec r.direction).dot ⟨0, 0, -1⟩ ≠ 0 := by
  intro s r out
  have hb : ((rulingsIncidentEffective (some ((2 : ℝ) • (⟨1, 0, 0⟩ : V3))) 1 1 ⟨0, 0, 1⟩ 1
      ⟨0, 0, -1⟩).bind fun k => snellsLaw k 1 1 false ⟨0, 0, -1⟩)
      = some ⟨-(1 / 2), 0, Real.sqrt 3 / 2⟩ := by
    rw [ruled_iff (m := 1) (d := 2) false (by simp [dot]) (by simp [dot]) (by simp [dot]) one_pos
      one_pos two_ne_zero (by simp [dot])]
    have h3 : Real.sqrt 3 ^ 2 = 3 := Real.sq_sqrt (by norm_num)
    refine ⟨⟨?_, ?_⟩, ?_⟩
    · simp only [dot]; nlinarith
    · apply V3.ext <;> simp [tang, dot]
    · simp only [SameSide, dot]
      simp
      positivity
  have hsp : ∀ q u, (idealRulings 2 1).spacing q u = some ((2 : ℝ) • (⟨1, 0, 0⟩ : V3)) := fun q u => rfl
  obtain ⟨k, hk, hb⟩ := Option.bind_eq_some_iff.1 hb
  have ho : (idealRulings 2 1).order = 1 := rfl
  have hn : ∀ q, flatNormal q = some ⟨0, 0, -1⟩ := fun q => rfl
  refine ⟨?_, ?_, ?_, ?_⟩
  · simp [s, r, out, Surface.propagate, Surface.propagateLocal, Sag.propagate, flatSag, flatIntercept,
      div?, Surface.interact, Surface.effectiveRay, hsp, ho, hn, hk, hb, vacuum, Surface.rulingFactor,
      Surface.clip]
    simp [idealRulings]
  · exact hn (s.frame.ipoint out.position)
  · exact hsp _ _
  · simp [s, r, dot, Surface.frame, Rigid.ivec, Rigid.id, M3.one, M3.mulVec, M3.transpose]

end Optika
