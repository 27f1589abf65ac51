import Verif.Props.CoatedSurfaces
import Verif.Props.Colours

/-!
# C110: coatings and the shape of grooves change only the intensity
-/

namespace Optika
open V3

/-! ## Specification -/

/-- Two rays that differ at most in intensity. -/
structure UpToIntensity (r r' : Ray) : Prop where
  wavelength : r'.wavelength = r.wavelength
  position : r'.position = r.position
  direction : r'.direction = r.direction
  attenuation : r'.attenuation = r.attenuation
  index : r'.index = r.index
  unvignetted : r'.unvignetted = r.unvignetted

/-- The coatings of mirrors. -/
inductive MirrorCoating : Material → Prop
  | bare : MirrorCoating mirror
  | multilayer (layers : Stack) (substrate : Option Layer) : MirrorCoating (multilayerMirror layers substrate)
  | measured (table : List (ℝ × ℝ)) : MirrorCoating (measuredMirror table)

/-- Films that light passes, and the surface of sensors. -/
inductive FilmCoating : Material → Prop
  | multilayer (layers : Stack) : FilmCoating (multilayerFilm layers)
  | filter (layer oxide : Stack) (mesh : ℝ) : FilmCoating (thinFilmFilter layer oxide mesh)
  | silicon (m : SiliconMaterial) : FilmCoating m.material

/-- The same optical element with another coating, and grooves of another shape at the same places. -/
structure Recoated (s s' : Surface) : Prop where
  sag : s'.sag = s.sag
  aperture : s'.aperture = s.aperture
  transformation : s'.transformation = s.transformation
  rulings : (s.rulings = none ∧ s'.rulings = none) ∨ ∃ g g', s.rulings = some g ∧ s'.rulings = some g' ∧
    g'.spacing = g.spacing ∧ g'.order = g.order
  material : (MirrorCoating s.material ∧ MirrorCoating s'.material) ∨ (FilmCoating s.material ∧ FilmCoating s'.material) ∨
    ((∃ g : Glass, s.material = g.material) ∧ s'.material = s.material) ∨ (s.material = vacuum ∧ s'.material = vacuum)

/-! ## Proofs -/

theorem MirrorCoating.medium {m : Material} (h : MirrorCoating m) (r : Ray) :
    m.index r = some r.index ∧ m.attenuation r = some r.attenuation ∧ m.isMirror = true := by
  cases h <;> exact ⟨rfl, rfl, rfl⟩

theorem FilmCoating.medium {m : Material} (h : FilmCoating m) (r : Ray) :
    m.index r = some r.index ∧ m.attenuation r = some r.attenuation ∧ m.isMirror = false := by
  cases h <;> exact ⟨rfl, rfl, rfl⟩

theorem Recoated.medium {s s' : Surface} (h : Recoated s s') {r r' : Ray} (hr : UpToIntensity r r') :
    s'.material.index r' = s.material.index r ∧ s'.material.attenuation r' = s.material.attenuation r ∧
      s'.material.isMirror = s.material.isMirror := by
  rcases h.material with ⟨h1, h2⟩ | ⟨h1, h2⟩ | ⟨⟨g, h1⟩, h2⟩ | ⟨h1, h2⟩
  · obtain ⟨a, b, c⟩ := h1.medium r
    obtain ⟨a', b', c'⟩ := h2.medium r'
    rw [a, b, c, a', b', c', hr.index, hr.attenuation]
    exact ⟨rfl, rfl, rfl⟩
  · obtain ⟨a, b, c⟩ := h1.medium r
    obtain ⟨a', b', c'⟩ := h2.medium r'
    rw [a, b, c, a', b', c', hr.index, hr.attenuation]
    exact ⟨rfl, rfl, rfl⟩
  · rw [h2, h1]
    refine ⟨?_, rfl, rfl⟩
    show g.index r' = g.index r
    unfold Glass.index
    rw [hr.wavelength]
    try rw [hr.index]
  · rw [h2, h1]
    exact ⟨rfl, rfl, rfl⟩

theorem Recoated.effective {s s' : Surface} (h : Recoated s s') {r r' o o' : Ray} {u : V3} (hr : UpToIntensity r r')
    (ho : s.effectiveRay r u = some o) (ho' : s'.effectiveRay r' u = some o') : UpToIntensity o o' := by
  unfold Surface.effectiveRay at ho ho'
  rcases h.rulings with ⟨h1, h2⟩ | ⟨g, g', h1, h2, h3, h4⟩
  · rw [h1] at ho
    rw [h2] at ho'
    rw [← Option.some.inj ho, ← Option.some.inj ho']
    exact hr
  · rw [h1] at ho
    rw [h2] at ho'
    simp only [Option.map_eq_some_iff] at ho ho'
    obtain ⟨d, hd, rfl⟩ := ho
    obtain ⟨d', hd', rfl⟩ := ho'
    rw [h3, h4, hr.position, hr.wavelength, hr.direction, hr.index, hd, Option.some.injEq] at hd'
    exact ⟨hr.wavelength, hr.position, hd'.symm, hr.attenuation, hr.index, hr.unvignetted⟩

theorem Recoated.clip {s s' : Surface} (h : Recoated s s') {r r' o o' : Ray} (hr : UpToIntensity r r')
    (ho : s.clip r = some o) (ho' : s'.clip r' = some o') : UpToIntensity o o' := by
  unfold Surface.clip at ho ho'
  rw [h.aperture] at ho'
  cases e : s.aperture with
  | none =>
    rw [e] at ho ho'
    rw [← Option.some.inj ho, ← Option.some.inj ho']
    exact hr
  | some a =>
    rw [e] at ho ho'
    simp only [Aperture.clip] at ho ho'
    cases hu : a.unit <;> rw [hu] at ho ho' <;> simp only [reduceCtorEq, Option.some.injEq] at ho ho'
    · rw [← ho, ← ho']
      exact ⟨hr.wavelength, hr.position, hr.direction, hr.attenuation, hr.index,
        by simp only [hr.position, hr.unvignetted]⟩
    · rw [← ho, ← ho']
      exact ⟨hr.wavelength, hr.position, hr.direction, hr.attenuation, hr.index,
        by simp only [hr.direction, hr.unvignetted]⟩

theorem Recoated.local {s s' : Surface} (h : Recoated s s') {r r' out out' : Ray} (hr : UpToIntensity r r')
    (ho : s.propagateLocal r = some out) (ho' : s'.propagateLocal r' = some out') : UpToIntensity out out' := by
  obtain ⟨q, u, r1, n2, b, e1, e2, att, hq, hu, he, hp, hw, hi, ha, hv, hI, hn2, -, -, hb, -, -, hat, ow, -, -, -, -, -,
    hc⟩ := propagateLocal_eq_some ho
  obtain ⟨q', u', r1', n2', b', e1', e2', att', hq', hu', he', hp', hw', hi', ha', hv', hI', hn2', -, -, hb', -, -, hat',
    ow', -, -, -, -, -, hc'⟩ := propagateLocal_eq_some ho'
  rw [hr.position, hr.direction, h.sag, hq, Option.some.injEq] at hq'
  subst hq'
  rw [h.sag, hu, Option.some.injEq] at hu'
  subst hu'
  have h1 : UpToIntensity r1 r1' := by
    refine h.effective ?_ he he'
    exact ⟨hr.wavelength, rfl, hr.direction, hr.attenuation, hr.index, hr.unvignetted⟩
  obtain ⟨m1, m2, m3⟩ := h.medium h1
  rw [m1, hn2, Option.some.injEq] at hn2'
  subst hn2'
  rw [m2, hat, Option.some.injEq] at hat'
  subst hat'
  rw [m3, h1.direction, h1.index, hb, Option.some.injEq] at hb'
  subst hb'
  refine h.clip ?_ hc hc'
  exact ⟨by simp only [ow, ow', hr.wavelength, hr.index], h1.position, rfl, rfl, rfl, h1.unvignetted⟩

theorem Recoated.frame {s s' : Surface} (h : Recoated s s') : s'.frame = s.frame := by
  unfold Surface.frame
  rw [h.transformation]

/-- **C110**: coatings, the shape of grooves and the intensity of the light have no influence on path, wavelength, medium and
vignetting: two systems that differ only in the coatings of their surfaces and the shape of their grooves lead two rays that
differ only in intensity to rays that differ only in intensity. -/
theorem C110_path {ss ss' : List Surface} (h : List.Forall₂ Recoated ss ss') {r r' out out' : Ray}
    (hr : UpToIntensity r r') (ho : propagateSurfaces ss r = some out) (ho' : propagateSurfaces ss' r' = some out') :
    UpToIntensity out out' := by
  induction h generalizing r r' with
  | nil =>
    rw [propagateSurfaces_nil, Option.some.injEq] at ho ho'
    rw [← ho, ← ho']
    exact hr
  | cons h hs ih =>
    rw [propagateSurfaces_cons, Option.bind_eq_some_iff] at ho ho'
    obtain ⟨m, hm, ho⟩ := ho
    obtain ⟨m', hm', ho'⟩ := ho'
    refine ih ?_ ho ho'
    rw [Surface.propagate_eq, Option.map_eq_some_iff] at hm hm'
    rw [h.frame] at hm'
    obtain ⟨o, hm, rfl⟩ := hm
    obtain ⟨o', hm', rfl⟩ := hm'
    have := h.local (r := r.unmove _) (r' := r'.unmove _) ⟨hr.wavelength, by simp [Ray.unmove, hr.position],
      by simp [Ray.unmove, hr.direction], hr.attenuation, hr.index, hr.unvignetted⟩ hm hm'
    exact ⟨this.wavelength, by simp [Ray.move, this.position], by simp [Ray.move, this.direction], this.attenuation,
      this.index, this.unvignetted⟩

/-- **C110**: light passes films, filters and the surface of sensors straight on. -/
theorem C110_straight {s : Surface} {r out : Ray} (hm : FilmCoating s.material) (hr : s.rulings = none)
    (hi : 0 < r.index) (hd : r.direction.dot r.direction = 1) (h : s.propagate r = some out)
    (hu : ∀ u, s.sag.normal (s.frame.ipoint out.position) = some u → u.dot u = 1 ∧
      (s.frame.ivec r.direction).dot u ≠ 0) :
    out.direction = r.direction ∧ out.wavelength = r.wavelength ∧ out.index = r.index ∧
      out.attenuation = r.attenuation := by
  obtain ⟨r1, w1, i1, a1, m1, m2, h0, ow⟩ := medium_behind h
  rw [(hm.medium r1).1, Option.some.injEq] at m1
  rw [(hm.medium r1).2.1, Option.some.injEq] at m2
  have oi : out.index = r.index := by rw [← m1, i1]
  refine ⟨?_, by rw [ow, oi]; field_simp, oi, by rw [← m2, a1]⟩
  obtain ⟨u, hn, hs⟩ := surface_plain h hr
  obtain ⟨hu1, hu2⟩ := hu u hn
  rw [oi, (hm.medium r).2.2] at hs
  have hd1 : (s.frame.ivec r.direction).dot (s.frame.ivec r.direction) = 1 := by
    rw [Rigid.ivec_dot_ivec]; exact hd
  rw [(snellsLaw_iff false hu1 hi hi hu2 _).2 ⟨⟨hd1, by apply V3.ext <;> simp⟩, by
    simp only [SameSide, Bool.false_eq_true, if_false]; exact mul_self_nonneg _⟩, Option.some.injEq] at hs
  have := congrArg s.frame.vec hs
  simpa using this.symm

/-- The light reflected by a plane mirror of glass and by a perfect plane mirror. -/
example : Recoated glassMirror ⟨flatSag, mirror, none, none, none⟩ ∧
    ∃ out out', propagateSurfaces [glassMirror] fromBehind = some out ∧
      propagateSurfaces [⟨flatSag, mirror, none, none, none⟩] fromBehind = some out' ∧ UpToIntensity out out' ∧
      out.intensity = 25 ∧ out'.intensity = 1 := by
  have hrc : Recoated glassMirror ⟨flatSag, mirror, none, none, none⟩ :=
    ⟨rfl, rfl, rfl, .inl ⟨rfl, rfl⟩, .inl ⟨.multilayer _ _, .bare⟩⟩
  have hs : snellsLaw ⟨0, 0, -1⟩ 1 1 true ⟨0, 0, -1⟩ = some ⟨0, 0, 1⟩ := by
    rw [snellsLaw_iff true (by simp [dot]) one_pos one_pos (by simp [dot])]
    refine ⟨⟨by norm_num [dot], by apply V3.ext <;> simp [tang, dot]⟩, by norm_num [OppositeSide, dot]⟩
  have hi : flatIntercept ⟨0, 0, 1⟩ ⟨0, 0, -1⟩ = some 0 := by
    unfold flatIntercept
    rw [div?_of_ne (by simp)]
    simp
    apply V3.ext <;> simp
  obtain ⟨-, -, out, ho, -, h25⟩ := C34_surface_counterexample
  have h1 : propagateSurfaces [glassMirror] fromBehind = some out := by
    rw [propagateSurfaces_cons, ho, Option.bind_some, propagateSurfaces_nil]
  have h2 : propagateSurfaces [⟨flatSag, mirror, none, none, none⟩] fromBehind =
      some ⟨1, 0, ⟨0, 0, 1⟩, 1, 0, 1, true⟩ := by
    rw [propagateSurfaces_cons]
    simp [Surface.propagate, Surface.propagateLocal, Sag.propagate, flatSag, hi, Surface.interact, div?,
      Surface.effectiveRay, flatNormal, mirror, Surface.rulingFactor, Surface.clip, fromBehind, hs, propagateSurfaces_nil]
  exact ⟨hrc, out, _, h1, h2, C110_path (.cons hrc .nil) ⟨rfl, rfl, rfl, rfl, rfl, rfl⟩ h1 h2, h25, rfl⟩

/-- Light that passes a film of no layers at a slant. -/
example : let s : Surface := ⟨flatSag, multilayerFilm (.sequence []), none, none, none⟩
    let r : Ray := ⟨1, ⟨0, 0, 0⟩, ⟨3 / 5, 0, 4 / 5⟩, 1, 0, 1, true⟩
    ∃ out, s.propagate r = some out ∧ out.direction = r.direction := by
  intro s r
  have hd : (-((⟨3 / 5, 0, 4 / 5⟩ : V3).dot ⟨0, 0, -1⟩) : ℝ) = 4 / 5 := by norm_num [dot]
  have hs : snellsLaw ⟨3 / 5, 0, 4 / 5⟩ 1 1 false ⟨0, 0, -1⟩ = some ⟨3 / 5, 0, 4 / 5⟩ := by
    rw [snellsLaw_iff false (by simp [dot]) one_pos one_pos (by norm_num [dot])]
    refine ⟨⟨by norm_num [dot], by apply V3.ext <;> simp⟩, by norm_num [SameSide, dot]⟩
  have hsc : snellsLawScalar (4 / 5) 1 1 = 4 / 5 := by
    rw [snellsLawScalar_eq]
    exact csqrt_unique (by norm_num) (by norm_num) (by norm_num)
  have m1 : momentum false (4 / 5) 1 = 4 / 5 := by rw [momentum_p_real (by simp)]; norm_num
  have h1 : ∀ pol, multilayerEfficiency 1 pol (4 / 5) 1 (.sequence []) none = some (0, 1) := by
    intro pol
    have m : momentum pol (4 / 5) 1 = 4 / 5 := by
      cases pol
      · exact m1
      · rw [momentum_s]; norm_num
    have hr : refraction 1 (4 / 5) (4 / 5) pol 1 1 none = some !![1, 0; 0, 1] := by
      rw [refraction_eq_some]
      refine ⟨by norm_num, by norm_num, ?_, ?_, ?_⟩
      · rw [m]; norm_num
      · rw [m]; norm_num
      · rw [m]; unfold interfaceMatrix; norm_num
    unfold multilayerEfficiency multilayerCoefficients multilayerTransfer
    simp only [substrateLayer, Option.elim_none, Stack.transfer, transferAll, Layer.transfer, hsc,
      propagation_zero, if_true, hr, mul?_one_left, Option.map_some, mul_one]
    norm_num [m]
  have he : multilayerFilmEfficiency (.sequence []) r ⟨0, 0, -1⟩ = some 1 := by
    have hn : rayIndex r = 1 := by simp [rayIndex, r]
    unfold multilayerFilmEfficiency multilayerAverage
    simp only [hn, r, hd]
    push_cast
    simp [h1]
  have hi : flatIntercept ⟨0, 0, 0⟩ ⟨3 / 5, 0, 4 / 5⟩ = some ⟨0, 0, 0⟩ := by
    unfold flatIntercept
    rw [div?_of_ne (by norm_num)]
    simp
  refine ⟨r, ?_, rfl⟩
  simp only [r] at he
  have hz : (⟨0, 0, 0⟩ : V3) - ⟨0, 0, 0⟩ = ⟨0, 0, 0⟩ := by apply V3.ext <;> simp
  simp [s, r, Surface.propagate, Surface.propagateLocal, Sag.propagate, flatSag, hi, Surface.interact, div?,
    Surface.effectiveRay, flatNormal, multilayerFilm, Surface.rulingFactor, Surface.clip, hs, he]

end Optika
