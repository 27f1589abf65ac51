import Verif.Props.Multilayer
import Verif.Props.Interp
import Verif.Props.Transformed
import Verif.Props.SurfaceOptics
import Verif.Props.Smoothness
import Verif.Props.Waves
import Verif.Props.SensorMaterial
import Verif.Model.Coatings

/-!
# C34 for surfaces: coatings in a system
-/

namespace Optika
open V3

/-! ## Specification -/

/-- Materials that keep the medium and, at the wavelength `w`, are coatings that do not amplify. -/
inductive NotAmplifying (w : ℝ) : Material → Prop
  | bare : NotAmplifying w mirror
  | mirror (layers : Stack) (substrate : Option Layer) : layers.Counted → (∀ l ∈ layers.flat, l.Passive w) →
      (substrateLayer substrate).Passive w → NotAmplifying w (multilayerMirror layers substrate)
  | film (layers : Stack) : layers.Counted → (∀ l ∈ layers.flat, l.Passive w) → NotAmplifying w (multilayerFilm layers)
  | filter (layer oxide : Stack) (mesh : ℝ) : layer.Counted → oxide.Counted → (∀ l ∈ layer.flat, l.Passive w) →
      (∀ l ∈ oxide.flat, l.Passive w) → 0 ≤ mesh → mesh ≤ 1 → NotAmplifying w (thinFilmFilter layer oxide mesh)
  | measured (table : List (ℝ × ℝ)) : Increasing table → table ≠ [] → (∀ p ∈ table, 0 ≤ p.2 ∧ p.2 ≤ 1) →
      NotAmplifying w (measuredMirror table)
  | sensor (m : SiliconMaterial) : PassiveIndex (m.nOxide w) → PassiveIndex (m.nSilicon w) → 0 ≤ m.thicknessOxide →
      0 ≤ m.thicknessSubstrate → m.roughnessOxide = 0 → m.roughnessSubstrate = 0 → NotAmplifying w m.material

/-- The ray arrives from the side to which the normal of the surface points. -/
def Facing (s : Surface) (r out : Ray) : Prop :=
  ∀ u, s.sag.normal (s.frame.ipoint out.position) = some u → u.dot u = 1 ∧ (s.frame.ivec r.direction).dot u < 0

/-- The state of a ray in a transparent medium. -/
structure Bright (w n : ℝ) (r : Ray) : Prop where
  wavelength : r.wavelength = w
  index : r.index = n
  attenuation : r.attenuation = 0
  unit : r.direction.dot r.direction = 1

/-! ## Proofs -/

theorem NotAmplifying.medium {w : ℝ} {m : Material} (h : NotAmplifying w m) (r : Ray) :
    m.index r = some r.index ∧ m.attenuation r = some r.attenuation := by
  cases h <;> exact ⟨rfl, rfl⟩

theorem NotAmplifying.efficiency {w : ℝ} {m : Material} (h : NotAmplifying w m) (hw : 0 < w) {r : Ray} {u : V3} {e : ℝ}
    (hr : r.wavelength = w) (hn : 0 < r.index) (ha : r.attenuation = 0) (hc : r.direction.dot u < 0)
    (hc1 : -1 ≤ r.direction.dot u) (he : m.efficiency r u = some e) : 0 ≤ e ∧ e ≤ 1 := by
  subst hr
  cases h with
  | bare =>
    have : some (1 : ℝ) = some e := he
    rw [Option.some.injEq] at this
    rw [← this]; norm_num
  | mirror layers sub h1 h2 h3 => exact C34_mirror_partial hw hn ha hc hc1 layers sub h1 h2 h3 he
  | film layers h1 h2 => exact C34_film_partial hw hn ha hc hc1 layers h1 h2 he
  | filter layer oxide mesh h1 h2 h3 h4 h5 h6 =>
    have he : (multilayerFilmEfficiency (.sequence [oxide, layer, oxide]) r u).map (· * mesh) = some e := he
    rw [Option.map_eq_some_iff] at he
    obtain ⟨f, hf, rfl⟩ := he
    have hf := C34_film_partial hw hn ha hc hc1 _ (by
      simp only [Stack.Counted, CountedAll]; exact ⟨h2, h1, h2, trivial⟩) (by
      intro l hl
      simp only [Stack.flat, flatAll, List.mem_append, List.not_mem_nil, or_false] at hl
      rcases hl with hl | hl | hl
      · exact h4 l hl
      · exact h3 l hl
      · exact h4 l hl) hf
    exact ⟨mul_nonneg hf.1 h5, mul_le_one₀ hf.2 h5 h6⟩
  | measured table h1 h2 h3 =>
    obtain ⟨y, hy, h0, h4⟩ := C52_efficiency h1 h2 h3 r
    have he : measuredEfficiency table r = some e := he
    rw [hy, Option.some.injEq] at he
    rw [← he]; exact ⟨h0, h4⟩
  | sensor m h1 h2 h3 h4 h5 h6 => exact C51_efficiency m hw hn ha hc hc1 h1 h2 h3 h4 h5 h6 he

/-- **C34** for one surface: a coated surface struck against its normal by light in a transparent medium passes on at most
the energy that arrives, and leaves the medium as it is. -/
theorem C34_surface_partial {w n : ℝ} (hw : 0 < w) (hn : 0 < n) {s : Surface} {r out : Ray} (hs : NotAmplifying w s.material)
    (hr : s.rulings = none) (hb : Bright w n r) (h : s.propagate r = some out) (hf : Facing s r out) :
    Bright w n out ∧ (0 ≤ r.intensity → 0 ≤ out.intensity ∧ out.intensity ≤ r.intensity) := by
  obtain ⟨rin, u, e1, e2, hp, hu, iw, ii, hd, he1, he2, -, hatt, ia, hI⟩ := C15_one_surface h
  rw [hp] at hu
  obtain ⟨hu1, hc⟩ := hf u hu
  obtain ⟨r1, w1, i1, a1, m1, m2, -, ow⟩ := medium_behind h
  rw [(hs.medium r1).1, Option.some.injEq] at m1
  rw [(hs.medium r1).2, Option.some.injEq] at m2
  have oi : out.index = n := by rw [← m1, i1, hb.index]
  have oa : out.attenuation = 0 := by rw [← m2, a1, hb.attenuation]
  have ou : out.direction.dot out.direction = 1 := by
    obtain ⟨v, hv, hsn⟩ := surface_plain h hr
    rw [hu, Option.some.injEq] at hv
    subst hv
    have := snell_unit hsn hu1
    rwa [Rigid.ivec_dot_ivec] at this
  refine ⟨⟨?_, oi, oa, ou⟩, fun h0 => ?_⟩
  · rw [ow, oi, hb.index, hb.wavelength]; field_simp
  · have hd1 : (s.frame.ivec r.direction).dot (s.frame.ivec r.direction) = 1 := by
      rw [Rigid.ivec_dot_ivec]; exact hb.unit
    have hc1 : -1 ≤ (s.frame.ivec r.direction).dot u := by
      have h2 := V3.dot_self_nonneg (s.frame.ivec r.direction + u)
      simp only [V3.dot, add_x, add_y, add_z] at h2 hd1 hu1 ⊢
      nlinarith
    have he := hs.efficiency hw (r := rin) (u := u) (iw.trans hb.wavelength) (by rw [ii, hb.index]; exact hn)
      (by rw [ia, hb.attenuation]) (by rw [hd hr]; exact hc) (by rw [hd hr]; exact hc1) he1
    rw [hI, hb.attenuation, he2 hr]
    simp only [zero_mul, neg_zero, Real.exp_zero, mul_one]
    exact ⟨mul_nonneg h0 he.1, mul_le_of_le_one_right h0 he.2⟩

/-- Every surface in turn is struck against its normal. -/
def Struck : List Surface → Ray → Prop
  | [], _ => True
  | s :: ss, r => ∀ out, s.propagate r = some out → Facing s r out ∧ Struck ss out

/-- **C34** for a system: any number of coated surfaces, each struck against its normal, pass on at most the energy that
arrives. -/
theorem C34_system_partial {w n : ℝ} (hw : 0 < w) (hn : 0 < n) {ss : List Surface} {r out : Ray}
    (hs : ∀ s ∈ ss, NotAmplifying w s.material ∧ s.rulings = none) (hb : Bright w n r) (h0 : 0 ≤ r.intensity)
    (hst : Struck ss r) (h : propagateSurfaces ss r = some out) :
    0 ≤ out.intensity ∧ out.intensity ≤ r.intensity := by
  induction ss generalizing r with
  | nil =>
    rw [propagateSurfaces_nil, Option.some.injEq] at h
    subst h
    exact ⟨h0, le_rfl⟩
  | cons s ss ih =>
    rw [propagateSurfaces_cons, Option.bind_eq_some_iff] at h
    obtain ⟨m, hm, h⟩ := h
    obtain ⟨hf, hst⟩ := hst m hm
    obtain ⟨hb1, hI⟩ := C34_surface_partial hw hn (hs s (by simp)).1 (hs s (by simp)).2 hb hm hf
    obtain ⟨h1, h2⟩ := hI h0
    obtain ⟨h3, h4⟩ := ih (fun t ht => hs t (by simp [ht])) hb1 h1 hst h
    exact ⟨h3, h4.trans h2⟩

/-! ## C70 for surfaces -/

/-- The cosine of the angle between the arriving ray and the normal `u` of the surface. -/
noncomputable def Surface.cosine (s : Surface) (r : Ray) (u : V3) : ℝ := -((s.frame.ivec r.direction).dot u)

/-- **C70** for a coated mirror: what arrives at the mirror is multiplied by the mean reflectivity that Maxwell's equations
give for the layers at the angle of incidence.  Missing: cosines that are not real, see `C70_p_partial`. -/
theorem C70_mirror_surface_partial {s : Surface} {r out : Ray} {layers : Stack} {sub : Option Layer}
    (hm : s.material = multilayerMirror layers sub) (hr : s.rulings = none) (hw : r.wavelength ≠ 0)
    (hcount : layers.Counted) {n : ℂ} (hn : MediumIndex r n) (h : s.propagate r = some out) {u : V3}
    (hu : s.sag.normal (s.frame.ipoint out.position) = some u) {slabs : List Slab} {cs : ℂ}
    (hc : Coated r.wavelength n (s.cosine r u) layers.flat sub slabs cs) :
    ∃ ρ t ρ' t', WavesS r.wavelength ((substrateLayer sub).n r.wavelength) cs t n (s.cosine r u) 1 ρ slabs ∧
      WavesP r.wavelength ((substrateLayer sub).n r.wavelength) cs t' n (s.cosine r u) 1 ρ' slabs ∧
      out.intensity = r.intensity * Real.exp (-(r.attenuation * (out.position - r.position).len))
        * ((‖ρ‖ ^ 2 + ‖ρ'‖ ^ 2) / 2) := by
  obtain ⟨rin, v, e1, e2, hp, hv, iw, ii, hd, he1, he2, -, hatt, ia, hI⟩ := C15_one_surface h
  rw [hp, hu, Option.some.injEq] at hv
  subst hv
  rw [hm] at he1
  have he1 : multilayerMirrorEfficiency layers sub rin u = some e1 := he1
  have hdc : s.cosine r u = -(rin.direction.dot u) := by rw [hd hr]; rfl
  rw [hdc, ← iw] at hc
  obtain ⟨ρ, t, ρ', t', h1, h2, h3⟩ := C70_mirror_partial (by rw [iw]; exact hw) hcount
    (n := n) ⟨by rw [ii]; exact hn.re, fun z => by rw [iw, ia]; exact hn.decay z⟩ hc he1
  rw [hdc, ← iw]
  exact ⟨ρ, t, ρ', t', h1, h2, by rw [hI, he2 hr, mul_one, h3]⟩

/-- **C70** for a film: what arrives at the film is multiplied by the mean transmissivity that Maxwell's equations give for
the layers, with vacuum behind the film. -/
theorem C70_film_surface_partial {s : Surface} {r out : Ray} {layers : Stack}
    (hm : s.material = multilayerFilm layers) (hr : s.rulings = none) (hw : r.wavelength ≠ 0)
    (hcount : layers.Counted) {n : ℂ} (hn : MediumIndex r n) (h : s.propagate r = some out) {u : V3}
    (hu : s.sag.normal (s.frame.ipoint out.position) = some u) {slabs : List Slab} {cs : ℂ}
    (hc : Coated r.wavelength n (s.cosine r u) layers.flat none slabs cs) :
    ∃ ρ t ρ' t', WavesS r.wavelength 1 cs t n (s.cosine r u) 1 ρ slabs ∧
      WavesP r.wavelength 1 cs t' n (s.cosine r u) 1 ρ' slabs ∧
      out.intensity = r.intensity * Real.exp (-(r.attenuation * (out.position - r.position).len))
        * (((cs / (n * s.cosine r u)).re * ‖t‖ ^ 2 + (cs / (s.cosine r u / n)).re * ‖1 / n‖ ^ 2 * ‖t'‖ ^ 2) / 2) := by
  obtain ⟨rin, v, e1, e2, hp, hv, iw, ii, hd, he1, he2, -, hatt, ia, hI⟩ := C15_one_surface h
  rw [hp, hu, Option.some.injEq] at hv
  subst hv
  rw [hm] at he1
  have he1 : multilayerFilmEfficiency layers rin u = some e1 := he1
  have hdc : s.cosine r u = -(rin.direction.dot u) := by rw [hd hr]; rfl
  rw [hdc, ← iw] at hc
  obtain ⟨ρ, t, ρ', t', h1, h2, h3⟩ := C70_film_partial (by rw [iw]; exact hw) hcount
    (n := n) ⟨by rw [ii]; exact hn.re, fun z => by rw [iw, ia]; exact hn.decay z⟩ hc he1
  rw [hdc, ← iw]
  exact ⟨ρ, t, ρ', t', h1, h2, by rw [hI, he2 hr, mul_one, h3]⟩

/-- **C70** for a filter in vacuum: what arrives is multiplied by the mean transmissivity of the layer between its oxides and
by the fraction of the area that the mesh leaves open. -/
theorem C70_filter_surface_partial {s : Surface} {r out : Ray} {layer oxide : Layer} {mesh : ℝ}
    (hm : s.material = thinFilmFilter (.layer layer) (.layer oxide) mesh) (hr : s.rulings = none) (hw : r.wavelength ≠ 0)
    (hi : r.index = 1) (ha : r.attenuation = 0) (h : s.propagate r = some out) {u : V3}
    (hu : s.sag.normal (s.frame.ipoint out.position) = some u) (hin : 0 < s.cosine r u) {slabs : List Slab}
    (hc : Coated r.wavelength 1 (s.cosine r u) [oxide, layer, oxide] none slabs (s.cosine r u)) :
    ∃ ρ t ρ' t', WavesS r.wavelength 1 (s.cosine r u) t 1 (s.cosine r u) 1 ρ slabs ∧
      WavesP r.wavelength 1 (s.cosine r u) t' 1 (s.cosine r u) 1 ρ' slabs ∧
      out.intensity = r.intensity * (mesh * ((‖t‖ ^ 2 + ‖t'‖ ^ 2) / 2)) := by
  obtain ⟨rin, v, e1, e2, hp, hv, iw, ii, hd, he1, he2, -, hatt, ia, hI⟩ := C15_one_surface h
  rw [hp, hu, Option.some.injEq] at hv
  subst hv
  rw [hm] at he1
  have he1 : thinFilmEfficiency (.layer layer) (.layer oxide) mesh rin u = some e1 := he1
  have hdc : s.cosine r u = -(rin.direction.dot u) := by rw [hd hr]; rfl
  rw [hdc, ← iw] at hc
  rw [hdc] at hin
  obtain ⟨ρ, t, ρ', t', h1, h2, h3⟩ := C70_filter_partial (by rw [iw]; exact hw) (by rw [ii, hi]) (by rw [ia, ha])
    (by linarith) hc he1
  rw [hdc, ← iw]
  exact ⟨ρ, t, ρ', t', h1, h2, by rw [hI, he2 hr, ha, h3]; simp⟩

/-- **C52** for a surface: a measured mirror multiplies what arrives by the efficiency interpolated at the wavelength. -/
theorem C52_surface {s : Surface} {r out : Ray} {t : List (ℝ × ℝ)} (hm : s.material = measuredMirror t)
    (hr : s.rulings = none) (ht : Increasing t) (h : s.propagate r = some out) {i : ℕ} (hi : i + 1 < t.length)
    (h1 : t[i].1 ≤ r.wavelength) (h2 : r.wavelength < t[i + 1].1) :
    out.intensity = r.intensity * Real.exp (-(r.attenuation * (out.position - r.position).len))
      * (((t[i + 1].1 - r.wavelength) * t[i].2 + (r.wavelength - t[i].1) * t[i + 1].2) / (t[i + 1].1 - t[i].1)) := by
  obtain ⟨rin, v, e1, e2, hp, hv, iw, ii, hd, he1, he2, -, hatt, ia, hI⟩ := C15_one_surface h
  rw [hm] at he1
  have he1 : interp none none t rin.wavelength = some e1 := he1
  rw [iw, C52_between ht none none hi h1 h2, Option.some.injEq] at he1
  rw [hI, he2 hr, mul_one, he1]

/-- The plane mirror of polished glass, and a ray that strikes it from behind. -/
noncomputable def glassMirror : Surface where
  sag := flatSag
  material := multilayerMirror (.sequence []) (some ⟨fun _ => 3 / 2, 0, none⟩)
  rulings := none
  aperture := none
  transformation := none

/-- A ray that strikes the plane mirror along its normal. -/
def fromBehind : Ray where
  wavelength := 1
  position := ⟨0, 0, 1⟩
  direction := ⟨0, 0, -1⟩
  intensity := 1
  attenuation := 0
  index := 1
  unvignetted := true

theorem glass_p_counterexample :
    multilayerEfficiency 1 false (-1) 1 (.sequence []) (some ⟨fun _ => 3 / 2, 0, none⟩) = some (25, -24) := by
  have hs : snellsLawScalar (-1) 1 (3 / 2) = 1 := by
    rw [snellsLawScalar_eq]
    exact csqrt_unique (by norm_num) (by simp) (by simp)
  have m1 : momentum false (-1) 1 = -1 := by rw [momentum_p_real (by simp)]; norm_num
  have m2 : momentum false 1 (3 / 2) = 2 / 3 := by rw [momentum_p_real (by simp)]; norm_num
  have hr : refraction 1 (-1) 1 false 1 (3 / 2) none = some !![1 / 6, 5 / 6; 5 / 6, 1 / 6] := by
    rw [refraction_eq_some]
    refine ⟨by norm_num, by norm_num, ?_, ?_, ?_⟩
    · rw [m1, m2]; norm_num
    · rw [m1]; norm_num
    · rw [m1, m2]; unfold interfaceMatrix; norm_num
  unfold multilayerEfficiency multilayerCoefficients multilayerTransfer
  simp only [substrateLayer, Option.elim_some, Stack.transfer, transferAll, Layer.transfer, hs,
    propagation_zero, if_true, hr, mul?_one_left, Option.map_some, mul_one]
  norm_num [m1, m2]

theorem glass_coated : NotAmplifying 1 glassMirror.material := by
  refine .mirror _ _ (by simp [Stack.Counted, CountedAll]) (by simp [Stack.flat, flatAll]) ?_
  exact ⟨by simp [substrateLayer], by simp [substrateLayer]; norm_num, by simp [substrateLayer], by simp [substrateLayer],
    by simp [substrateLayer]⟩

/-- **C34** fails for light that strikes a coated surface along its normal, such as the light that returns to the second
mirror of a telescope: a plane mirror of glass multiplies the intensity by 25. -/
theorem C34_surface_counterexample : NotAmplifying 1 glassMirror.material ∧ Bright 1 1 fromBehind ∧
    ∃ out, glassMirror.propagate fromBehind = some out ∧ fromBehind.intensity = 1 ∧ out.intensity = 25 := by
  refine ⟨glass_coated, ⟨rfl, rfl, rfl, by norm_num [fromBehind, dot]⟩, ⟨1, 0, ⟨0, 0, 1⟩, 25, 0, 1, true⟩, ?_, rfl, rfl⟩
  have hs : snellsLaw ⟨0, 0, -1⟩ 1 1 true ⟨0, 0, -1⟩ = some ⟨0, 0, 1⟩ := by
    rw [snellsLaw_iff true (by simp [dot]) one_pos one_pos (by simp [dot])]
    refine ⟨⟨by norm_num [dot], by apply V3.ext <;> simp [tang, dot]⟩, by norm_num [OppositeSide, dot]⟩
  have hi : flatIntercept ⟨0, 0, 1⟩ ⟨0, 0, -1⟩ = some 0 := by
    unfold flatIntercept
    rw [div?_of_ne (by simp)]
    simp
    apply V3.ext <;> simp
  have he : ∀ q, multilayerMirrorEfficiency (.sequence []) (some ⟨fun _ => 3 / 2, 0, none⟩)
      { fromBehind with position := q } ⟨0, 0, -1⟩ = some 25 := by
    intro q
    have hd : ((-((fromBehind.direction).dot ⟨0, 0, -1⟩) : ℝ) : ℂ) = -1 := by norm_num [fromBehind, dot]
    unfold multilayerMirrorEfficiency multilayerAverage
    have hn : rayIndex { fromBehind with position := q } = 1 := by simp [rayIndex, fromBehind]
    simp only [hn, hd]
    show (do
      let s ← multilayerEfficiency 1 true (-1) 1 (.sequence []) (some ⟨fun _ => 3 / 2, 0, none⟩)
      let p ← multilayerEfficiency 1 false (-1) 1 (.sequence []) (some ⟨fun _ => 3 / 2, 0, none⟩)
      return ((s.1 + p.1) / 2, (s.2 + p.2) / 2) : Option (ℝ × ℝ)).map (·.1) = _
    rw [C34_mirror_counterexample, glass_p_counterexample]
    norm_num
  have he := he 0
  simp only [fromBehind] at he
  simp [glassMirror, fromBehind, Surface.propagate, Surface.propagateLocal, Sag.propagate, flatSag, hi, Surface.interact, div?,
    Surface.effectiveRay, flatNormal, multilayerMirror, Surface.rulingFactor, Surface.clip, hs, he]

/-- The same mirror struck against its normal reflects a twenty-fifth of the light. -/
example : let r : Ray := ⟨1, ⟨0, 0, -1⟩, ⟨0, 0, 1⟩, 1, 0, 1, true⟩
    NotAmplifying 1 glassMirror.material ∧ Bright 1 1 r ∧ Struck [glassMirror] r ∧
    propagateSurfaces [glassMirror] r = some ⟨1, 0, ⟨0, 0, -1⟩, 1 / 25, 0, 1, true⟩ := by
  intro r
  have hs : snellsLaw ⟨0, 0, 1⟩ 1 1 true ⟨0, 0, -1⟩ = some ⟨0, 0, -1⟩ := by
    rw [snellsLaw_iff true (by simp [dot]) one_pos one_pos (by simp [dot])]
    refine ⟨⟨by norm_num [dot], by apply V3.ext <;> simp [tang, dot]⟩, by norm_num [OppositeSide, dot]⟩
  have hi : flatIntercept ⟨0, 0, -1⟩ ⟨0, 0, 1⟩ = some 0 := by
    unfold flatIntercept
    rw [div?_of_ne (by simp)]
    simp
    apply V3.ext <;> simp
  have hsc : snellsLawScalar 1 1 (3 / 2) = 1 := by
    rw [snellsLawScalar_eq]
    exact csqrt_unique (by norm_num) (by simp) (by simp)
  have m1 : momentum false 1 1 = 1 := by rw [momentum_p_real (by simp)]; norm_num
  have m2 : momentum false 1 (3 / 2) = 2 / 3 := by rw [momentum_p_real (by simp)]; norm_num
  have h1 : multilayerEfficiency 1 true 1 1 (.sequence []) (some ⟨fun _ => 3 / 2, 0, none⟩) = some (1 / 25, 24 / 25) := by
    have hr : refraction 1 1 1 true 1 (3 / 2) none = some !![5 / 4, -1 / 4; -1 / 4, 5 / 4] := by
      rw [refraction_eq_some]
      refine ⟨by norm_num, by norm_num, ?_, ?_, ?_⟩
      · rw [momentum_s, momentum_s]; norm_num
      · rw [momentum_s]; norm_num
      · rw [momentum_s, momentum_s]; unfold interfaceMatrix; norm_num
    unfold multilayerEfficiency multilayerCoefficients multilayerTransfer
    simp only [substrateLayer, Option.elim_some, Stack.transfer, transferAll, Layer.transfer, hsc,
      propagation_zero, if_true, hr, mul?_one_left, Option.map_some, mul_one]
    norm_num [momentum_s]
  have h2 : multilayerEfficiency 1 false 1 1 (.sequence []) (some ⟨fun _ => 3 / 2, 0, none⟩) = some (1 / 25, 24 / 25) := by
    have hr : refraction 1 1 1 false 1 (3 / 2) none = some !![5 / 6, 1 / 6; 1 / 6, 5 / 6] := by
      rw [refraction_eq_some]
      refine ⟨by norm_num, by norm_num, ?_, ?_, ?_⟩
      · rw [m1, m2]; norm_num
      · rw [m1]; norm_num
      · rw [m1, m2]; unfold interfaceMatrix; norm_num
    unfold multilayerEfficiency multilayerCoefficients multilayerTransfer
    simp only [substrateLayer, Option.elim_some, Stack.transfer, transferAll, Layer.transfer, hsc,
      propagation_zero, if_true, hr, mul?_one_left, Option.map_some, mul_one]
    norm_num [m1, m2]
  have he : multilayerMirrorEfficiency (.sequence []) (some ⟨fun _ => 3 / 2, 0, none⟩)
      ⟨1, 0, ⟨0, 0, 1⟩, 1, 0, 1, true⟩ ⟨0, 0, -1⟩ = some (1 / 25) := by
    have hd : ((-((⟨0, 0, 1⟩ : V3).dot ⟨0, 0, -1⟩) : ℝ) : ℂ) = 1 := by norm_num [dot]
    have hn : rayIndex ⟨1, 0, ⟨0, 0, 1⟩, 1, 0, 1, true⟩ = 1 := by simp [rayIndex]
    unfold multilayerMirrorEfficiency multilayerAverage
    simp only [hn, hd, h1, h2]
    norm_num
  have hp : glassMirror.propagate r = some ⟨1, 0, ⟨0, 0, -1⟩, 1 / 25, 0, 1, true⟩ := by
    norm_num at he
    simp [r, glassMirror, Surface.propagate, Surface.propagateLocal, Sag.propagate, flatSag, hi, Surface.interact, div?,
      Surface.effectiveRay, flatNormal, multilayerMirror, Surface.rulingFactor, Surface.clip, hs, he]
  refine ⟨glass_coated, ⟨rfl, rfl, rfl, by norm_num [r, dot]⟩, fun out ho => ⟨fun u hu => ?_, trivial⟩, ?_⟩
  · have hu : some (⟨0, 0, -1⟩ : V3) = some u := hu
    rw [Option.some.injEq] at hu
    subst hu
    refine ⟨by norm_num [dot], ?_⟩
    norm_num [dot, r, Surface.frame, glassMirror, Rigid.ivec, Rigid.id, M3.one, M3.mulVec, M3.transpose]
  · rw [propagateSurfaces_cons, hp, Option.bind_some, propagateSurfaces_nil]

/-- The bare mirror of glass meets what `C70_mirror_surface_partial` assumes: without layers, and with light along the
normal on both sides of the surface. -/
example : let r : Ray := ⟨1, ⟨0, 0, -1⟩, ⟨0, 0, 1⟩, 1, 0, 1, true⟩
    glassMirror.cosine r ⟨0, 0, -1⟩ = 1 ∧ MediumIndex r 1 ∧
    Coated 1 1 ((1 : ℝ) : ℂ) (Stack.sequence []).flat (some ⟨fun _ => 3 / 2, 0, none⟩) [] 1 := by
  intro r
  refine ⟨?_, ⟨by simp [r], fun z => ?_⟩, ⟨one_ne_zero, by simp [Stack.flat, flatAll], by simp [substrateLayer],
    .nil, by simp, by simp, ⟨by simp [substrateLayer]; try ring, by simp, by simp⟩, by simp⟩⟩
  · norm_num [Surface.cosine, dot, r, Surface.frame, glassMirror, Rigid.ivec, Rigid.id, M3.one, M3.mulVec, M3.transpose]
  · rw [Complex.norm_exp, ← Real.exp_nat_mul, Real.exp_eq_exp, Complex.div_ofReal_re]
    simp [r]

/-- A measured mirror, between two points of its table. -/
example : let t : List (ℝ × ℝ) := [(1, 1 / 2), (3, 1)]
    let s : Surface := ⟨flatSag, measuredMirror t, none, none, none⟩
    Increasing t ∧ ∃ out, s.propagate ⟨2, ⟨0, 0, -1⟩, ⟨0, 0, 1⟩, 1, 0, 1, true⟩ = some out ∧ out.intensity = 3 / 4 := by
  intro t s
  have ht : Increasing t := by simp [Increasing, t]
  have hs : snellsLaw ⟨0, 0, 1⟩ 1 1 true ⟨0, 0, -1⟩ = some ⟨0, 0, -1⟩ := by
    rw [snellsLaw_iff true (by simp [dot]) one_pos one_pos (by simp [dot])]
    refine ⟨⟨by norm_num [dot], by apply V3.ext <;> simp [tang, dot]⟩, by norm_num [OppositeSide, dot]⟩
  have hi : flatIntercept ⟨0, 0, -1⟩ ⟨0, 0, 1⟩ = some 0 := by
    unfold flatIntercept
    rw [div?_of_ne (by simp)]
    simp
    apply V3.ext <;> simp
  have he : interp none none t 2 = some (3 / 4) := by
    rw [C52_between ht none none (i := 0) (by simp [t]) (by simp [t]) (by norm_num [t])]
    norm_num [t]
  refine ⟨ht, ⟨2, 0, ⟨0, 0, -1⟩, 3 / 4, 0, 1, true⟩, ?_, rfl⟩
  simp [s, Surface.propagate, Surface.propagateLocal, Sag.propagate, flatSag, hi, Surface.interact, div?,
    Surface.effectiveRay, flatNormal, measuredMirror, measuredEfficiency, Surface.rulingFactor, Surface.clip, hs, he]

end Optika
