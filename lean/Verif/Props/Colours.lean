import Verif.Props.Astigmatism
import Verif.Props.PlaneGrating
import Mathlib.Analysis.SpecialFunctions.Trigonometric.InverseDeriv

/-!
# C108: light of different colours parts only at rulings and in dispersive media
-/

namespace Optika
open V3

/-! ## Specification -/

/-- Two rays, maybe of different wavelengths and intensities, that run along the same path in the same medium, and are both
vignetted or not. -/
structure SamePath (r r' : Ray) : Prop where
  position : r'.position = r.position
  direction : r'.direction = r.direction
  index : r'.index = r.index
  unvignetted : r'.unvignetted = r.unvignetted

/-- A material whose index of refraction is the same for light of all wavelengths: mirrors, the vacuum, and idealised
glasses. -/
def Material.Colourless (m : Material) : Prop :=
  ∀ r r' : Ray, r'.position = r.position → r'.direction = r.direction → r'.index = r.index → m.index r' = m.index r

/-- A surface that has no reason to part light of different wavelengths: if there are rulings, then the order is zero. -/
structure Surface.Colourless (s : Surface) : Prop where
  material : s.material.Colourless
  rulings : ∀ ru, s.rulings = some ru → ru.order = 0

/-! ## Proofs -/

theorem effectiveRay_zero {s : Surface} (h : ∀ ru, s.rulings = some ru → ru.order = 0) {r r1 : Ray} {u : V3}
    (h1 : s.effectiveRay r u = some r1) : r1 = r := by
  unfold Surface.effectiveRay at h1
  cases e : s.rulings with
  | none => rw [e] at h1; exact (Option.some.inj h1).symm
  | some ru =>
    rw [e] at h1
    simp only [Option.map_eq_some_iff] at h1
    obtain ⟨d, hd, rfl⟩ := h1
    cases hsp : ru.spacing r.position u with
    | none => rw [hsp] at hd; simp [rulingsIncidentEffective] at hd
    | some k =>
      rw [hsp, rulingsIncidentEffective_some, h ru e] at hd
      obtain ⟨-, -, rfl⟩ := hd
      have : r.direction = ({ r with direction := r.direction } : Ray).direction := rfl
      cases r
      congr 1
      apply V3.ext <;> vsimp <;> simp

theorem clip_samePath {s : Surface} {r r' o o' : Ray} (h : SamePath r r') (ho : s.clip r = some o)
    (ho' : s.clip r' = some o') : SamePath o o' := by
  unfold Surface.clip at ho ho'
  cases e : s.aperture with
  | none =>
    rw [e] at ho ho'
    rw [← Option.some.inj ho, ← Option.some.inj ho']
    exact h
  | some a =>
    rw [e] at ho ho'
    simp only [Aperture.clip] at ho ho'
    cases hu : a.unit <;> rw [hu] at ho ho' <;> simp only [reduceCtorEq, Option.some.injEq] at ho ho'
    · rw [← ho, ← ho']
      exact ⟨h.position, h.direction, h.index, by simp only [h.position, h.unvignetted]⟩
    · rw [← ho, ← ho']
      exact ⟨h.position, h.direction, h.index, by simp only [h.direction, h.unvignetted]⟩

theorem local_samePath {s : Surface} (hs : s.Colourless) {r r' out out' : Ray} (h : SamePath r r')
    (ho : s.propagateLocal r = some out) (ho' : s.propagateLocal r' = some out') : SamePath out out' := by
  obtain ⟨q, u, r1, n2, b, e1, e2, att, hq, hu, he, hp, hw, hi, ha, hv, hI, hn2, -, -, hb, -, -, -, -, -, -, -, -, -, hc⟩
    := propagateLocal_eq_some ho
  obtain ⟨q', u', r1', n2', b', e1', e2', att', hq', hu', he', hp', hw', hi', ha', hv', hI', hn2', -, -, hb', -, -, -,
    -, -, -, -, -, -, hc'⟩ := propagateLocal_eq_some ho'
  rw [h.position, h.direction, hq, Option.some.injEq] at hq'
  subst hq'
  rw [hu, Option.some.injEq] at hu'
  subst hu'
  have d1 : r1.direction = r.direction := by rw [effectiveRay_zero hs.rulings he]
  have d1' : r1'.direction = r.direction := by rw [effectiveRay_zero hs.rulings he', ← h.direction]
  have en : n2' = n2 := by
    have := hs.material r1 r1' (by rw [hp, hp']) (by rw [d1, d1']) (by rw [hi, hi', h.index])
    rw [hn2, hn2'] at this
    exact Option.some.inj this
  subst en
  rw [d1, hi] at hb
  rw [d1', hi', h.index, hb, Option.some.injEq] at hb'
  subst hb'
  refine clip_samePath ?_ hc hc'
  exact ⟨by simp only [hp, hp'], rfl, rfl, by simp only [hv, hv', h.unvignetted]⟩

theorem surface_samePath {s : Surface} (hs : s.Colourless) {r r' out out' : Ray} (h : SamePath r r')
    (ho : s.propagate r = some out) (ho' : s.propagate r' = some out') : SamePath out out' := by
  rw [Surface.propagate_eq, Option.map_eq_some_iff] at ho ho'
  obtain ⟨o, ho, rfl⟩ := ho
  obtain ⟨o', ho', rfl⟩ := ho'
  have := local_samePath hs (r := r.unmove s.frame) (r' := r'.unmove s.frame)
    ⟨by simp [Ray.unmove, h.position], by simp [Ray.unmove, h.direction], h.index, h.unvignetted⟩ ho ho'
  exact ⟨by simp [Ray.move, this.position], by simp [Ray.move, this.direction], this.index, this.unvignetted⟩

/-- **C108**: systems of mirrors, and all others without dispersive media and with rulings in order zero at most, are free of
chromatic aberration: light of all wavelengths runs along the same path and is vignetted at the same places. -/
theorem C108_achromatic {ss : List Surface} (hs : ∀ s ∈ ss, s.Colourless) {r r' out out' : Ray} (h : SamePath r r')
    (ho : propagateSurfaces ss r = some out) (ho' : propagateSurfaces ss r' = some out') : SamePath out out' := by
  induction ss generalizing r r' with
  | nil =>
    rw [propagateSurfaces_nil, Option.some.injEq] at ho ho'
    rw [← ho, ← ho']
    exact h
  | cons s ss ih =>
    rw [propagateSurfaces_cons, Option.bind_eq_some_iff] at ho ho'
    obtain ⟨m, hm, ho⟩ := ho
    obtain ⟨m', hm', ho'⟩ := ho'
    exact ih (fun t ht => hs t (List.mem_cons_of_mem _ ht))
      (surface_samePath (hs s List.mem_cons_self) h hm hm') ho ho'

/-- **C108**: mirrors and the vacuum are colourless. -/
theorem C108_mirror : mirror.Colourless ∧ vacuum.Colourless :=
  ⟨fun r r' _ _ h => by simp [mirror, h], fun _ _ _ _ _ => rfl⟩

theorem meets_same {s : Surface} {r r' out out' : Ray} (hp : r'.position = r.position)
    (hd : r'.direction = r.direction) (ho : s.propagate r = some out) (ho' : s.propagate r' = some out') :
    out'.position = out.position := by
  rw [Surface.propagate_eq, Option.map_eq_some_iff] at ho ho'
  obtain ⟨o, ho, rfl⟩ := ho
  obtain ⟨o', ho', rfl⟩ := ho'
  obtain ⟨q, u, r1, n2, b, e1, e2, att, hq, -, -, -, -, -, -, -, -, -, -, -, -, -, -, -, -, op, -⟩
    := propagateLocal_eq_some ho
  obtain ⟨q', u', r1', n2', b', e1', e2', att', hq', -, -, -, -, -, -, -, -, -, -, -, -, -, -, -, -, op', -⟩
    := propagateLocal_eq_some ho'
  have : q' = q := by
    simp only [Ray.unmove, hp, hd] at hq hq'
    rw [hq, Option.some.injEq] at hq'
    exact hq'.symm
  simp only [Ray.move, op, op', this]

/-- **C108**: rays of two wavelengths that strike rulings at the same point in the same direction leave it from the same point,
and the components along the surface of index times direction differ by the order times the difference of the wavelengths
over the spacing of the rulings, in the direction across the rulings. -/
theorem C108_rulings {s : Surface} {r r' out out' : Ray} (h : SamePath r r')
    (ho : s.propagate r = some out) (ho' : s.propagate r' = some out') {ru : RulingProfile} {δ : V3 → ℝ} {g : V3}
    (hr : s.rulings = some ru) (hg : g.dot g = 1) (hsp : ∀ q u, ru.spacing q u = some (δ q • g))
    (hδ : ∀ q, δ q ≠ 0) {u : V3} (hu : s.sag.normal (s.frame.ipoint out.position) = some u)
    (h1 : 0 < r.index) (h2 : 0 < out.index) (h2' : 0 < out'.index) :
    out'.position = out.position ∧
      ∃ c : ℝ, out'.index • s.frame.ivec out'.direction - out.index • s.frame.ivec out.direction
        = (sgn ((s.frame.ivec r.direction).dot u) * (ru.order * (r'.wavelength - r.wavelength)
            / δ (s.frame.ipoint out.position))) • g + c • u := by
  have hp := meets_same h.position h.direction ho ho'
  refine ⟨hp, ?_⟩
  obtain ⟨c, hc⟩ := bend_along (σ := sgn ((s.frame.ivec r.direction).dot u)) (l := r.wavelength)
    (G := fun q => (sgn ((s.frame.ivec r.direction).dot u) * (ru.order * r.wavelength / δ q)) • g)
    (.inr ⟨ru, δ, g, hr, hg, hsp, fun _ _ => rfl⟩) ho rfl hu h1 h2 rfl
  obtain ⟨c', hc'⟩ := bend_along (σ := sgn ((s.frame.ivec r.direction).dot u)) (l := r'.wavelength)
    (G := fun q => (sgn ((s.frame.ivec r.direction).dot u) * (ru.order * r'.wavelength / δ q)) • g)
    (.inr ⟨ru, δ, g, hr, hg, hsp, fun _ _ => rfl⟩) ho' rfl (by rw [hp]; exact hu) (by rw [h.index]; exact h1) h2'
    (by rw [h.direction])
  rw [h.index, h.direction, hp] at hc'
  refine ⟨c' - c, ?_⟩
  have e1 := congrArg V3.x hc; have e2 := congrArg V3.y hc; have e3 := congrArg V3.z hc
  have f1 := congrArg V3.x hc'; have f2 := congrArg V3.y hc'; have f3 := congrArg V3.z hc'
  vsimp at e1 e2 e3 f1 f2 f3
  apply V3.ext <;> vsimp
  · linear_combination f1 - e1
  · linear_combination f2 - e2
  · linear_combination f3 - e3

/-- **C108** (angular dispersion): the angle of the diffracted light, seen in the direction across the rulings, grows with the
wavelength by the order over the spacing times the index and the cosine of the angle. -/
theorem C108_angle {s : Surface} {f o : ℝ → Ray} {w n : ℝ} (hf : ∀ l, SamePath (f w) (f l))
    (hl : ∀ l, (f l).wavelength = l) (ho : ∀ᶠ l in nhds w, s.propagate (f l) = some (o l))
    (hn : ∀ᶠ l in nhds w, (o l).index = n) (h1 : 0 < (f w).index) (h2 : 0 < n)
    {ru : RulingProfile} {δ : V3 → ℝ} {g : V3}
    (hr : s.rulings = some ru) (hg : g.dot g = 1) (hsp : ∀ q u, ru.spacing q u = some (δ q • g))
    (hδ : ∀ q, δ q ≠ 0) {u : V3} (hu : s.sag.normal (s.frame.ipoint (o w).position) = some u) (hgu : g.dot u = 0)
    (hb : |(s.frame.ivec (o w).direction).dot g| < 1) :
    HasDerivAt (fun l => Real.arcsin ((s.frame.ivec (o l).direction).dot g))
      (sgn ((s.frame.ivec (f w).direction).dot u) * ru.order / (δ (s.frame.ipoint (o w).position) * n
        * Real.cos (Real.arcsin ((s.frame.ivec (o w).direction).dot g)))) w := by
  set σ := sgn ((s.frame.ivec (f w).direction).dot u)
  set D := δ (s.frame.ipoint (o w).position) with hD
  have how := ho.self_of_nhds
  have hnw := hn.self_of_nhds
  have key : ∀ᶠ l in nhds w, (s.frame.ivec (o l).direction).dot g
      = (s.frame.ivec (o w).direction).dot g + σ * ru.order / (D * n) * (l - w) := by
    filter_upwards [ho, hn] with l hol hnl
    obtain ⟨-, c, hc⟩ := C108_rulings (hf l) how hol hr hg hsp hδ hu h1 (by rw [hnw]; exact h2) (by rw [hnl]; exact h2)
    rw [hnl, hnw, hl, hl] at hc
    have eu : u.x * g.x + u.y * g.y + u.z * g.z = 0 := by unfold V3.dot at hgu; linarith
    have eg : g.x * g.x + g.y * g.y + g.z * g.z = 1 := hg
    have : n * ((s.frame.ivec (o l).direction).dot g - (s.frame.ivec (o w).direction).dot g)
        = σ * (ru.order * (l - w) / D) := by
      change (_ = (σ * (ru.order * (l - w) / D)) • g + c • u) at hc
      generalize σ * (ru.order * (l - w) / D) = K at hc ⊢
      have e := congrArg (fun v => v.dot g) hc
      simp only [V3.dot, add_x, add_y, add_z, sub_x, sub_y, sub_z, smul_x, smul_y, smul_z] at e ⊢
      linear_combination e + c * eu + K * eg
    have hD0 : D ≠ 0 := hδ _
    field_simp at this ⊢
    linear_combination this
  have hlin : HasDerivAt (fun l => (s.frame.ivec (o w).direction).dot g + σ * ru.order / (D * n) * (l - w))
      (σ * ru.order / (D * n)) w := by
    have := ((hasDerivAt_id w).sub_const w).const_mul (σ * ru.order / (D * n))
    simpa using this.const_add ((s.frame.ivec (o w).direction).dot g)
  have hx := (hlin.congr_of_eventuallyEq key)
  obtain ⟨hb1, hb2⟩ := abs_lt.1 hb
  have := (Real.hasDerivAt_arcsin hb1.ne' hb2.ne).comp w hx
  refine (this.congr_deriv ?_)
  rw [Real.cos_arcsin]
  have hD0 : D ≠ 0 := hδ _
  have hsq : 0 < Real.sqrt (1 - (s.frame.ivec (o w).direction).dot g ^ 2) := by
    apply Real.sqrt_pos.2
    nlinarith
  field_simp

/-- **C108** (refraction): of two rays that enter a dispersive glass along the same path the one for which the index is larger
is turned further towards the normal. -/
theorem C108_glass {s : Surface} {r r' out out' : Ray} (h : SamePath r r') (hr : s.rulings = none)
    (ho : s.propagate r = some out) (ho' : s.propagate r' = some out') {u : V3}
    (hu : s.sag.normal (s.frame.ipoint out.position) = some u) (hu1 : u.dot u = 1)
    (hd : r.direction.dot r.direction = 1) (hd' : out.direction.dot out.direction = 1)
    (hd'' : out'.direction.dot out'.direction = 1)
    (h2 : 0 < out.index) (hlt : out.index < out'.index) :
    out'.position = out.position ∧
    out.index ^ 2 * (1 - (s.frame.ivec out.direction).dot u ^ 2)
      = out'.index ^ 2 * (1 - (s.frame.ivec out'.direction).dot u ^ 2) ∧
    |(s.frame.ivec out.direction).dot u| ≤ |(s.frame.ivec out'.direction).dot u| ∧
    (|(s.frame.ivec out.direction).dot u| < 1 →
      |(s.frame.ivec out.direction).dot u| < |(s.frame.ivec out'.direction).dot u|) := by
  have hp := meets_same h.position h.direction ho ho'
  obtain ⟨u1, hu1', hs⟩ := surface_plain ho hr
  obtain ⟨u2, hu2', hs'⟩ := surface_plain ho' hr
  rw [hu, Option.some.injEq] at hu1'
  rw [hp, hu, Option.some.injEq] at hu2'
  subst hu1' hu2'
  have h2' : 0 < out'.index := h2.trans hlt
  obtain ⟨c, hc⟩ := snell_along h2.ne' hs
  obtain ⟨c', hc'⟩ := snell_along h2'.ne' hs'
  rw [h.index, h.direction] at hc'
  have ub : (s.frame.ivec out.direction).dot (s.frame.ivec out.direction) = 1 := by rw [Rigid.ivec_dot_ivec]; exact hd'
  have ub' : (s.frame.ivec out'.direction).dot (s.frame.ivec out'.direction) = 1 := by rw [Rigid.ivec_dot_ivec]; exact hd''
  generalize s.frame.ivec out.direction = b at *
  generalize s.frame.ivec out'.direction = b' at *
  generalize s.frame.ivec r.direction = a at *
  have E : out.index ^ 2 * (1 - b.dot u ^ 2) = out'.index ^ 2 * (1 - b'.dot u ^ 2) := by
    have e : out.index • b = out'.index • b' + (c - c') • u := by
      rw [hc, hc']; vring
    have n1 : out.index ^ 2 = out'.index ^ 2 + 2 * out'.index * (c - c') * b'.dot u + (c - c') ^ 2 := by
      have := congrArg (fun v => V3.dot v v) e
      have l1 : (out.index • b).dot (out.index • b) = out.index ^ 2 * b.dot b := by simp only [V3.dot, V3.cross, add_x, add_y, add_z, smul_x, smul_y, smul_z]; ring
      have l2 : (out'.index • b' + (c - c') • u).dot (out'.index • b' + (c - c') • u)
          = out'.index ^ 2 * b'.dot b' + 2 * out'.index * (c - c') * b'.dot u + (c - c') ^ 2 * u.dot u := by simp only [V3.dot, V3.cross, add_x, add_y, add_z, smul_x, smul_y, smul_z]; ring
      simp only [l1, l2, ub, ub', hu1] at this
      linarith
    have n2 : out.index * b.dot u = out'.index * b'.dot u + (c - c') := by
      have := congrArg (fun v => V3.dot v u) e
      have l1 : (out.index • b).dot u = out.index * b.dot u := by simp only [V3.dot, V3.cross, add_x, add_y, add_z, smul_x, smul_y, smul_z]; ring
      have l2 : (out'.index • b' + (c - c') • u).dot u = out'.index * b'.dot u + (c - c') * u.dot u := by simp only [V3.dot, V3.cross, add_x, add_y, add_z, smul_x, smul_y, smul_z]; ring
      simp only [l1, l2, hu1] at this
      linarith
    linear_combination n1 - (out.index * b.dot u + out'.index * b'.dot u + (c - c')) * n2
  have hsq : out.index ^ 2 < out'.index ^ 2 := by nlinarith
  have hle : b.dot u ^ 2 ≤ 1 := by
    have : b.dot u ^ 2 + (b.cross u).dot (b.cross u) = b.dot b * u.dot u := by simp only [V3.dot, V3.cross, add_x, add_y, add_z, smul_x, smul_y, smul_z]; ring
    have h0 : 0 ≤ (b.cross u).dot (b.cross u) := by unfold V3.dot; nlinarith [sq_nonneg (b.cross u).x, sq_nonneg (b.cross u).y, sq_nonneg (b.cross u).z]
    rw [ub, hu1] at this
    linarith
  have hle' : b'.dot u ^ 2 ≤ 1 := by
    have : b'.dot u ^ 2 + (b'.cross u).dot (b'.cross u) = b'.dot b' * u.dot u := by simp only [V3.dot, V3.cross, add_x, add_y, add_z, smul_x, smul_y, smul_z]; ring
    have h0 : 0 ≤ (b'.cross u).dot (b'.cross u) := by unfold V3.dot; nlinarith [sq_nonneg (b'.cross u).x, sq_nonneg (b'.cross u).y, sq_nonneg (b'.cross u).z]
    rw [ub', hu1] at this
    linarith
  refine ⟨hp, E, ?_, fun hlt1 => ?_⟩
  · rw [← sq_le_sq]
    by_contra hcon
    push Not at hcon
    nlinarith [mul_pos (pow_pos h2 2) (sub_pos.2 hcon)]
  · rw [← sq_lt_sq]
    have h1b : b.dot u ^ 2 < 1 := by rw [sq_lt_one_iff_abs_lt_one]; exact hlt1
    by_contra hcon
    push Not at hcon
    have : (out'.index ^ 2 - out.index ^ 2) * (1 - b.dot u ^ 2) > 0 := mul_pos (by linarith) (by linarith)
    nlinarith [mul_nonneg (pow_pos h2' 2).le (sub_nonneg.2 hcon)]

/-! ## Examples -/

/-- A ray of wavelength `w` towards the origin. -/
noncomputable def colouredRay (w : ℝ) (d : V3) : Ray := ⟨w, -d, d, 1, 0, 1, true⟩

/-- A flat mirror, seen by light of all wavelengths. -/
example : let s : Surface := ⟨flatSag, mirror, none, none, none⟩
    s.Colourless ∧ SamePath (colouredRay 1 ⟨0, 0, 1⟩) (colouredRay 2 ⟨0, 0, 1⟩) ∧
    ∀ w, propagateSurfaces [s] (colouredRay w ⟨0, 0, 1⟩) = some ⟨w, 0, ⟨0, 0, -1⟩, 1, 0, 1, true⟩ := by
  intro s
  refine ⟨⟨C108_mirror.1, by simp [s]⟩, ⟨rfl, rfl, rfl, rfl⟩, fun w => ?_⟩
  have hs : snellsLaw ⟨0, 0, 1⟩ 1 1 true ⟨0, 0, -1⟩ = some ⟨0, 0, -1⟩ := by
    rw [snellsLaw_iff true (by simp [dot]) one_pos one_pos (by simp [dot])]
    refine ⟨⟨by norm_num [dot], by apply V3.ext <;> simp [tang, dot]⟩, by norm_num [OppositeSide, dot]⟩
  have hi : flatIntercept (-⟨0, 0, 1⟩) ⟨0, 0, 1⟩ = some 0 := by
    unfold flatIntercept
    rw [div?_of_ne (by simp)]
    simp
    apply V3.ext <;> simp
  rw [propagateSurfaces_cons]
  simp [s, Surface.propagate, Surface.propagateLocal, Sag.propagate, flatSag, hi, Surface.interact, div?,
    Surface.effectiveRay, flatNormal, mirror, Surface.rulingFactor, Surface.clip, colouredRay, hs, propagateSurfaces_nil]

/-- Light on a plane grating, for wavelengths near 3. -/
example : let s := planeGrating mirror 5 1 none none
    let f := fun l => colouredRay l ⟨0, 0, 1⟩
    ∃ o : ℝ → Ray, (∀ l, SamePath (f 3) (f l)) ∧ (∀ᶠ l in nhds 3, s.propagate (f l) = some (o l)) ∧
      (∀ᶠ l in nhds 3, (o l).index = 1) ∧ s.sag.normal (s.frame.ipoint (o 3).position) = some ⟨0, 0, -1⟩ ∧
      |(s.frame.ivec (o 3).direction).dot ⟨1, 0, 0⟩| < 1 := by
  intro s f
  have hseen : s.seen ⟨0, 0, 1⟩ = ⟨0, 0, 1⟩ := by
    apply V3.ext <;> simp [s, planeGrating, Surface.seen, dot, Surface.frame, Rigid.ivec, Rigid.id, M3.one, M3.mulVec,
      M3.transpose]
  have hall : ∀ᶠ l in nhds (3 : ℝ), s.propagate (f l) = some ((s.propagate (f l)).getD (f l)) := by
    filter_upwards [Ioo_mem_nhds (show (0 : ℝ) < 3 by norm_num) (show (3 : ℝ) < 5 by norm_num)] with l hl
    obtain ⟨out, ho⟩ := (C95_exists (material := mirror) (.inl rfl) (d := 5) (m := 1) (by norm_num) (frame := none)
      (r := f l) one_pos (n2 := 1) (by simp [mirror, f, colouredRay])).2 (.inl (by
        have e : (planeGrating mirror 5 1 none none).seen (f l).direction = ⟨0, 0, 1⟩ := hseen
        simp only [e]
        obtain ⟨h1, h2⟩ := hl
        have : (f l).wavelength = l := rfl
        have h3 : (f l).index = 1 := rfl
        rw [this, h3]
        constructor
        · norm_num
        · nlinarith))
    have ho : s.propagate (f l) = some out := ho
    rw [ho]
    rfl
  refine ⟨fun l => (s.propagate (f l)).getD (f l), fun l => ⟨rfl, rfl, rfl, rfl⟩, hall, ?_, rfl, ?_⟩
  · filter_upwards [hall] with l hl
    rw [(C15_mirror_medium rfl hl).2.1]
    rfl
  · have h3 := hall.self_of_nhds
    have hi : ((s.propagate (f 3)).getD (f 3)).index = 1 := by
      rw [(C15_mirror_medium rfl h3).2.1]
      rfl
    have h1 := (C95_equation (material := mirror) (.inl rfl) (d := 5) (m := 1) (by norm_num)
      (ap := none) (frame := none) (r := f 3) one_pos h3).2.2.2.2.1 (by
        change 0 < (s.seen ⟨0, 0, 1⟩).z
        rw [hseen]
        exact one_pos)
    change ((s.propagate (f 3)).getD (f 3)).index * (s.frame.ivec ((s.propagate (f 3)).getD (f 3)).direction).x
      = 1 * (s.seen ⟨0, 0, 1⟩).x - 1 * 3 / 5 at h1
    rw [hi, hseen] at h1
    have : (s.frame.ivec ((s.propagate (f 3)).getD (f 3)).direction).dot ⟨1, 0, 0⟩ = -3 / 5 := by
      simp only [dot]
      linarith
    rw [this]
    norm_num [abs_lt]

/-- A glass with a larger index for the shorter one of two waves. -/
noncomputable def twoColourGlass : Material :=
  ⟨fun r => some (if r.wavelength = 1 then 52 / 25 else 4 / 3), fun _ => some 0, fun _ _ => some 1, false⟩

example : let s : Surface := ⟨flatSag, twoColourGlass, none, none, none⟩
    ∃ out out', s.propagate (colouredRay 2 ⟨4 / 5, 0, 3 / 5⟩) = some out ∧
      s.propagate (colouredRay 1 ⟨4 / 5, 0, 3 / 5⟩) = some out' ∧ out.direction = ⟨3 / 5, 0, 4 / 5⟩ ∧
      out'.direction = ⟨5 / 13, 0, 12 / 13⟩ ∧ out.index = 4 / 3 ∧ out'.index = 52 / 25 := by
  intro s
  have hs : snellsLaw ⟨4 / 5, 0, 3 / 5⟩ 1 (4 / 3) false ⟨0, 0, -1⟩ = some ⟨3 / 5, 0, 4 / 5⟩ := by
    rw [snellsLaw_iff false (by simp [dot]) one_pos (by norm_num) (by norm_num [dot])]
    refine ⟨⟨by norm_num [dot], by apply V3.ext <;> norm_num [tang, dot]⟩, by norm_num [SameSide, dot]⟩
  have hs' : snellsLaw ⟨4 / 5, 0, 3 / 5⟩ 1 (52 / 25) false ⟨0, 0, -1⟩ = some ⟨5 / 13, 0, 12 / 13⟩ := by
    rw [snellsLaw_iff false (by simp [dot]) one_pos (by norm_num) (by norm_num [dot])]
    refine ⟨⟨by norm_num [dot], by apply V3.ext <;> norm_num [tang, dot]⟩, by norm_num [SameSide, dot]⟩
  have hi : flatIntercept (-⟨4 / 5, 0, 3 / 5⟩) ⟨4 / 5, 0, 3 / 5⟩ = some 0 := by
    unfold flatIntercept
    rw [div?_of_ne (by norm_num)]
    simp
    apply V3.ext <;> norm_num
  refine ⟨⟨8 / 3, 0, ⟨3 / 5, 0, 4 / 5⟩, 1, 0, 4 / 3, true⟩, ⟨52 / 25, 0, ⟨5 / 13, 0, 12 / 13⟩, 1, 0, 52 / 25, true⟩,
    ?_, ?_, rfl, rfl, rfl, rfl⟩ <;>
  norm_num [s, Surface.propagate, Surface.propagateLocal, Sag.propagate, flatSag, hi, Surface.interact, div?,
    Surface.effectiveRay, flatNormal, twoColourGlass, Surface.rulingFactor, Surface.clip, colouredRay, hs, hs']

end Optika
