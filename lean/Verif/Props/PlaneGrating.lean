import Verif.Props.SurfaceOptics
import Verif.Props.Transformed
import Mathlib.Analysis.SpecialFunctions.Trigonometric.InverseDeriv

/-!
# C95: plane gratings
-/

namespace Optika
open V3

/-- A plane grating with straight equidistant rulings perpendicular to its `x` axis. -/
noncomputable def planeGrating (material : Material) (spacing order : ℝ) (aperture : Option Aperture)
    (frame : Option Rigid) : Surface :=
  ⟨flatSag, material, aperture, some (idealRulings spacing order), frame⟩

/-- The direction of a ray in the frame of a surface. -/
noncomputable def Surface.seen (s : Surface) (u : V3) : V3 := s.frame.ivec u

theorem Surface.seen_inj {s : Surface} {u v : V3} (h : s.seen u = s.seen v) : u = v := by
  rw [← Rigid.vec_ivec s.frame u, ← Rigid.vec_ivec s.frame v]
  exact congrArg _ h

/-- A ray that strikes a plane is not parallel to it. -/
theorem struck_plane {s : Surface} (hs : s.sag = flatSag) {r out : Ray} (h : s.propagate r = some out) :
    (s.seen r.direction).z ≠ 0 := by
  rw [Surface.propagate_eq] at h
  simp only [Option.map_eq_some_iff] at h
  obtain ⟨o, ho, rfl⟩ := h
  obtain ⟨q, normal, r1, n2, b, e1, e2, att, hq, -⟩ := propagateLocal_eq_some ho
  rw [hs] at hq
  intro h0
  have h1 : (r.unmove s.frame).direction.z = 0 := h0
  rw [show flatSag.intercept = flatIntercept from rfl] at hq
  simp [flatIntercept, div?, h1] at hq

/-- **C95**, the grating equation: in the frame of the grating the component of the wave vector along
the rulings is kept, and the component across them changes by `m λ / d`, down for light that arrives
with increasing `z` and up for light with decreasing `z`.  The direction is a unit vector on the side
of the incident light for mirrors and on the other side for vacuum. -/
theorem C95_equation {material : Material} (hm : material = mirror ∨ material = vacuum) {d m : ℝ}
    (hd : d ≠ 0) {ap : Option Aperture} {frame : Option Rigid} {r out : Ray} (hr : 0 < r.index)
    (h : (planeGrating material d m ap frame).propagate r = some out) :
    let a := (planeGrating material d m ap frame).seen r.direction
    let b := (planeGrating material d m ap frame).seen out.direction
    a.z ≠ 0 ∧ 0 < out.index ∧ b.x ^ 2 + b.y ^ 2 + b.z ^ 2 = 1 ∧ out.index * b.y = r.index * a.y
      ∧ (0 < a.z → out.index * b.x = r.index * a.x - m * r.wavelength / d)
      ∧ (a.z < 0 → out.index * b.x = r.index * a.x + m * r.wavelength / d)
      ∧ (material = mirror → a.z * b.z ≤ 0) ∧ (material = vacuum → 0 ≤ a.z * b.z) := by
  intro a b
  have hz : a.z ≠ 0 := struck_plane rfl h
  have hout : 0 < out.index := by
    rcases hm with rfl | rfl
    · rw [(C15_mirror_medium rfl h).2.1]; exact hr
    · rw [(C15_vacuum_medium rfl h).2]; exact one_pos
  have hdot : ∀ v : V3, v.dot ⟨0, 0, -1⟩ = -v.z := fun v => by simp [dot]
  obtain ⟨⟨p1, p2⟩, p3, p4⟩ := C06_surface (u := ⟨0, 0, -1⟩) (g := ⟨1, 0, 0⟩) (d := d) h rfl rfl rfl hd
    (by simp [dot]) (by simp [dot]) (by simp [dot]) hr hout (by
      rw [hdot]; exact neg_ne_zero.2 hz)
  change b.dot b = 1 at p1
  change out.index • b.tang _ = r.index • a.tang _ + ((if a.dot _ < 0 then -1 else 1)
    * ((idealRulings d m).order * r.wavelength / d)) • _ at p2
  change _ → SameSide a b _ at p3
  change _ → OppositeSide a b _ at p4
  have ho : (idealRulings d m).order = m := rfl
  rw [hdot, ho] at p2
  have py : out.index * b.y = r.index * a.y := by
    have := congrArg V3.y p2
    split_ifs at this <;> simpa [tang, dot] using this
  have pp : 0 < a.z → out.index * b.x = r.index * a.x - m * r.wavelength / d := fun ha => by
    rw [if_pos (by linarith)] at p2
    have := congrArg V3.x p2
    simp [tang, dot] at this
    linarith
  have pn : a.z < 0 → out.index * b.x = r.index * a.x + m * r.wavelength / d := fun ha => by
    rw [if_neg (by linarith)] at p2
    have := congrArg V3.x p2
    simp [tang, dot] at this
    linarith
  refine ⟨hz, hout, ?_, py, pp, pn, ?_, ?_⟩
  · simp only [dot] at p1; linarith
  · rintro rfl
    have := p4 rfl
    unfold OppositeSide at this
    rw [hdot, hdot] at this
    linarith
  · rintro rfl
    have := p3 rfl
    unfold SameSide at this
    rw [hdot, hdot] at this
    linarith

/-- **C95**, autocollimation: a ray that meets the Littrow condition in the plane across the rulings is
sent back where it came from. -/
theorem C95_littrow {d m : ℝ} (hd : d ≠ 0) {ap : Option Aperture} {frame : Option Rigid} {r out : Ray}
    (hr : 0 < r.index) (hu : r.direction.dot r.direction = 1)
    (h : (planeGrating mirror d m ap frame).propagate r = some out)
    (hy : ((planeGrating mirror d m ap frame).seen r.direction).y = 0)
    (hz : 0 < ((planeGrating mirror d m ap frame).seen r.direction).z)
    (hl : 2 * r.index * ((planeGrating mirror d m ap frame).seen r.direction).x
      = m * r.wavelength / d) : out.direction = -r.direction := by
  obtain ⟨-, -, h1, h2, h3, -, h4, -⟩ := C95_equation (Or.inl rfl) hd hr h
  have hi := (C15_mirror_medium rfl h).2.1
  have hua : ((planeGrating mirror d m ap frame).seen r.direction).dot
      ((planeGrating mirror d m ap frame).seen r.direction) = 1 := by
    unfold Surface.seen
    rw [Rigid.ivec_dot_ivec, hu]
  have hneg : (planeGrating mirror d m ap frame).seen (-r.direction)
      = -(planeGrating mirror d m ap frame).seen r.direction := by
    unfold Surface.seen Rigid.ivec
    apply V3.ext <;> simp [M3.mulVec, dot] <;> ring
  replace h3 := h3 hz
  replace h4 := h4 rfl
  apply Surface.seen_inj (s := planeGrating mirror d m ap frame)
  rw [hneg]
  generalize (planeGrating mirror d m ap frame).seen r.direction = a at *
  generalize (planeGrating mirror d m ap frame).seen out.direction = b at *
  rw [hi] at h2 h3
  simp only [dot] at hua
  have ey : b.y = 0 := by
    rw [hy, mul_zero] at h2
    exact (mul_eq_zero.1 h2).resolve_left hr.ne'
  have ex : b.x = -a.x := by
    apply mul_left_cancel₀ hr.ne'
    rw [← hl] at h3
    linarith
  have ez : b.z = -a.z := by
    have hsq : b.z ^ 2 = a.z ^ 2 := by
      rw [ey, ex] at h1
      rw [hy] at hua
      nlinarith
    rcases sq_eq_sq_iff_eq_or_eq_neg.1 hsq with e | e
    · rw [e] at h4; nlinarith
    · exact e
  apply V3.ext
  · simpa using ex
  · simp [ey, hy]
  · simpa using ez

/-- **C95**: a pair of equal plane reflection gratings with parallel frames undoes the dispersion:
light of every wavelength leaves the pair in the direction in which it came. -/
theorem C95_pair {d m : ℝ} (hd : d ≠ 0) {ap1 ap2 : Option Aperture} {f1 f2 : Option Rigid}
    (hf : ∀ v, (planeGrating mirror d m ap2 f2).seen v = (planeGrating mirror d m ap1 f1).seen v)
    {r mid out : Ray} (hr : 0 < r.index) (hu : r.direction.dot r.direction = 1)
    (h1 : (planeGrating mirror d m ap1 f1).propagate r = some mid)
    (h2 : (planeGrating mirror d m ap2 f2).propagate mid = some out) :
    out.direction = r.direction := by
  obtain ⟨-, hi, hw⟩ := C15_mirror_medium rfl h1
  obtain ⟨-, hi2, hw2⟩ := C15_mirror_medium rfl h2
  obtain ⟨z1, -, u1, y1, p1, n1, s1, -⟩ := C95_equation (Or.inl rfl) hd hr h1
  obtain ⟨z2, -, u2, y2, p2, n2, s2, -⟩ := C95_equation (Or.inl rfl) hd (by rw [hi]; exact hr) h2
  simp only [hf] at z2 u2 y2 p2 n2 s2
  replace s1 := s1 rfl
  replace s2 := s2 trivial
  have hua : ((planeGrating mirror d m ap1 f1).seen r.direction).dot
      ((planeGrating mirror d m ap1 f1).seen r.direction) = 1 := by
    unfold Surface.seen
    rw [Rigid.ivec_dot_ivec, hu]
  apply Surface.seen_inj (s := planeGrating mirror d m ap1 f1)
  generalize (planeGrating mirror d m ap1 f1).seen r.direction = a at *
  generalize (planeGrating mirror d m ap1 f1).seen mid.direction = b at *
  generalize (planeGrating mirror d m ap1 f1).seen out.direction = c at *
  rw [hi2, hi] at y2 p2 n2
  rw [hw] at p2 n2
  rw [hi] at y1 p1 n1
  simp only [dot] at hua
  have ey : c.y = a.y := mul_left_cancel₀ hr.ne' (y2.trans y1)
  have hsz : a.z * c.z * (b.z) ^ 2 ≥ 0 := by nlinarith
  have hb2 : 0 < b.z ^ 2 := by positivity
  have hac : 0 ≤ a.z * c.z := by
    by_contra hcon
    push Not at hcon
    nlinarith
  have ex : c.x = a.x := by
    apply mul_left_cancel₀ hr.ne'
    rcases lt_or_gt_of_ne z1 with h | h
    · have hb : 0 < b.z := by
        rcases lt_or_gt_of_ne z2 with h' | h'
        · nlinarith
        · exact h'
      have := n1 h
      have := p2 hb
      linarith
    · have hb : b.z < 0 := by
        rcases lt_or_gt_of_ne z2 with h' | h'
        · exact h'
        · nlinarith
      have := p1 h
      have := n2 hb
      linarith
  have ez : c.z = a.z := by
    have hsq : c.z ^ 2 = a.z ^ 2 := by
      rw [ey, ex] at u2
      nlinarith
    rcases sq_eq_sq_iff_eq_or_eq_neg.1 hsq with e | e
    · exact e
    · rw [e] at hac
      have : 0 < a.z ^ 2 := by positivity
      nlinarith
  exact V3.ext ex ey ez

/-- **C95**, dispersion: of two rays with the same direction the one with the longer wavelength is
turned further, for positive orders. -/
theorem C95_dispersion {material : Material} (hm : material = mirror ∨ material = vacuum) {d m : ℝ}
    (hd : 0 < d) (hm0 : 0 < m) {ap : Option Aperture} {frame : Option Rigid} {r r' out out' : Ray}
    (hr : 0 < r.index) (hi : r'.index = r.index) (hdir : r'.direction = r.direction)
    (hz : 0 < ((planeGrating material d m ap frame).seen r.direction).z)
    (hw : r.wavelength < r'.wavelength)
    (h : (planeGrating material d m ap frame).propagate r = some out)
    (h' : (planeGrating material d m ap frame).propagate r' = some out') :
    ((planeGrating material d m ap frame).seen out'.direction).x
      < ((planeGrating material d m ap frame).seen out.direction).x := by
  have e : out'.index = out.index := by
    rcases hm with rfl | rfl
    · rw [(C15_mirror_medium rfl h).2.1, (C15_mirror_medium rfl h').2.1, hi]
    · rw [(C15_vacuum_medium rfl h).2, (C15_vacuum_medium rfl h').2]
  obtain ⟨-, hpos, -, -, h1, -⟩ := C95_equation hm hd.ne' hr h
  obtain ⟨-, -, -, -, h2, -⟩ := C95_equation hm hd.ne' (by rw [hi]; exact hr) h'
  rw [hdir] at h2
  replace h1 := h1 hz
  replace h2 := h2 hz
  have : m * r.wavelength / d < m * r'.wavelength / d := by
    apply div_lt_div_of_pos_right _ hd
    exact mul_lt_mul_of_pos_left hw hm0
  rw [hi, e] at h2
  exact lt_of_mul_lt_mul_left (by linarith) hpos.le

/-- Propagation by a plane grating without an aperture, once the direction is known. -/
theorem planeGrating_isSome {material : Material} (hm : material = mirror ∨ material = vacuum)
    {d m : ℝ} {frame : Option Rigid} {r : Ray} (hr : 0 < r.index) {n2 : ℝ} (hn : 0 < n2)
    (hi : ∀ r' : Ray, r'.index = r.index → material.index r' = some n2)
    (hz : ((planeGrating material d m none frame).seen r.direction).z ≠ 0) {b : V3}
    (hb : ((rulingsIncidentEffective (some (d • (⟨1, 0, 0⟩ : V3))) m r.wavelength
        ((planeGrating material d m none frame).seen r.direction) r.index ⟨0, 0, -1⟩).bind fun k =>
          snellsLaw k r.index n2 material.isMirror ⟨0, 0, -1⟩) = some b) :
    ((planeGrating material d m none frame).propagate r).isSome := by
  obtain ⟨k, hk, hb⟩ := Option.bind_eq_some_iff.1 hb
  rw [Surface.propagate_eq, Option.isSome_map]
  obtain ⟨r0, h0, hd0, hw0, hi0⟩ : ∃ r0, (planeGrating material d m none frame).sag.propagate
      (r.unmove (planeGrating material d m none frame).frame) = some r0
      ∧ r0.direction = (planeGrating material d m none frame).seen r.direction
      ∧ r0.wavelength = r.wavelength ∧ r0.index = r.index := by
    have hz' : (r.unmove (planeGrating material d m none frame).frame).direction.z ≠ 0 := hz
    have hsag : (planeGrating material d m none frame).sag = flatSag := rfl
    rw [hsag]
    generalize hr' : r.unmove (planeGrating material d m none frame).frame = r' at hz'
    obtain ⟨q, hq⟩ : ∃ q, flatSag.intercept r'.position r'.direction = some q :=
      ⟨_, by
        simp only [flatSag, flatIntercept, div?, if_neg hz', Option.bind_eq_bind,
          Option.bind_some, Option.pure_def]
        rfl⟩
    refine ⟨{ r' with position := q, intensity := Real.exp (-r'.attenuation * (q - r'.position).len)
      * r'.intensity }, ?_, ?_, ?_, ?_⟩
    · simp only [Sag.propagate, hq, Option.bind_eq_bind, Option.bind_some, Option.pure_def]
    · rw [← hr']; rfl
    · rw [← hr']; rfl
    · rw [← hr']; rfl
  unfold Surface.propagateLocal
  rw [h0]
  have heff : (planeGrating material d m none frame).effectiveRay r0 ⟨0, 0, -1⟩
      = some { r0 with direction := k } := by
    unfold Surface.effectiveRay
    rw [← hd0, ← hw0, ← hi0] at hk
    change (rulingsIncidentEffective (some (d • (⟨1, 0, 0⟩ : V3))) m r0.wavelength r0.direction
      r0.index ⟨0, 0, -1⟩).map _ = _
    rw [hk]
    rfl
  have hnorm : (planeGrating material d m none frame).sag.normal r0.position = some ⟨0, 0, -1⟩ := rfl
  have hfac : ∀ x, (planeGrating material d m none frame).rulingFactor x ⟨0, 0, -1⟩ = some 1 :=
    fun x => rfl
  have hmat : (planeGrating material d m none frame).material = material := rfl
  have hrat : r.index / n2 ≠ 0 := div_ne_zero hr.ne' hn.ne'
  simp only [Option.bind_eq_bind, Option.bind_some, Surface.interact, hnorm, heff, hmat]
  rw [hi { r0 with direction := k } hi0]
  simp only [Option.bind_some, div?, hi0, if_neg hn.ne', if_neg hrat, hb, hfac]
  rcases hm with rfl | rfl <;> simp [mirror, vacuum, planeGrating, Surface.clip]

/-- **C95**: an order of a plane grating without an aperture exists exactly when the ray is not
parallel to the grating and the new tangential components fit into the wave vector. -/
theorem C95_exists {material : Material} (hm : material = mirror ∨ material = vacuum) {d m : ℝ}
    (hd : d ≠ 0) {frame : Option Rigid} {r : Ray} (hr : 0 < r.index) {n2 : ℝ}
    (hn : n2 = if material.isMirror then r.index else 1) :
    let a := (planeGrating material d m none frame).seen r.direction
    (∃ out, (planeGrating material d m none frame).propagate r = some out) ↔
      0 < a.z ∧ (r.index * a.x - m * r.wavelength / d) ^ 2 + (r.index * a.y) ^ 2 ≤ n2 ^ 2
      ∨ a.z < 0 ∧ (r.index * a.x + m * r.wavelength / d) ^ 2 + (r.index * a.y) ^ 2 ≤ n2 ^ 2 := by
  intro a
  have hn2 : 0 < n2 := by
    rw [hn]
    split_ifs
    · exact hr
    · exact one_pos
  have hi : ∀ r' : Ray, r'.index = r.index → material.index r' = some n2 := fun r' e => by
    rcases hm with rfl | rfl
    · simp only [mirror, hn, if_true]; rw [e]
    · simp [vacuum, hn]
  constructor
  · rintro ⟨out, h⟩
    have hout : out.index = n2 := by
      rcases hm with rfl | rfl
      · rw [(C15_mirror_medium rfl h).2.1]; simp [hn, mirror]
      · rw [(C15_vacuum_medium rfl h).2]; simp [hn, vacuum]
    obtain ⟨z, -, u, y, hp, hq, -⟩ := C95_equation hm hd hr h
    rw [hout] at y hp hq
    rcases lt_or_gt_of_ne z with hz | hz
    · refine Or.inr ⟨hz, ?_⟩
      rw [← hq hz, ← y]
      nlinarith [mul_nonneg (sq_nonneg n2) (sq_nonneg
        ((planeGrating material d m none frame).seen out.direction).z)]
    · refine Or.inl ⟨hz, ?_⟩
      rw [← hp hz, ← y]
      nlinarith [mul_nonneg (sq_nonneg n2) (sq_nonneg
        ((planeGrating material d m none frame).seen out.direction).z)]
  · intro h
    have hz : a.z ≠ 0 := by
      rcases h with h | h
      · exact h.1.ne'
      · exact h.1.ne
    have hdot : ∀ v : V3, v.dot ⟨0, 0, -1⟩ = -v.z := fun v => by simp [dot]
    obtain ⟨c, hc, hle⟩ : ∃ c : ℝ, c = (if a.dot ⟨0, 0, -1⟩ < 0 then -1 else 1) * (m * r.wavelength / d)
        ∧ (r.index * a.x + c) ^ 2 + (r.index * a.y) ^ 2 ≤ n2 ^ 2 := by
      refine ⟨_, rfl, ?_⟩
      rw [hdot]
      rcases h with h | h
      · rw [if_pos (by linarith [h.1])]
        have := h.2
        nlinarith
      · rw [if_neg (by linarith [h.1])]
        have := h.2
        nlinarith
    set q : ℝ := Real.sqrt (n2 ^ 2 - ((r.index * a.x + c) ^ 2 + (r.index * a.y) ^ 2)) with hq
    have hq2 : q ^ 2 = n2 ^ 2 - ((r.index * a.x + c) ^ 2 + (r.index * a.y) ^ 2) :=
      Real.sq_sqrt (by linarith)
    obtain ⟨t, ht, hside⟩ : ∃ t : ℝ, t ^ 2 = 1 ∧ if material.isMirror then a.z * t ≤ 0 else 0 ≤ a.z * t := by
      rcases lt_or_gt_of_ne hz with h | h <;> split_ifs
      · exact ⟨1, by norm_num, by linarith⟩
      · exact ⟨-1, by norm_num, by linarith⟩
      · exact ⟨-1, by norm_num, by linarith⟩
      · exact ⟨1, by norm_num, by linarith⟩
    rw [← Option.isSome_iff_exists]
    refine planeGrating_isSome (b := ⟨(r.index * a.x + c) / n2, r.index * a.y / n2, t * q / n2⟩) hm hr hn2
      hi hz ?_
    change ((rulingsIncidentEffective _ m r.wavelength a r.index _).bind _) = _
    rw [ruled_iff material.isMirror (by simp [dot]) (by simp [dot]) (by simp [dot]) hr hn2 hd
      (by rw [hdot]; exact neg_ne_zero.2 hz), ← hc]
    refine ⟨⟨?_, ?_⟩, ?_⟩
    · simp only [dot]
      field_simp
      nlinarith
    · apply V3.ext <;> simp [tang, dot] <;> field_simp
    · have hq0 : 0 ≤ q / n2 := div_nonneg (Real.sqrt_nonneg _) hn2.le
      unfold OppositeSide SameSide
      simp only [hdot]
      split_ifs at hside ⊢
      · have := mul_nonneg (neg_nonneg.2 hside) hq0
        rw [mul_div_assoc]; nlinarith
      · have := mul_nonneg hside hq0
        rw [mul_div_assoc]; nlinarith

/-- **C95**, angular dispersion: in the plane across the rulings the angle between the diffracted ray
and the normal of the grating changes with the wavelength at the rate `m / (n d cos β)`. -/
theorem C95_angular {d m : ℝ} (hd : d ≠ 0) {ap : Option Aperture} {frame : Option Rigid} {r : Ray}
    (hr : 0 < r.index) (hz : 0 < ((planeGrating mirror d m ap frame).seen r.direction).z)
    (hy : ((planeGrating mirror d m ap frame).seen r.direction).y = 0) {out : ℝ → Ray} {w : ℝ}
    (h : ∀ᶠ v in nhds w, (planeGrating mirror d m ap frame).propagate { r with wavelength := v }
      = some (out v))
    (hg : ((planeGrating mirror d m ap frame).seen (out w).direction).z ≠ 0) :
    ∃ β, ((planeGrating mirror d m ap frame).seen (out w).direction)
        = ⟨Real.sin β, 0, -Real.cos β⟩ ∧ 0 < Real.cos β
      ∧ HasDerivAt (fun v => Real.arcsin ((planeGrating mirror d m ap frame).seen (out v).direction).x)
        (-(m / (r.index * d * Real.cos β))) w := by
  have hx : ∀ v, (planeGrating mirror d m ap frame).propagate { r with wavelength := v } = some (out v) →
      ((planeGrating mirror d m ap frame).seen (out v).direction).x
        = ((planeGrating mirror d m ap frame).seen r.direction).x - m * v / (r.index * d) := fun v hv => by
    obtain ⟨-, -, -, -, p, -⟩ := C95_equation (Or.inl rfl) hd (by exact hr) hv
    have e := (C15_mirror_medium rfl hv).2.1
    have := p hz
    rw [e] at this
    simp only at this
    field_simp
    field_simp at this
    linarith
  obtain ⟨-, -, u, y, -, -, s, -⟩ := C95_equation (Or.inl rfl) hd (by exact hr) h.self_of_nhds
  have ei := (C15_mirror_medium rfl h.self_of_nhds).2.1
  simp only at u y s ei
  rw [ei, hy, mul_zero] at y
  have y0 := (mul_eq_zero.1 y).resolve_left hr.ne'
  have s0 := s trivial
  set b := (planeGrating mirror d m ap frame).seen (out w).direction with hb
  have hbz : b.z < 0 := by
    rcases lt_or_gt_of_ne hg with h | h
    · exact h
    · nlinarith
  have hlt : b.x ^ 2 < 1 := by
    have : 0 < b.z ^ 2 := by positivity
    nlinarith
  obtain ⟨l1, l2⟩ := abs_lt.1 ((sq_lt_one_iff_abs_lt_one b.x).1 hlt)
  have hcos : Real.cos (Real.arcsin b.x) = -b.z := by
    rw [Real.cos_arcsin, show 1 - b.x ^ 2 = (-b.z) ^ 2 by rw [y0] at u; linarith, Real.sqrt_sq (by linarith)]
  refine ⟨Real.arcsin b.x, ?_, by rw [hcos]; linarith, ?_⟩
  · apply V3.ext
    · exact (Real.sin_arcsin l1.le l2.le).symm
    · exact y0
    · simp [hcos]
  · have hder : HasDerivAt (fun v => ((planeGrating mirror d m ap frame).seen (out v).direction).x)
        (-(m / (r.index * d))) w := by
      have : HasDerivAt (fun v : ℝ => ((planeGrating mirror d m ap frame).seen r.direction).x
          - m * v / (r.index * d)) (-(m / (r.index * d))) w := by
        have := (((hasDerivAt_id w).const_mul m).div_const (r.index * d)).const_sub
          ((planeGrating mirror d m ap frame).seen r.direction).x
        simpa using this
      exact this.congr_of_eventuallyEq (h.mono hx)
    have := (Real.hasDerivAt_arcsin (x := b.x) l1.ne' l2.ne).comp w hder
    refine this.congr_deriv ?_
    rw [← Real.cos_arcsin, hcos]
    have : -b.z ≠ 0 := neg_ne_zero.2 hg
    field_simp

/-- A shift along the optical axis. -/
def example_shift : Rigid where
  rot := M3.one
  shift := ⟨0, 0, -5⟩
  left_inv v := by apply V3.ext <;> simp [M3.one, M3.mulVec, M3.transpose, dot]
  right_inv v := by apply V3.ext <;> simp [M3.one, M3.mulVec, M3.transpose, dot]

theorem example_seen {material : Material} {d m : ℝ} {ap : Option Aperture} {f : Option Rigid}
    (hf : f = none ∨ f = some example_shift) (v : V3) : (planeGrating material d m ap f).seen v = v := by
  rcases hf with rfl | rfl <;>
  · apply V3.ext <;> simp [planeGrating, Surface.seen, Surface.frame, Rigid.ivec, Rigid.id, M3.one, M3.mulVec,
      M3.transpose, dot, example_shift]

/-- A plane reflection grating with a period of two wavelengths, hit along its normal, has a first
order, which meets a second grating facing the first one and is restored to its direction. -/
example : ∃ mid out : Ray,
    (planeGrating mirror 2 1 none none).propagate ⟨1, ⟨0, 0, -1⟩, ⟨0, 0, 1⟩, 1, 0, 1, true⟩ = some mid
    ∧ (planeGrating mirror 2 1 none (some example_shift)).propagate mid = some out
    ∧ out.direction = ⟨0, 0, 1⟩ := by
  obtain ⟨mid, h⟩ := (C95_exists (material := mirror) (Or.inl rfl) (d := 2) (m := 1) two_ne_zero
    (frame := none) (r := ⟨1, ⟨0, 0, -1⟩, ⟨0, 0, 1⟩, 1, 0, 1, true⟩) one_pos rfl).2 (by
      left
      rw [example_seen (Or.inl rfl)]
      simp [mirror]; norm_num)
  obtain ⟨-, hi, hw⟩ := C15_mirror_medium rfl h
  obtain ⟨-, -, u, y, p, -, s, -⟩ := C95_equation (Or.inl rfl) two_ne_zero (by exact one_pos) h
  simp only [example_seen (Or.inl rfl)] at u y p s
  simp only [hi, one_mul, mul_zero, mul_one] at y p
  have hx := p one_pos
  have hs := s trivial
  have hz : mid.direction.z < 0 := by
    rcases eq_or_lt_of_le (by linarith : mid.direction.z ≤ 0) with h | h
    · rw [h, hx, y] at u; norm_num at u
    · exact h
  obtain ⟨out, h'⟩ := (C95_exists (material := mirror) (Or.inl rfl) (d := 2) (m := 1) two_ne_zero
    (frame := some example_shift) (r := mid) (by rw [hi]; exact one_pos) rfl).2 (by
      right
      rw [example_seen (Or.inr rfl)]
      refine ⟨hz, ?_⟩
      rw [hx, hw, hi, y]
      simp [mirror])
  exact ⟨mid, out, h, h', C95_pair two_ne_zero (fun v => by
    rw [example_seen (Or.inl rfl), example_seen (Or.inr rfl)]) one_pos (by simp [dot]) h h'⟩

/-- The Littrow condition is met by light of wavelength one at thirty degrees to a grating of period
one in first order. -/
example : ∃ out : Ray, (planeGrating mirror 1 1 none none).propagate
      ⟨1, ⟨0, 0, -1⟩, ⟨1 / 2, 0, Real.sqrt 3 / 2⟩, 1, 0, 1, true⟩ = some out
    ∧ out.direction = ⟨-(1 / 2), 0, -(Real.sqrt 3 / 2)⟩ := by
  have h3 : Real.sqrt 3 ^ 2 = 3 := Real.sq_sqrt (by norm_num)
  have h30 : (0 : ℝ) < Real.sqrt 3 / 2 := by positivity
  obtain ⟨out, h⟩ := (C95_exists (material := mirror) (Or.inl rfl) (d := 1) (m := 1) one_ne_zero
    (frame := none) (r := ⟨1, ⟨0, 0, -1⟩, ⟨1 / 2, 0, Real.sqrt 3 / 2⟩, 1, 0, 1, true⟩) one_pos rfl).2 (by
      left
      rw [example_seen (Or.inl rfl)]
      refine ⟨h30, ?_⟩
      simp [mirror]; norm_num)
  refine ⟨out, h, ?_⟩
  rw [C95_littrow one_ne_zero one_pos (by simp only [dot]; nlinarith) h
    (by rw [example_seen (Or.inl rfl)]) (by rw [example_seen (Or.inl rfl)]; exact h30)
    (by rw [example_seen (Or.inl rfl)]; norm_num)]
  apply V3.ext <;> simp

end Optika
