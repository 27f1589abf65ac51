import Verif.Props.SagNormals
import Verif.Props.Propagation
import Mathlib.Analysis.SpecialFunctions.Trigonometric.Deriv

/-!
# Normals of transformed sags (C09), and the medium behind a surface (C15)
-/

namespace Optika
open V3 Filter Topology

theorem Rigid.translation_ipoint (t p : V3) : (Rigid.translation t).ipoint p = p - t := by
  apply V3.ext <;> simp [Rigid.ipoint, Rigid.translation, Rigid.id, M3.one, M3.mulVec,
    M3.transpose, dot]

/-- **C09**: if a sag is shifted by its transformation, the normal is perpendicular to the shifted
surface. -/
theorem C09_shifted_partial (s : Sag) (t : V3) {p n : V3}
    (hs : ∀ n, s.normal (p - t) = some n → IsGraphNormal s.height (p - t) n)
    (h : (s.withTransformation (.translation t)).normal p = some n) :
    IsGraphNormal (fun q => (s.height (q - t)).map (· + t.z)) p n := by
  have h : s.normal ((Rigid.translation t).ipoint p) = some n := h
  rw [Rigid.translation_ipoint] at h
  obtain ⟨h1, h2, dx, dy, hx, hy, h3, h4⟩ := hs _ h
  obtain ⟨f, hf, hfd⟩ := hx
  obtain ⟨k, hk, hkd⟩ := hy
  have ex : ∀ᶠ s' in 𝓝 p.x, s.height ⟨s' - t.x, (p - t).y, (p - t).z⟩ = some (f (s' - t.x)) :=
    (continuous_sub_right t.x).continuousAt.eventually hf
  have ey : ∀ᶠ s' in 𝓝 p.y, s.height ⟨(p - t).x, s' - t.y, (p - t).z⟩ = some (k (s' - t.y)) :=
    (continuous_sub_right t.y).continuousAt.eventually hk
  refine ⟨h1, h2, dx, dy, ⟨fun s' => f (s' - t.x) + t.z, ?_, ?_⟩,
    ⟨fun s' => k (s' - t.y) + t.z, ?_, ?_⟩, h3, h4⟩
  · filter_upwards [ex] with s' hs'
    have e : (⟨s', p.y, p.z⟩ : V3) - t = ⟨s' - t.x, (p - t).y, (p - t).z⟩ := by
      apply V3.ext <;> vsimp
    simp only [e, hs', Option.map_some]
  · exact (hfd.comp_sub_const p.x t.x).add_const _
  · filter_upwards [ey] with s' hs'
    have e : (⟨p.x, s', p.z⟩ : V3) - t = ⟨(p - t).x, s' - t.y, (p - t).z⟩ := by
      apply V3.ext <;> vsimp
    simp only [e, hs', Option.map_some]
  · exact (hkd.comp_sub_const p.y t.y).add_const _

/-- A paraboloid shifted by one along `x` and `z`. -/
example : ∃ n, ((parabolaSag 1).withTransformation (.translation ⟨1, 0, 1⟩)).normal ⟨3, 0, 0⟩ = some n
    ∧ IsGraphNormal (fun q => ((parabolaSag 1).height (q - ⟨1, 0, 1⟩)).map (· + 1)) ⟨3, 0, 0⟩ n := by
  obtain ⟨n, hn, hg⟩ := C09_parabola (f := 1) one_ne_zero (⟨3, 0, 0⟩ - ⟨1, 0, 1⟩)
  have h : ((parabolaSag 1).withTransformation (.translation ⟨1, 0, 1⟩)).normal ⟨3, 0, 0⟩ = some n := by
    show parabolaNormal 1 ((Rigid.translation ⟨1, 0, 1⟩).ipoint ⟨3, 0, 0⟩) = some n
    rw [Rigid.translation_ipoint]
    exact hn
  refine ⟨n, h, C09_shifted_partial _ _ ?_ h⟩
  intro m hm
  have hm : parabolaNormal 1 (⟨3, 0, 0⟩ - ⟨1, 0, 1⟩) = some m := hm
  rw [hn] at hm
  rw [← Option.some.inj hm]
  exact hg

/-- `n` is perpendicular to the set of points `S` at `p`: it is orthogonal to the velocity of every
curve in `S` through `p`. -/
def PerpendicularTo (S : V3 → Prop) (p n : V3) : Prop :=
  ∀ (x y z : ℝ → ℝ) (vx vy vz : ℝ), (∀ s, S ⟨x s, y s, z s⟩) → (⟨x 0, y 0, z 0⟩ : V3) = p →
    HasDerivAt x vx 0 → HasDerivAt y vy 0 → HasDerivAt z vz 0 → n.dot ⟨vx, vy, vz⟩ = 0

/-- A rotation by a right angle about the `y` axis. -/
def quarterTurn : Rigid where
  rot := ⟨⟨0, 0, 1⟩, ⟨0, 1, 0⟩, ⟨-1, 0, 0⟩⟩
  shift := 0
  left_inv v := by apply V3.ext <;> simp [M3.mulVec, M3.transpose, dot]
  right_inv v := by apply V3.ext <;> simp [M3.mulVec, M3.transpose, dot]

/-- Disagreement with C09: if the transformation of a sag turns it, `normal` returns the normal in
the frame of the sag, which is not perpendicular to the surface that the intercepts lie on. Here a
paraboloid is turned by a right angle. -/
theorem C09_turned_counterexample :
    ((parabolaSag 1).withTransformation quarterTurn).normal ⟨0, 0, 0⟩ = some ⟨0, 0, -1⟩ ∧
    ¬ PerpendicularTo (fun q => OnGraph (parabolaSag 1).height (quarterTurn.ipoint q)) ⟨0, 0, 0⟩
      ⟨0, 0, -1⟩ := by
  constructor
  · have e : quarterTurn.ipoint ⟨0, 0, 0⟩ = ⟨0, 0, 0⟩ := by
      apply V3.ext <;> simp [Rigid.ipoint, quarterTurn, M3.mulVec, M3.transpose, dot]
    show parabolaNormal 1 (quarterTurn.ipoint ⟨0, 0, 0⟩) = _
    rw [e]
    obtain ⟨n, hn, hg⟩ := C09_parabola (f := 1) one_ne_zero ⟨0, 0, 0⟩
    rw [hn]
    obtain ⟨h1, h2, dx, dy, ⟨f, hf, hfd⟩, ⟨k, hk, hkd⟩, h3, h4⟩ := hg
    have hh := fun p => (C10_parabola_height (f := 1) one_ne_zero p).2
    have hdx : dx = 0 := by
      have : HasDerivAt f 0 0 := by
        have h0 : HasDerivAt (fun s : ℝ => (s ^ 2 + 0 ^ 2) / (4 * 1)) 0 0 := by
          have := (((hasDerivAt_id (0 : ℝ)).pow 2).add_const ((0 : ℝ) ^ 2)).div_const (4 * 1)
          refine this.congr_deriv ?_
          simp
        refine h0.congr_of_eventuallyEq ?_
        filter_upwards [hf] with s hs
        rw [hh] at hs
        exact (Option.some.inj hs).symm
      exact hfd.unique this
    have hdy : dy = 0 := by
      have : HasDerivAt k 0 0 := by
        have h0 : HasDerivAt (fun s : ℝ => (0 ^ 2 + s ^ 2) / (4 * 1)) 0 0 := by
          have := (((hasDerivAt_id (0 : ℝ)).pow 2).const_add ((0 : ℝ) ^ 2)).div_const (4 * 1)
          refine this.congr_deriv ?_
          simp
        refine h0.congr_of_eventuallyEq ?_
        filter_upwards [hk] with s hs
        rw [hh] at hs
        exact (Option.some.inj hs).symm
      exact hkd.unique this
    subst hdx hdy
    simp only [dot] at h1 h3 h4
    have hx : n.x = 0 := by linarith
    have hy : n.y = 0 := by linarith
    have hz : n.z = -1 := by
      rw [hx, hy] at h1
      nlinarith
    rw [Option.some.injEq]
    apply V3.ext <;> simp [hx, hy, hz]
  · intro h
    have := h (fun s => s ^ 2 / 4) (fun _ => 0) (fun s => -s) 0 0 (-1) ?_ ?_ ?_ ?_ ?_
    · simp [dot] at this
    · intro s
      have e : quarterTurn.ipoint ⟨s ^ 2 / 4, 0, -s⟩ = ⟨s, 0, s ^ 2 / 4⟩ := by
        apply V3.ext <;> simp [Rigid.ipoint, quarterTurn, M3.mulVec, M3.transpose, dot]
      show OnGraph (parabolaHeight 1) (quarterTurn.ipoint ⟨s ^ 2 / 4, 0, -s⟩)
      rw [e]
      unfold OnGraph
      rw [(C10_parabola_height (f := 1) one_ne_zero _).2]
      norm_num
    · apply V3.ext <;> simp
    · refine (((hasDerivAt_id (0 : ℝ)).pow 2).div_const 4).congr_deriv ?_
      simp
    · exact hasDerivAt_const _ _
    · exact (hasDerivAt_id (0 : ℝ)).neg

/-! ### C15: the medium behind a surface -/

theorem medium_behind {s : Surface} {r out : Ray} (h : s.propagate r = some out) :
    ∃ r1 : Ray, r1.wavelength = r.wavelength ∧ r1.index = r.index ∧ r1.attenuation = r.attenuation
      ∧ s.material.index r1 = some out.index ∧ s.material.attenuation r1 = some out.attenuation
      ∧ r.index ≠ 0 ∧ out.wavelength = r.wavelength * out.index / r.index := by
  rw [Surface.propagate_eq] at h
  simp only [Option.map_eq_some_iff] at h
  obtain ⟨o, ho, rfl⟩ := h
  obtain ⟨q, normal, r1, n2, b, e1, e2, att, hq, hn, heff, hp, hw, hi, ha, hv, hI, hn2, -, hr0, hb,
    he1, he2, hatt, ow, op, od, oI, oa, oi, -⟩ := propagateLocal_eq_some ho
  refine ⟨r1, hw, hi, ha, ?_, ?_, hr0, ?_⟩
  · show _ = some o.index
    rw [oi, hn2]
  · show _ = some o.attenuation
    rw [oa, hatt]
  · show o.wavelength = _
    rw [ow, ← oi]
    rfl

/-- **C15**: a mirror leaves the ray in its medium, with or without rulings. -/
theorem C15_mirror_medium {s : Surface} {r out : Ray} (hm : s.material = mirror)
    (h : s.propagate r = some out) : out.attenuation = r.attenuation ∧ out.index = r.index
      ∧ out.wavelength = r.wavelength := by
  obtain ⟨r1, hw, hi, ha, h1, h2, h0, h3⟩ := medium_behind h
  rw [hm] at h1 h2
  have h1 : some r1.index = some out.index := h1
  have h2 : some r1.attenuation = some out.attenuation := h2
  rw [Option.some.injEq] at h1 h2
  refine ⟨by rw [← h2, ha], by rw [← h1, hi], ?_⟩
  rw [h3, ← h1, hi]
  field_simp

/-- **C15**: behind a surface with the material vacuum nothing is absorbed. -/
theorem C15_vacuum_medium {s : Surface} {r out : Ray} (hm : s.material = vacuum)
    (h : s.propagate r = some out) : out.attenuation = 0 ∧ out.index = 1 := by
  obtain ⟨r1, -, -, -, h1, h2, -, -⟩ := medium_behind h
  rw [hm] at h1 h2
  have h1 : some (1 : ℝ) = some out.index := h1
  have h2 : some (0 : ℝ) = some out.attenuation := h2
  rw [Option.some.injEq] at h1 h2
  exact ⟨h2.symm, h1.symm⟩

/-- **C15**: a mirror in an absorbing medium: the light is absorbed along the way to the mirror and
along the way back to a plane surface `s2`. -/
theorem C15_folded {s1 s2 : Surface} {r m out : Ray} (hm : s1.material = mirror)
    (hr1 : s1.rulings = none) (hr2 : s2.rulings = none)
    (he2 : ∀ r n, s2.material.efficiency r n = some 1)
    (h1 : s1.propagate r = some m) (h2 : s2.propagate m = some out) :
    out.intensity = r.intensity
      * Real.exp (-(r.attenuation * ((m.position - r.position).len + (out.position - m.position).len)))
      := by
  obtain ⟨a1, -, -⟩ := C15_mirror_medium hm h1
  obtain ⟨rin, normal, e1, e2, -, -, -, -, -, he1, heq, -, -, -, hI⟩ := C15_one_surface h1
  obtain ⟨rin', normal', e1', e2', -, -, -, -, -, he1', heq', -, -, -, hI'⟩ := C15_one_surface h2
  have g1 : e1 = 1 := by
    rw [hm] at he1
    have he1 : some (1 : ℝ) = some e1 := he1
    exact (Option.some.inj he1).symm
  have g2 : e1' = 1 := by rw [he2] at he1'; exact (Option.some.inj he1').symm
  rw [hI', hI, g1, g2, heq hr1, heq' hr2, a1, mul_add, neg_add, Real.exp_add]
  ring

/-- From `z = -1` to a mirror at `z = 0` and back to the plane `z = 0`, which it only touches, in a
medium with the attenuation 2: the hypotheses can be met. -/
example : ∃ m out, (⟨flatSag, mirror, none, none, none⟩ : Surface).propagate
      ⟨1, ⟨0, 0, -1⟩, ⟨0, 0, 1⟩, 1, 2, 1, true⟩ = some m ∧
    (⟨flatSag, vacuum, none, none, none⟩ : Surface).propagate m = some out ∧
    out.intensity = Real.exp (-2) := by
  have hs : snellsLaw ⟨0, 0, 1⟩ 1 1 true ⟨0, 0, -1⟩ = some ⟨0, 0, -1⟩ := by
    rw [snellsLaw_iff (m := true) (by simp [dot]) (by norm_num) (by norm_num)
      (by simp [dot])]
    refine ⟨⟨by simp [dot], ?_⟩, by simp [OppositeSide, dot]⟩
    ext <;> simp [tang, dot]
  have hs' : snellsLaw ⟨0, 0, -1⟩ 1 1 false ⟨0, 0, -1⟩ = some ⟨0, 0, -1⟩ := by
    rw [snellsLaw_iff (m := false) (by simp [dot]) (by norm_num) (by norm_num)
      (by simp [dot])]
    refine ⟨⟨by simp [dot], ?_⟩, by simp [SameSide, dot]⟩
    ext <;> simp [tang, dot]
  refine ⟨⟨1, ⟨0, 0, 0⟩, ⟨0, 0, -1⟩, Real.exp (-2), 2, 1, true⟩,
    ⟨1, ⟨0, 0, 0⟩, ⟨0, 0, -1⟩, Real.exp (-2), 0, 1, true⟩, ?_, ?_, rfl⟩
  · simp [Surface.propagate, Surface.propagateLocal, Sag.propagate, flatSag, flatIntercept, div?,
      Surface.interact, flatNormal, Surface.effectiveRay, Surface.rulingFactor, mirror, hs,
      Surface.clip, len, dot]
  · simp [Surface.propagate, Surface.propagateLocal, Sag.propagate, flatSag, flatIntercept, div?,
      Surface.interact, flatNormal, Surface.effectiveRay, Surface.rulingFactor, vacuum, hs',
      Surface.clip, len, dot]

end Optika
