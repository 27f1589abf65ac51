import Mathlib.Analysis.Calculus.Deriv.Mul
import Mathlib.Analysis.Calculus.Deriv.Add
import Mathlib.Analysis.Calculus.Deriv.Slope
import Mathlib.Analysis.SpecialFunctions.Pow.Real
import Verif.Lemmas.Surface
import Verif.Props.Reverse

/-!
# First-order optics

A pencil is a family of rays that contains the axis of the instrument as its member number zero.
This file compares the derivatives of the traced family with the rules of Gaussian optics.
-/

namespace Optika
open V3 Filter Topology

/-- Height and slope of a ray near the axis (in both azimuths), the place on the axis, the sense
of travel (`1` or `-1`) and the index of the medium: the data of Gaussian optics. -/
structure Gauss where
  z : ℝ
  sense : ℝ
  n : ℝ
  x : ℝ
  a : ℝ
  y : ℝ
  b : ℝ

/-- Gaussian optics of one surface of curvature `c` with its vertex at `zs` in front of a medium
of index `n'`: straight to the vertex plane, then refraction or reflection.
`n' a' = n a + (n σ - n' σ') c x`. -/
noncomputable def Gauss.step (c zs n' : ℝ) (isMirror : Bool) (g : Gauss) : Gauss :=
  let s' := if isMirror then -g.sense else g.sense
  let x' := g.x + g.sense * (zs - g.z) * g.a
  let y' := g.y + g.sense * (zs - g.z) * g.b
  { z := zs, sense := s', n := n', x := x', y := y'
    a := (g.n * g.a + (g.n * g.sense - n' * s') * c * x') / n'
    b := (g.n * g.b + (g.n * g.sense - n' * s') * c * y') / n' }

/-- The family of rays `f` contains the axis as `f 0` and is described to first order by `g`. -/
structure Pencil (f : ℝ → Ray) (w : ℝ) (g : Gauss) : Prop where
  sense : g.sense = 1 ∨ g.sense = -1
  pos : 0 < g.n
  index : ∀ᶠ e in 𝓝 0, (f e).index = g.n
  wave : ∀ᶠ e in 𝓝 0, (f e).wavelength = w
  px0 : (f 0).position.x = 0
  px : HasDerivAt (fun e => (f e).position.x) g.x 0
  py0 : (f 0).position.y = 0
  py : HasDerivAt (fun e => (f e).position.y) g.y 0
  pz : Tendsto (fun e => (f e).position.z) (𝓝 0) (𝓝 g.z)
  dx0 : (f 0).direction.x = 0
  dx : HasDerivAt (fun e => (f e).direction.x) g.a 0
  dy0 : (f 0).direction.y = 0
  dy : HasDerivAt (fun e => (f e).direction.y) g.b 0
  dz : Tendsto (fun e => (f e).direction.z) (𝓝 0) (𝓝 g.sense)

/-- A sag whose vertex is the origin and whose curvature there is `c` in all azimuths: near the
axis rays strike it close to the vertex, and its normal is `(c x, c y, -1)` to first order. -/
structure CenteredSag (sag : Sag) (c : ℝ) : Prop where
  strikes : ∀ (o u : ℝ → V3) (z σ : ℝ), (σ = 1 ∨ σ = -1) →
    Tendsto (fun e => (o e).x) (𝓝 0) (𝓝 0) → Tendsto (fun e => (o e).y) (𝓝 0) (𝓝 0) →
    Tendsto (fun e => (o e).z) (𝓝 0) (𝓝 z) →
    Tendsto (fun e => (u e).x) (𝓝 0) (𝓝 0) → Tendsto (fun e => (u e).y) (𝓝 0) (𝓝 0) →
    Tendsto (fun e => (u e).z) (𝓝 0) (𝓝 σ) →
    ∃ t : ℝ → ℝ, Tendsto t (𝓝 0) (𝓝 (-σ * z)) ∧ ∀ᶠ e in 𝓝 0, sag.intercept (o e) (u e) =
      some ⟨(o e).x + (u e).x * t e, (o e).y + (u e).y * t e, (o e).z + (u e).z * t e⟩
  curved : ∀ q : ℝ → V3, Tendsto (fun e => (q e).x) (𝓝 0) (𝓝 0) →
    Tendsto (fun e => (q e).y) (𝓝 0) (𝓝 0) →
    ∃ k m : ℝ → ℝ, Tendsto k (𝓝 0) (𝓝 c) ∧ Tendsto m (𝓝 0) (𝓝 (-1)) ∧
      ∀ᶠ e in 𝓝 0, sag.normal (q e) = some ⟨k e * (q e).x, k e * (q e).y, m e⟩

/-- A surface without rulings, centered on the axis with its vertex at `zs`; it turns light of
wavelength `w` in a medium of index `n` into light in a medium of index `n'`. -/
structure Centered (s : Surface) (c zs n w n' : ℝ) : Prop where
  sag : CenteredSag s.sag c
  plain : s.rulings = none
  frame : ∀ p, s.frame.point p = ⟨p.x, p.y, p.z + zs⟩
  turn : ∀ v, s.frame.vec v = v
  aperture : ∀ a, s.aperture = some a → a.unit ≠ .other
  pos : 0 < n'
  index : ∀ r : Ray, r.index = n → r.wavelength = w → s.material.index r = some n'
  light : ∀ r : Ray, r.index = n → r.wavelength = w →
    (s.material.attenuation r).isSome ∧ ∀ u, (s.material.efficiency r u).isSome

/-! ## Calculus -/

theorem hasDerivAt_mul_zero {g s : ℝ → ℝ} {g' s0 : ℝ} (h0 : g 0 = 0) (hg : HasDerivAt g g' 0)
    (hs : Tendsto s (𝓝 0) (𝓝 s0)) : HasDerivAt (fun e => g e * s e) (g' * s0) 0 := by
  rw [hasDerivAt_iff_tendsto_slope] at hg ⊢
  have h := hg.mul (hs.mono_left nhdsWithin_le_nhds)
  refine h.congr fun e => ?_
  simp only [slope, h0, vsub_eq_sub, smul_eq_mul, zero_mul, sub_zero]
  ring

theorem tendsto_of_deriv {g : ℝ → ℝ} {g' : ℝ} (h0 : g 0 = 0) (hg : HasDerivAt g g' 0) :
    Tendsto g (𝓝 0) (𝓝 0) := by
  have := hg.continuousAt.tendsto
  rwa [h0] at this

/-! ## Snell's law near the axis -/

theorem snell_axis {n n' σ : ℝ} (hn : 0 < n) (hn' : 0 < n') (hσ : σ = 1 ∨ σ = -1) (m : Bool)
    {a u : ℝ → V3}
    (ax : Tendsto (fun e => (a e).x) (𝓝 0) (𝓝 0)) (ay : Tendsto (fun e => (a e).y) (𝓝 0) (𝓝 0))
    (az : Tendsto (fun e => (a e).z) (𝓝 0) (𝓝 σ))
    (ux : Tendsto (fun e => (u e).x) (𝓝 0) (𝓝 0)) (uy : Tendsto (fun e => (u e).y) (𝓝 0) (𝓝 0))
    (uz : Tendsto (fun e => (u e).z) (𝓝 0) (𝓝 (-1))) :
    ∃ d : ℝ → ℝ, Tendsto d (𝓝 0) (𝓝 (σ - (if m then -σ else σ) * n' / n)) ∧
      ∀ᶠ e in 𝓝 0, snellsLaw (a e) n n' m (u e) = some
        ⟨n / n' * ((a e).x + d e * (u e).x), n / n' * ((a e).y + d e * (u e).y),
          n / n' * ((a e).z + d e * (u e).z)⟩ := by
  have hr : n / n' * (n / n') ≠ 0 := by positivity
  set au : ℝ → ℝ := fun e => (a e).x * (u e).x + (a e).y * (u e).y + (a e).z * (u e).z with hau
  have tau : Tendsto au (𝓝 0) (𝓝 (-σ)) := by
    have := ((ax.mul ux).add (ay.mul uy)).add (az.mul uz)
    simpa using this
  set a2 : ℝ → ℝ := fun e => (a e).x * (a e).x + (a e).y * (a e).y + (a e).z * (a e).z with ha2
  have ta2 : Tendsto a2 (𝓝 0) (𝓝 (σ * σ)) := by
    have := ((ax.mul ax).add (ay.mul ay)).add (az.mul az)
    simpa using this
  have hσ2 : σ * σ = 1 := by rcases hσ with h | h <;> simp [h]
  set rad : ℝ → ℝ := fun e => 1 / (n / n' * (n / n')) + au e * au e - a2 e with hrad
  have trad : Tendsto rad (𝓝 0) (𝓝 ((n' / n) ^ 2)) := by
    have := (tendsto_const_nhds (x := 1 / (n / n' * (n / n'))) (f := 𝓝 (0 : ℝ))).add (tau.mul tau)
    have := this.sub ta2
    have e : 1 / (n / n' * (n / n')) + -σ * -σ - σ * σ = (n' / n) ^ 2 := by
      field_simp; ring
    rw [e] at this
    exact this
  have hpos : ∀ᶠ e in 𝓝 (0 : ℝ), 0 < rad e := trad.eventually (lt_mem_nhds (by positivity))
  have tsq : Tendsto (fun e => Real.sqrt (rad e)) (𝓝 0) (𝓝 (n' / n)) := by
    have := trad.sqrt
    rwa [Real.sqrt_sq (by positivity)] at this
  have hsgn : ∀ᶠ e in 𝓝 (0 : ℝ), -copysign1 (au e) = σ := by
    rcases hσ with h | h
    · have : ∀ᶠ e in 𝓝 (0 : ℝ), au e < 0 := tau.eventually (gt_mem_nhds (by rw [h]; norm_num))
      filter_upwards [this] with e he
      simp [copysign1, he, h]
    · have : ∀ᶠ e in 𝓝 (0 : ℝ), 0 < au e := tau.eventually (lt_mem_nhds (by rw [h]; norm_num))
      filter_upwards [this] with e he
      simp [copysign1, not_lt.2 he.le, h]
  refine ⟨fun e => -au e + σ * (2 * (if m then 1 else 0) - 1) * Real.sqrt (rad e), ?_, ?_⟩
  · have := tau.neg.add ((tendsto_const_nhds (x := σ * (2 * (if m then 1 else 0) - 1))
      (f := 𝓝 (0 : ℝ))).mul tsq)
    have e : - -σ + σ * (2 * (if m then 1 else 0) - 1) * (n' / n)
        = σ - (if m then -σ else σ) * n' / n := by
      cases m <;> simp <;> ring
    rw [e] at this
    exact this
  · filter_upwards [hpos, hsgn] with e he hs
    unfold snellsLaw
    rw [div?_of_ne hn'.ne']
    simp only [Option.bind_eq_bind, Option.bind_some, Option.pure_def]
    rw [div?_of_ne hr]
    simp only [Option.bind_some]
    have he' : 0 ≤ rad e := he.le
    simp only [hrad, hau, ha2] at he' hs ⊢
    rw [sqrt?_of_nonneg he']
    simp only [Option.bind_some]
    rw [hs]

/-! ## Propagation succeeds -/

theorem propagate_of {s : Surface} {r : Ray} {q u b : V3} {n2 : ℝ} (plain : s.rulings = none)
    (aperture : ∀ a, s.aperture = some a → a.unit ≠ .other) (hi : r.index ≠ 0) (hn2 : n2 ≠ 0)
    (hq : s.sag.intercept (s.frame.ipoint r.position) (s.frame.ivec r.direction) = some q)
    (hu : s.sag.normal q = some u)
    (index : ∀ r' : Ray, r'.index = r.index → r'.wavelength = r.wavelength →
      s.material.index r' = some n2)
    (light : ∀ r' : Ray, r'.index = r.index → r'.wavelength = r.wavelength →
      (s.material.attenuation r').isSome ∧ ∀ u, (s.material.efficiency r' u).isSome)
    (hb : snellsLaw (s.frame.ivec r.direction) r.index n2 s.material.isMirror u = some b) :
    ∃ out, s.propagate r = some out ∧ out.position = s.frame.point q ∧
      out.direction = s.frame.vec b ∧ out.index = n2 ∧
      out.wavelength = r.wavelength / (r.index / n2) := by
  have hratio : r.index / n2 ≠ 0 := div_ne_zero hi hn2
  rw [Surface.propagate_eq]
  unfold Surface.propagateLocal Sag.propagate Surface.interact Surface.effectiveRay
    Surface.rulingFactor
  rw [plain]
  simp only [Ray.unmove, hq, Option.bind_eq_bind, Option.bind_some, Option.pure_def, hu]
  rw [index _ (by rfl) (by rfl)]
  simp only [Option.bind_some, div?_of_ne hn2, div?_of_ne hratio, hb]
  generalize hr1 : ({ r with
    position := q, direction := s.frame.ivec r.direction,
    intensity := Real.exp (-r.attenuation * (q - s.frame.ipoint r.position).len) * r.intensity }
      : Ray) = r1
  have h1 : r1.index = r.index := by rw [← hr1]
  have h2 : r1.wavelength = r.wavelength := by rw [← hr1]
  obtain ⟨ha, he⟩ := light r1 h1 h2
  obtain ⟨at', hat⟩ := Option.isSome_iff_exists.1 ha
  obtain ⟨ef, hef⟩ := Option.isSome_iff_exists.1 (he u)
  simp only [hat, hef, Option.bind_some]
  unfold Surface.clip
  have hpos : r1.position = q := by rw [← hr1]
  have hun' : ∀ (a : Aperture), s.aperture = some a → a.unit = .other → False :=
    fun a h h' => aperture a h h'
  cases hap : s.aperture with
  | none =>
    simp only [Option.map_some]
    exact ⟨_, rfl, by simp [Ray.move], by simp [Ray.move], by simp [Ray.move],
      by simp [Ray.move]⟩
  | some a =>
    unfold Aperture.clip
    cases hun : a.unit with
    | length =>
      simp only [hun, Option.map_some]
      exact ⟨_, rfl, by simp [Ray.move], by simp [Ray.move], by simp [Ray.move],
        by simp [Ray.move]⟩
    | dimensionless =>
      simp only [hun, Option.map_some]
      exact ⟨_, rfl, by simp [Ray.move], by simp [Ray.move],
        by simp [Ray.move], by simp [Ray.move]⟩
    | other => exact (hun' a hap hun).elim

/-! ## One surface and many -/

/-- One centered surface maps pencils to pencils by Gaussian optics. -/
theorem C98_surface {s : Surface} {c zs w n' : ℝ} {g : Gauss} {f : ℝ → Ray}
    (hf : Pencil f w g) (hs : Centered s c zs g.n w n') :
    ∃ f' : ℝ → Ray, (∀ᶠ e in 𝓝 0, s.propagate (f e) = some (f' e)) ∧
      Pencil f' (w * n' / g.n) (g.step c zs n' s.material.isMirror) := by
  have tpx := tendsto_of_deriv hf.px0 hf.px
  have tpy := tendsto_of_deriv hf.py0 hf.py
  have tdx := tendsto_of_deriv hf.dx0 hf.dx
  have tdy := tendsto_of_deriv hf.dy0 hf.dy
  have ivec : ∀ v, s.frame.ivec v = v := fun v => by
    rw [← hs.turn (s.frame.ivec v), Rigid.vec_ivec]
  have ipoint : ∀ p, s.frame.ipoint p = ⟨p.x, p.y, p.z - zs⟩ := fun p => by
    have h : s.frame.point ⟨p.x, p.y, p.z - zs⟩ = p := by
      rw [hs.frame]; apply V3.ext <;> simp
    rw [← h, Rigid.ipoint_point, h]
  obtain ⟨t, tt, ht⟩ := hs.sag.strikes
    (fun e => s.frame.ipoint (f e).position) (fun e => (f e).direction) (g.z - zs) g.sense hf.sense
    (by simpa only [ipoint] using tpx) (by simpa only [ipoint] using tpy)
    (by simpa only [ipoint] using hf.pz.sub_const zs) tdx tdy hf.dz
  simp only [ipoint] at ht
  set q : ℝ → V3 := fun e => ⟨(f e).position.x + (f e).direction.x * t e,
    (f e).position.y + (f e).direction.y * t e,
    (f e).position.z - zs + (f e).direction.z * t e⟩ with hq
  have q0x : (q 0).x = 0 := by simp [hq, hf.px0, hf.dx0]
  have q0y : (q 0).y = 0 := by simp [hq, hf.py0, hf.dy0]
  have qx : HasDerivAt (fun e => (q e).x) (g.x + g.a * (-g.sense * (g.z - zs))) 0 :=
    hf.px.add (hasDerivAt_mul_zero hf.dx0 hf.dx tt)
  have qy : HasDerivAt (fun e => (q e).y) (g.y + g.b * (-g.sense * (g.z - zs))) 0 :=
    hf.py.add (hasDerivAt_mul_zero hf.dy0 hf.dy tt)
  have tqx := tendsto_of_deriv (g := fun e => (q e).x) q0x qx
  have tqy := tendsto_of_deriv (g := fun e => (q e).y) q0y qy
  have hσ2 : g.sense * g.sense = 1 := by rcases hf.sense with h | h <;> simp [h]
  have tqz : Tendsto (fun e => (q e).z) (𝓝 0) (𝓝 0) := by
    have := (hf.pz.sub_const zs).add (hf.dz.mul tt)
    have e : g.z - zs + g.sense * (-g.sense * (g.z - zs)) = 0 := by linear_combination (-(g.z - zs)) * hσ2
    rw [e] at this
    exact this
  obtain ⟨k, m, tk, tm, hk⟩ := hs.sag.curved q tqx tqy
  have ux := hasDerivAt_mul_zero (g := fun e => (q e).x) q0x qx tk
  have uy := hasDerivAt_mul_zero (g := fun e => (q e).y) q0y qy tk
  have tux := tendsto_of_deriv (g := fun e => (q e).x * k e) (by simp [q0x]) ux
  have tuy := tendsto_of_deriv (g := fun e => (q e).y * k e) (by simp [q0y]) uy
  obtain ⟨d, td, hd⟩ := snell_axis hf.pos hs.pos hf.sense s.material.isMirror
    (a := fun e => (f e).direction) (u := fun e => ⟨k e * (q e).x, k e * (q e).y, m e⟩) tdx tdy hf.dz
    (by simpa only [mul_comm] using tux) (by simpa only [mul_comm] using tuy) tm
  have key : ∀ᶠ e in 𝓝 (0 : ℝ), ∃ out, s.propagate (f e) = some out ∧
      out.position = ⟨(q e).x, (q e).y, (q e).z + zs⟩ ∧
      out.direction = ⟨g.n / n' * ((f e).direction.x + d e * (k e * (q e).x)),
        g.n / n' * ((f e).direction.y + d e * (k e * (q e).y)),
        g.n / n' * ((f e).direction.z + d e * m e)⟩ ∧
      out.index = n' ∧ out.wavelength = w * n' / g.n := by
    filter_upwards [ht, hk, hd, hf.index, hf.wave] with e h1 h2 h3 h4 h5
    have hn := hf.pos
    obtain ⟨out, o1, o2, o3, o4, o5⟩ := propagate_of (s := s) (r := f e) (q := q e) (n2 := n')
      hs.plain hs.aperture (by rw [h4]; exact hn.ne') hs.pos.ne'
      (by rw [ipoint, ivec]; exact h1) h2
      (fun r' i1 i2 => hs.index r' (by rw [i1, h4]) (by rw [i2, h5]))
      (fun r' i1 i2 => hs.light r' (by rw [i1, h4]) (by rw [i2, h5]))
      (by rw [ivec, h4]; exact h3)
    refine ⟨out, o1, by rw [o2, hs.frame], by rw [o3, hs.turn], o4, ?_⟩
    rw [o5, h4, h5]
    have := hs.pos
    field_simp
  refine ⟨fun e => (s.propagate (f e)).getD (f e), ?_, ?_⟩
  · filter_upwards [key] with e ⟨out, h, _⟩
    simp [h]
  have now := key.self_of_nhds
  have epx : (fun e => ((s.propagate (f e)).getD (f e)).position.x) =ᶠ[𝓝 0] fun e => (q e).x := by
    filter_upwards [key] with e ⟨out, h, h1, _⟩
    simp [h, h1]
  have epy : (fun e => ((s.propagate (f e)).getD (f e)).position.y) =ᶠ[𝓝 0] fun e => (q e).y := by
    filter_upwards [key] with e ⟨out, h, h1, _⟩
    simp [h, h1]
  have epz : (fun e => ((s.propagate (f e)).getD (f e)).position.z) =ᶠ[𝓝 0]
      fun e => (q e).z + zs := by
    filter_upwards [key] with e ⟨out, h, h1, _⟩
    simp [h, h1]
  have edx : (fun e => ((s.propagate (f e)).getD (f e)).direction.x) =ᶠ[𝓝 0]
      fun e => g.n / n' * ((f e).direction.x + (q e).x * k e * d e) := by
    filter_upwards [key] with e ⟨out, h, _, h1, _⟩
    simp only [h, Option.getD_some, h1]; ring
  have edy : (fun e => ((s.propagate (f e)).getD (f e)).direction.y) =ᶠ[𝓝 0]
      fun e => g.n / n' * ((f e).direction.y + (q e).y * k e * d e) := by
    filter_upwards [key] with e ⟨out, h, _, h1, _⟩
    simp only [h, Option.getD_some, h1]; ring
  have edz : (fun e => ((s.propagate (f e)).getD (f e)).direction.z) =ᶠ[𝓝 0]
      fun e => g.n / n' * ((f e).direction.z + d e * m e) := by
    filter_upwards [key] with e ⟨out, h, _, h1, _⟩
    simp only [h, Option.getD_some, h1]
  have hn := hf.pos
  have hn' := hs.pos
  constructor
  · simp only [Gauss.step]
    rcases hf.sense with h | h <;> cases s.material.isMirror <;> simp [h]
  · exact hs.pos
  · filter_upwards [key] with e ⟨out, h, _, _, h1, _⟩
    simp [h, h1, Gauss.step]
  · filter_upwards [key] with e ⟨out, h, _, _, _, h1⟩
    simp [h, h1]
  · exact epx.self_of_nhds.trans q0x
  · exact (qx.congr_of_eventuallyEq epx).congr_deriv (by simp only [Gauss.step]; ring)
  · exact epy.self_of_nhds.trans q0y
  · exact (qy.congr_of_eventuallyEq epy).congr_deriv (by simp only [Gauss.step]; ring)
  · have := (tqz.add_const zs).congr' epz.symm
    simpa [Gauss.step] using this
  · exact edx.self_of_nhds.trans (by simp only [hf.dx0, q0x]; ring)
  · have := (hf.dx.add (hasDerivAt_mul_zero (by simp [q0x]) ux td)).const_mul (g.n / n')
    refine (this.congr_of_eventuallyEq edx).congr_deriv ?_
    simp only [Gauss.step]
    field_simp
    ring
  · exact edy.self_of_nhds.trans (by simp only [hf.dy0, q0y]; ring)
  · have := (hf.dy.add (hasDerivAt_mul_zero (by simp [q0y]) uy td)).const_mul (g.n / n')
    refine (this.congr_of_eventuallyEq edy).congr_deriv ?_
    simp only [Gauss.step]
    field_simp
    ring
  · have := ((hf.dz.add (td.mul tm)).const_mul (g.n / n')).congr' edz.symm
    have e : g.n / n' * (g.sense + (g.sense - (if s.material.isMirror then -g.sense else g.sense)
        * n' / g.n) * -1) = (if s.material.isMirror then -g.sense else g.sense) := by
      field_simp; ring
    rw [e] at this
    exact this

/-- A train of centered surfaces, and what Gaussian optics makes of the state `g` in it. -/
inductive CenteredTrain : List Surface → ℝ → Gauss → Gauss → Prop
  | nil (w : ℝ) (g : Gauss) : CenteredTrain [] w g g
  | cons {s : Surface} {ss : List Surface} {c zs w n' : ℝ} {g g' : Gauss}
      (first : Centered s c zs g.n w n')
      (rest : CenteredTrain ss (w * n' / g.n) (g.step c zs n' s.material.isMirror) g') :
      CenteredTrain (s :: ss) w g g'

/-- Every train of centered surfaces traces pencils by Gaussian optics. -/
theorem C98_train {ss : List Surface} {w : ℝ} {g g' : Gauss} (hs : CenteredTrain ss w g g') :
    ∀ {f : ℝ → Ray}, Pencil f w g → ∃ (f' : ℝ → Ray) (w' : ℝ),
      (∀ᶠ e in 𝓝 0, propagateSurfaces ss (f e) = some (f' e)) ∧ Pencil f' w' g' := by
  induction hs with
  | nil w g => exact fun {f} hf => ⟨f, w, .of_forall fun e => propagateSurfaces_nil _, hf⟩
  | cons first rest ih =>
    intro f hf
    obtain ⟨f1, h1, p1⟩ := C98_surface hf first
    obtain ⟨f2, w2, h2, p2⟩ := ih p1
    refine ⟨f2, w2, ?_, p2⟩
    filter_upwards [h1, h2] with e e1 e2
    rw [propagateSurfaces_cons, e1]
    exact e2

/-- The Lagrange invariant. -/
theorem C98_lagrange {ss : List Surface} {w : ℝ} {g g' : Gauss} (hs : CenteredTrain ss w g g')
    (hn : 0 < g.n) : g'.n * (g'.x * g'.b - g'.y * g'.a) = g.n * (g.x * g.b - g.y * g.a) := by
  induction hs with
  | nil w g => rfl
  | cons first rest ih =>
    rw [ih first.pos]
    have := first.pos
    simp only [Gauss.step]
    field_simp
    ring

/-! ## Images -/

/-- The rays of the pencil `f`, prolonged if necessary, cross the plane at `z` at the heights
`(hx, hy)` to first order. -/
def HeightAt (f : ℝ → Ray) (z hx hy : ℝ) : Prop :=
  ∃ s : ℝ, HasDerivAt (fun e => (f e).position.x + s * (f e).direction.x) hx 0 ∧
    HasDerivAt (fun e => (f e).position.y + s * (f e).direction.y) hy 0 ∧
    Tendsto (fun e => (f e).position.z + s * (f e).direction.z) (𝓝 0) (𝓝 z)

theorem heightAt_iff {f : ℝ → Ray} {w z hx hy : ℝ} {g : Gauss} (hf : Pencil f w g) :
    HeightAt f z hx hy ↔
      hx = g.x + g.sense * (z - g.z) * g.a ∧ hy = g.y + g.sense * (z - g.z) * g.b := by
  have hσ2 : g.sense * g.sense = 1 := by rcases hf.sense with h | h <;> simp [h]
  constructor
  · rintro ⟨s, h1, h2, h3⟩
    have e3 := tendsto_nhds_unique h3 (hf.pz.add (hf.dz.const_mul s))
    have es : s = g.sense * (z - g.z) := by rw [e3]; linear_combination (-s) * hσ2
    subst es
    exact ⟨h1.unique (hf.px.add (hf.dx.const_mul _)), h2.unique (hf.py.add (hf.dy.const_mul _))⟩
  · rintro ⟨rfl, rfl⟩
    refine ⟨g.sense * (z - g.z), hf.px.add (hf.dx.const_mul _), hf.py.add (hf.dy.const_mul _), ?_⟩
    have := hf.pz.add (hf.dz.const_mul (g.sense * (z - g.z)))
    have e : g.z + g.sense * (z - g.z) * g.sense = z := by linear_combination (z - g.z) * hσ2
    rwa [e] at this

/-- Conjugate planes of a refracting surface and their magnification. -/
theorem C98_refraction {s : Surface} {c zs w n' : ℝ} {g : Gauss} {f : ℝ → Ray}
    (hf : Pencil f w g) (hs : Centered s c zs g.n w n') (hm : s.material.isMirror = false)
    {zo zi : ℝ} (ho : zo ≠ zs) (hi : zi ≠ zs)
    (conj : n' / (zi - zs) = g.n / (zo - zs) + (n' - g.n) * c) {hx hy : ℝ}
    (object : HeightAt f zo hx hy) :
    ∃ f' : ℝ → Ray, (∀ᶠ e in 𝓝 0, s.propagate (f e) = some (f' e)) ∧
      HeightAt f' zi (g.n * (zi - zs) / (n' * (zo - zs)) * hx)
        (g.n * (zi - zs) / (n' * (zo - zs)) * hy) := by
  obtain ⟨f', h1, h2⟩ := C98_surface hf hs
  refine ⟨f', h1, ?_⟩
  rw [heightAt_iff hf] at object
  rw [heightAt_iff h2]
  obtain ⟨rfl, rfl⟩ := object
  have hσ2 : g.sense * g.sense = 1 := by rcases hf.sense with h | h <;> simp [h]
  have h3 : zo - zs ≠ 0 := sub_ne_zero.2 ho
  have h4 : zi - zs ≠ 0 := sub_ne_zero.2 hi
  have hn := hf.pos
  have hn' := hs.pos
  have conj' : n' * (zo - zs) = g.n * (zi - zs) + (n' - g.n) * c * (zi - zs) * (zo - zs) := by
    field_simp at conj; linear_combination conj
  simp only [Gauss.step, hm, Bool.false_eq_true, if_false]
  constructor
  · field_simp
    linear_combination (-(g.x + g.sense * (zs - g.z) * g.a)) * conj'
      - (zi - zs) * (zo - zs) * (g.n - n') * c * (g.x + g.sense * (zs - g.z) * g.a) * hσ2
  · field_simp
    linear_combination (-(g.y + g.sense * (zs - g.z) * g.b)) * conj'
      - (zi - zs) * (zo - zs) * (g.n - n') * c * (g.y + g.sense * (zs - g.z) * g.b) * hσ2

/-- Conjugate planes of a mirror and their magnification. -/
theorem C98_mirror {s : Surface} {c zs w : ℝ} {g : Gauss} {f : ℝ → Ray}
    (hf : Pencil f w g) (hs : Centered s c zs g.n w g.n) (hm : s.material.isMirror = true)
    {zo zi : ℝ} (ho : zo ≠ zs) (hi : zi ≠ zs)
    (conj : 1 / (zi - zs) + 1 / (zo - zs) = 2 * c) {hx hy : ℝ}
    (object : HeightAt f zo hx hy) :
    ∃ f' : ℝ → Ray, (∀ᶠ e in 𝓝 0, s.propagate (f e) = some (f' e)) ∧
      HeightAt f' zi (-(zi - zs) / (zo - zs) * hx) (-(zi - zs) / (zo - zs) * hy) := by
  obtain ⟨f', h1, h2⟩ := C98_surface hf hs
  refine ⟨f', h1, ?_⟩
  rw [heightAt_iff hf] at object
  rw [heightAt_iff h2]
  obtain ⟨rfl, rfl⟩ := object
  have hσ2 : g.sense * g.sense = 1 := by rcases hf.sense with h | h <;> simp [h]
  have h3 : zo - zs ≠ 0 := sub_ne_zero.2 ho
  have h4 : zi - zs ≠ 0 := sub_ne_zero.2 hi
  have hn := hf.pos
  have conj' : (zo - zs) + (zi - zs) = 2 * c * (zi - zs) * (zo - zs) := by
    field_simp at conj; linear_combination conj
  simp only [Gauss.step, hm, if_true]
  constructor
  · field_simp
    linear_combination (-(g.x + g.sense * (zs - g.z) * g.a)) * conj'
      + (zi - zs) * (zo - zs) * 2 * c * (g.x + g.sense * (zs - g.z) * g.a) * hσ2
  · field_simp
    linear_combination (-(g.y + g.sense * (zs - g.z) * g.b)) * conj'
      + (zi - zs) * (zo - zs) * 2 * c * (g.y + g.sense * (zs - g.z) * g.b) * hσ2

/-- A mirror of radius of curvature `radius` brings light parallel to the axis to a focus at half
its radius. -/
theorem C98_focus {s : Surface} {radius zs w : ℝ} {g : Gauss} {f : ℝ → Ray}
    (hf : Pencil f w g) (hs : Centered s (1 / radius) zs g.n w g.n) (hR : radius ≠ 0)
    (hm : s.material.isMirror = true) (parallel : g.a = 0 ∧ g.b = 0) :
    ∃ f' : ℝ → Ray, (∀ᶠ e in 𝓝 0, s.propagate (f e) = some (f' e)) ∧
      HeightAt f' (zs + radius / 2) 0 0 := by
  obtain ⟨f', h1, h2⟩ := C98_surface hf hs
  refine ⟨f', h1, ?_⟩
  rw [heightAt_iff h2]
  have hσ2 : g.sense * g.sense = 1 := by rcases hf.sense with h | h <;> simp [h]
  have hn := hf.pos
  simp only [Gauss.step, hm, if_true, parallel.1, parallel.2]
  constructor
  · field_simp
    linear_combination (2 * radius * g.x) * hσ2
  · field_simp
    linear_combination (2 * radius * g.y) * hσ2

/-- The thin lens: two refracting surfaces with a common vertex between media of the same index
image the plane at `zo` onto the plane at `zi`. -/
theorem C98_lens {s1 s2 : Surface} {c1 c2 zs w n' : ℝ} {g : Gauss} {f : ℝ → Ray}
    (hf : Pencil f w g) (hs1 : Centered s1 c1 zs g.n w n')
    (hs2 : Centered s2 c2 zs n' (w * n' / g.n) g.n)
    (hm1 : s1.material.isMirror = false) (hm2 : s2.material.isMirror = false)
    {zo zi : ℝ} (ho : zo ≠ zs) (hi : zi ≠ zs)
    (conj : 1 / (zi - zs) = 1 / (zo - zs) + (n' / g.n - 1) * (c1 - c2)) {hx hy : ℝ}
    (object : HeightAt f zo hx hy) :
    ∃ f' : ℝ → Ray, (∀ᶠ e in 𝓝 0, propagateSurfaces [s1, s2] (f e) = some (f' e)) ∧
      HeightAt f' zi ((zi - zs) / (zo - zs) * hx) ((zi - zs) / (zo - zs) * hy) := by
  obtain ⟨f', w', h1, h2⟩ := C98_train (.cons hs1 (.cons hs2 (.nil _ _))) hf
  refine ⟨f', h1, ?_⟩
  rw [heightAt_iff hf] at object
  rw [heightAt_iff h2]
  obtain ⟨rfl, rfl⟩ := object
  have hσ2 : g.sense * g.sense = 1 := by rcases hf.sense with h | h <;> simp [h]
  have h3 : zo - zs ≠ 0 := sub_ne_zero.2 ho
  have h4 : zi - zs ≠ 0 := sub_ne_zero.2 hi
  have hn := hf.pos
  have hn' := hs1.pos
  have conj' : g.n * (zo - zs) = g.n * (zi - zs) + (n' - g.n) * (c1 - c2) * (zi - zs) * (zo - zs) := by
    field_simp at conj; linear_combination conj
  simp only [Gauss.step, hm1, hm2, Bool.false_eq_true, if_false]
  constructor
  · field_simp
    linear_combination (-n' * (g.x + g.sense * (zs - g.z) * g.a)) * conj'
      - n' * (zi - zs) * (zo - zs) * (g.n - n') * (c1 - c2) * (g.x + g.sense * (zs - g.z) * g.a) * hσ2
  · field_simp
    linear_combination (-n' * (g.y + g.sense * (zs - g.z) * g.b)) * conj'
      - n' * (zi - zs) * (zo - zs) * (g.n - n') * (c1 - c2) * (g.y + g.sense * (zs - g.z) * g.b) * hσ2

/-! ## The shapes of optika -/

/-- `NoSag` has curvature zero. -/
theorem C98_flat : CenteredSag flatSag 0 where
  strikes o u z σ hσ ox oy oz ux uy uz := by
    have hσ0 : σ ≠ 0 := by rcases hσ with h | h <;> simp [h]
    refine ⟨fun e => -(o e).z / (u e).z, ?_, ?_⟩
    · have := oz.neg.div uz hσ0
      have e : -z / σ = -σ * z := by rcases hσ with h | h <;> simp [h]
      rwa [e] at this
    · filter_upwards [uz.eventually_ne hσ0] with e he
      simp [flatSag, flatIntercept, div?_of_ne he]
  curved q qx qy := ⟨fun _ => 0, fun _ => -1, tendsto_const_nhds, tendsto_const_nhds,
    .of_forall fun e => by simp [flatSag, flatNormal]⟩

/-- `SphericalSag` has the curvature `1 / radius`. -/
theorem C98_sphere {radius : ℝ} (hR : radius ≠ 0) : CenteredSag (sphereSag radius) (1 / radius) where
  strikes o u z σ hσ ox oy oz ux uy uz := by
    have hσ0 : σ ≠ 0 := by rcases hσ with h | h <;> simp [h]
    have hσ2 : σ * σ = 1 := by rcases hσ with h | h <;> simp [h]
    set b : ℝ → ℝ := fun e => (u e).x * (o e).x + (u e).y * (o e).y + (u e).z * ((o e).z - radius)
      with hb
    have tb : Tendsto b (𝓝 0) (𝓝 (σ * (z - radius))) := by
      have := ((ux.mul ox).add (uy.mul oy)).add (uz.mul (oz.sub_const radius))
      simpa using this
    set d : ℝ → ℝ := fun e => b e ^ 2 - ((o e).x ^ 2 + (o e).y ^ 2 + ((o e).z - radius) ^ 2
      - radius ^ 2) with hd
    have td : Tendsto d (𝓝 0) (𝓝 (radius ^ 2)) := by
      have := (tb.pow 2).sub ((((ox.pow 2).add (oy.pow 2)).add ((oz.sub_const radius).pow 2)).sub_const
        (radius ^ 2))
      have e : (σ * (z - radius)) ^ 2 - ((0 : ℝ) ^ 2 + 0 ^ 2 + (z - radius) ^ 2 - radius ^ 2)
          = radius ^ 2 := by linear_combination (z - radius) ^ 2 * hσ2
      rwa [e] at this
    have hpos : ∀ᶠ e in 𝓝 (0 : ℝ), 0 < d e := td.eventually (lt_mem_nhds (by positivity))
    have hsg : ∀ᶠ e in 𝓝 (0 : ℝ), sgn (radius * (u e).z) = sgn (radius * σ) := by
      have tz := uz.const_mul radius
      rcases lt_or_gt_of_ne (mul_ne_zero hR hσ0) with h | h
      · filter_upwards [tz.eventually (gt_mem_nhds h)] with e he
        simp [sgn, he, h]
      · filter_upwards [tz.eventually (lt_mem_nhds h)] with e he
        simp [sgn, not_lt.2 (le_of_lt he), not_lt.2 h.le, he.ne', h.ne']
    refine ⟨fun e => -b e - sgn (radius * σ) * Real.sqrt (d e), ?_, ?_⟩
    · have := tb.neg.sub (td.sqrt.const_mul (sgn (radius * σ)))
      have e : -(σ * (z - radius)) - sgn (radius * σ) * Real.sqrt (radius ^ 2) = -σ * z := by
        rw [Real.sqrt_sq_eq_abs]
        rcases hσ with h | h <;> rcases lt_or_gt_of_ne hR with h' | h' <;>
          simp [h, sgn, h', abs_of_neg, abs_of_pos, not_lt.2 h'.le, hR]
      rwa [e] at this
    · filter_upwards [hpos, hsg] with e he hs
      have he' : 0 ≤ d e := he.le
      simp only [hd, hb] at he'
      simp only [sphereSag, sphereIntercept, hd, hb]
      rw [sqrt?_of_nonneg he', hs]
      rfl
  curved q qx qy := by
    set d : ℝ → ℝ := fun e => 1 - (1 / radius * (q e).x) ^ 2 - (1 / radius * (q e).y) ^ 2 with hd
    have td : Tendsto d (𝓝 0) (𝓝 1) := by
      have := ((qx.const_mul (1 / radius)).pow 2).const_sub 1
      have := this.sub ((qy.const_mul (1 / radius)).pow 2)
      simpa [hd] using this
    refine ⟨fun _ => 1 / radius, fun e => -Real.sqrt (d e), tendsto_const_nhds, ?_, ?_⟩
    · simpa using td.sqrt.neg
    · filter_upwards [td.eventually (lt_mem_nhds one_pos)] with e he
      have he' : 0 ≤ d e := he.le
      simp only [hd] at he'
      simp only [sphereSag, sphereNormal, hd, div?_of_ne hR, Option.bind_eq_bind, Option.bind_some]
      rw [sqrt?_of_nonneg he']
      rfl

/-- `ParabolicSag` has the curvature `1 / (2 f)`. -/
theorem C98_parabola {f : ℝ} (hf : f ≠ 0) : CenteredSag (parabolaSag f) (1 / (2 * f)) where
  strikes o u z σ hσ ox oy oz ux uy uz := by
    have hσ0 : σ ≠ 0 := by rcases hσ with h | h <;> simp [h]
    have h4 : 4 * f * σ ≠ 0 := by positivity
    refine ⟨fun e => ((o e).x ^ 2 + (o e).y ^ 2 - 4 * f * (o e).z) / (4 * f * (u e).z), ?_, ?_⟩
    · have := (((ox.pow 2).add (oy.pow 2)).sub (oz.const_mul (4 * f))).div (uz.const_mul (4 * f)) h4
      have e : ((0 : ℝ) ^ 2 + 0 ^ 2 - 4 * f * z) / (4 * f * σ) = -σ * z := by
        rcases hσ with h | h <;> rw [h] <;> field_simp <;> ring
      rwa [e] at this
    · have tw : Tendsto (fun e => (u e).x ^ 2 + (u e).y ^ 2) (𝓝 0) (𝓝 0) := by
        simpa using (ux.pow 2).add (uy.pow 2)
      filter_upwards [uz.eventually_ne hσ0,
        tw.eventually (gt_mem_nhds (show (0 : ℝ) < 1e-10 by norm_num))] with e he hw
      simp only [parabolaSag, parabolaIntercept, gt_iff_lt, not_lt.2 (le_of_lt hw), if_false]
      rw [div?_of_ne (by positivity)]
      rfl
  curved q qx qy := by
    set d : ℝ → ℝ := fun e => ((q e).x / (2 * f)) ^ 2 + ((q e).y / (2 * f)) ^ 2 + 1 with hd
    have td : Tendsto d (𝓝 0) (𝓝 1) := by
      have := (((qx.div_const (2 * f)).pow 2).add ((qy.div_const (2 * f)).pow 2)).add_const 1
      simpa using this
    have ts : Tendsto (fun e => Real.sqrt (d e)) (𝓝 0) (𝓝 1) := by simpa using td.sqrt
    have h2 : 2 * f ≠ 0 := by positivity
    refine ⟨fun e => (Real.sqrt (d e))⁻¹ / (2 * f), fun e => -(Real.sqrt (d e))⁻¹, ?_, ?_, ?_⟩
    · have := (ts.inv₀ one_ne_zero).div_const (2 * f)
      simpa using this
    · have := (ts.inv₀ one_ne_zero).neg
      simpa using this
    · filter_upwards [] with e
      have he' : 0 ≤ d e := by simp only [hd]; positivity
      simp only [hd] at he'
      simp only [parabolaSag, parabolaNormal, hd, div?_of_ne h2, Option.bind_eq_bind,
        Option.bind_some, sqrt?_of_nonneg he', Option.pure_def, Option.some.injEq]
      apply V3.ext
      · simp only; ring
      · simp only; ring
      · simp only; field_simp

/-- `ConicSag` has the curvature `1 / radius`, if its conic constant is not too close to the one
of a paraboloid.  The other conics are `C08_conic_vertex_counterexample`. -/
theorem C98_conic {radius conic : ℝ} (hR : radius ≠ 0) (hk : 1e-12 < |1 / radius * (1 + conic)|) :
    CenteredSag (conicSag radius conic) (1 / radius) where
  strikes o u z σ hσ ox oy oz ux uy uz := by
    have hσ0 : σ ≠ 0 := by rcases hσ with h | h <;> simp [h]
    have hσ2 : σ * σ = 1 := by rcases hσ with h | h <;> simp [h]
    generalize hc : 1 / radius = c at hk
    generalize hp : 1 + conic = p at hk
    have hK : c * p ≠ 0 := by
      intro h; rw [h] at hk; norm_num at hk
    have hc0 : c ≠ 0 := left_ne_zero_of_mul hK
    have hp0 : p ≠ 0 := right_ne_zero_of_mul hK
    set a : ℝ → ℝ := fun e => c * ((u e).x ^ 2 + (u e).y ^ 2 + p * (u e).z ^ 2) with ha
    have ta : Tendsto a (𝓝 0) (𝓝 (c * p)) := by
      have := (((ux.pow 2).add (uy.pow 2)).add ((uz.pow 2).const_mul p)).const_mul c
      have e : c * ((0 : ℝ) ^ 2 + 0 ^ 2 + p * σ ^ 2) = c * p := by linear_combination c * p * hσ2
      rwa [e] at this
    set b : ℝ → ℝ := fun e => 2 * (c * ((o e).x * (u e).x + (o e).y * (u e).y
      + p * (o e).z * (u e).z) - (u e).z) with hb
    have tb : Tendsto b (𝓝 0) (𝓝 (2 * (c * p * z * σ - σ))) := by
      have := ((((ox.mul ux).add (oy.mul uy)).add ((oz.const_mul p).mul uz)).const_mul c).sub uz
      have := this.const_mul 2
      have e : 2 * (c * ((0 : ℝ) * 0 + 0 * 0 + p * z * σ) - σ) = 2 * (c * p * z * σ - σ) := by ring
      rwa [e] at this
    set cc : ℝ → ℝ := fun e => c * ((o e).x ^ 2 + (o e).y ^ 2 + p * (o e).z ^ 2) - 2 * (o e).z with hcc
    have tcc : Tendsto cc (𝓝 0) (𝓝 (c * p * z ^ 2 - 2 * z)) := by
      have := ((((ox.pow 2).add (oy.pow 2)).add ((oz.pow 2).const_mul p)).const_mul c).sub
        (oz.const_mul 2)
      have e : c * ((0 : ℝ) ^ 2 + 0 ^ 2 + p * z ^ 2) - 2 * z = c * p * z ^ 2 - 2 * z := by ring
      rwa [e] at this
    set d : ℝ → ℝ := fun e => b e ^ 2 - 4 * a e * cc e with hd
    have td : Tendsto d (𝓝 0) (𝓝 (2 ^ 2)) := by
      have := (tb.pow 2).sub ((ta.const_mul 4).mul tcc)
      have e : (2 * (c * p * z * σ - σ)) ^ 2 - 4 * (c * p) * (c * p * z ^ 2 - 2 * z) = 2 ^ 2 := by
        linear_combination 4 * (c * p * z - 1) ^ 2 * hσ2
      rwa [e] at this
    have ts : Tendsto (fun e => Real.sqrt (d e)) (𝓝 0) (𝓝 2) := by
      have := td.sqrt
      rwa [Real.sqrt_sq (by norm_num)] at this
    -- both roots
    have root : ∀ σ' : ℝ, Tendsto (fun e => (-b e + σ' * Real.sqrt (d e)) / (2 * a e)) (𝓝 0)
        (𝓝 ((-(2 * (c * p * z * σ - σ)) + σ' * 2) / (2 * (c * p)))) := fun σ' =>
      (tb.neg.add (ts.const_mul σ')).div (ta.const_mul 2) (by positivity)
    have hdpos : ∀ᶠ e in 𝓝 (0 : ℝ), 0 < d e := td.eventually (lt_mem_nhds (by norm_num))
    have hane : ∀ᶠ e in 𝓝 (0 : ℝ), a e ≠ 0 := ta.eventually_ne hK
    have habig : ∀ᶠ e in 𝓝 (0 : ℝ), 1e-12 < |a e| := ta.abs.eventually (lt_mem_nhds hk)
    set t : ℝ → ℝ := fun e => (-b e + -σ * Real.sqrt (d e)) / (2 * a e) with ht
    have tt : Tendsto t (𝓝 0) (𝓝 (-σ * z)) := by
      have := root (-σ)
      have e : (-(2 * (c * p * z * σ - σ)) + -σ * 2) / (2 * (c * p)) = -σ * z := by
        field_simp; ring
      rwa [e] at this
    set t' : ℝ → ℝ := fun e => (-b e + σ * Real.sqrt (d e)) / (2 * a e) with ht'
    have tt' : Tendsto t' (𝓝 0) (𝓝 (-σ * z + 2 * σ / (c * p))) := by
      have := root σ
      have e : (-(2 * (c * p * z * σ - σ)) + σ * 2) / (2 * (c * p)) = -σ * z + 2 * σ / (c * p) := by
        field_simp; ring
      rwa [e] at this
    -- the near root is kept
    have tz : Tendsto (fun e => (o e).z + (u e).z * t e) (𝓝 0) (𝓝 0) := by
      have := oz.add (uz.mul tt)
      have e : z + σ * (-σ * z) = 0 := by linear_combination (-z) * hσ2
      rwa [e] at this
    have near : ∀ᶠ e in 𝓝 (0 : ℝ), conicRoot c p (o e) (u e) (-σ) = some (t e) := by
      have tsmall : ∀ᶠ e in 𝓝 (0 : ℝ), 0 < 1 - c * p * ((o e).z + (u e).z * t e) := by
        have := (tz.const_mul (c * p)).const_sub 1
        exact this.eventually (lt_mem_nhds (by simp))
      filter_upwards [hdpos, hane, habig, tsmall] with e h1 h2 h3 h4
      have hroot : a e * t e ^ 2 + b e * t e + cc e = 0 := by
        have hsq := Real.sq_sqrt h1.le
        have e1 : 2 * a e * t e = -b e + -σ * Real.sqrt (d e) := by
          simp only [ht]; field_simp
        have e2 : (2 * a e * t e + b e) ^ 2 = d e := by
          rw [e1]; linear_combination (σ * σ) * hsq + d e * hσ2
        simp only [hd] at e2
        have : 4 * a e * (a e * t e ^ 2 + b e * t e + cc e) = 0 := by linear_combination e2
        simpa [h2] using this
      unfold conicRoot
      simp only [Option.bind_eq_bind]
      rw [if_neg (not_lt.2 h1.le), if_neg (not_lt.2 h3.le), div?_of_ne (mul_ne_zero two_ne_zero h2)]
      simp only [Option.bind_some]
      rw [if_pos]
      show ((o e).z + (u e).z * t e) * (c * (((o e).x + (u e).x * t e) ^ 2
        + ((o e).y + (u e).y * t e) ^ 2) - ((o e).z + (u e).z * t e)) ≥ 0
      have key : c * (((o e).x + (u e).x * t e) ^ 2 + ((o e).y + (u e).y * t e) ^ 2)
          - ((o e).z + (u e).z * t e)
          = ((o e).z + (u e).z * t e) * (1 - c * p * ((o e).z + (u e).z * t e)) := by
        simp only [ha, hb, hcc] at hroot
        linear_combination hroot
      rw [key, ← mul_assoc]
      exact mul_nonneg (mul_self_nonneg _) h4.le
    have far : ∀ᶠ e in 𝓝 (0 : ℝ), conicRoot c p (o e) (u e) σ = none := by
      have tz' : Tendsto (fun e => (o e).z + (u e).z * t' e) (𝓝 0) (𝓝 (2 / (c * p))) := by
        have := oz.add (uz.mul tt')
        have e : z + σ * (-σ * z + 2 * σ / (c * p)) = 2 / (c * p) := by
          rw [mul_add, mul_div_assoc', show σ * (2 * σ) = 2 * (σ * σ) by ring, hσ2]
          linear_combination (-z) * hσ2
        rwa [e] at this
      have tx' : Tendsto (fun e => (o e).x + (u e).x * t' e) (𝓝 0) (𝓝 0) := by
        have := ox.add (ux.mul tt')
        simpa using this
      have ty' : Tendsto (fun e => (o e).y + (u e).y * t' e) (𝓝 0) (𝓝 0) := by
        have := oy.add (uy.mul tt')
        simpa using this
      have tv := tz'.mul ((((tx'.pow 2).add (ty'.pow 2)).const_mul c).sub tz')
      have hv := tv.eventually (gt_mem_nhds (show
        2 / (c * p) * (c * ((0 : ℝ) ^ 2 + 0 ^ 2) - 2 / (c * p)) < 0 by
          have : 0 < (2 / (c * p)) ^ 2 := by positivity
          nlinarith))
      filter_upwards [hdpos, hane, habig, hv] with e h1 h2 h3 h4
      unfold conicRoot
      simp only [Option.bind_eq_bind]
      rw [if_neg (not_lt.2 h1.le), if_neg (not_lt.2 h3.le), div?_of_ne (mul_ne_zero two_ne_zero h2)]
      simp only [Option.bind_some]
      rw [if_neg (not_le.2 h4)]
    refine ⟨t, tt, ?_⟩
    filter_upwards [near, far] with e h1 h2
    have hpath : conicPath c p (o e) (u e) = some (t e) := by
      unfold conicPath
      rcases hσ with h | h <;> rw [h] at h1 h2
      · rw [h1, h2]
      · rw [neg_neg] at h1; rw [h1, h2]
    simp only [conicSag, conicIntercept, div?_of_ne hR, Option.bind_eq_bind, Option.bind_some, hc, hp]
    rw [hpath]
    rfl
  curved q qx qy := by
    set d : ℝ → ℝ := fun e => 1 - (1 + conic) * (1 / radius) ^ 2 * ((q e).x ^ 2 + (q e).y ^ 2) with hd
    have td : Tendsto d (𝓝 0) (𝓝 1) := by
      have := (((qx.pow 2).add (qy.pow 2)).const_mul ((1 + conic) * (1 / radius) ^ 2)).const_sub 1
      simpa [hd] using this
    have tg : Tendsto (fun e => Real.sqrt (d e)) (𝓝 0) (𝓝 1) := by simpa using td.sqrt
    set l : ℝ → ℝ := fun e => (⟨1 / radius * (q e).x / Real.sqrt (d e),
      1 / radius * (q e).y / Real.sqrt (d e), -1⟩ : V3).len with hl
    have tl : Tendsto l (𝓝 0) (𝓝 1) := by
      have h1 := (qx.const_mul (1 / radius)).div tg one_ne_zero
      have h2 := (qy.const_mul (1 / radius)).div tg one_ne_zero
      have := (((h1.mul h1).add (h2.mul h2)).add_const (-1 * -1 : ℝ)).sqrt
      have e : Real.sqrt (1 / radius * 0 / 1 * (1 / radius * 0 / 1)
        + 1 / radius * 0 / 1 * (1 / radius * 0 / 1) + -1 * -1) = 1 := by simp
      rw [e] at this
      exact this
    refine ⟨fun e => 1 / radius / Real.sqrt (d e) / l e, fun e => -1 / l e, ?_, ?_, ?_⟩
    · have := ((tendsto_const_nhds (x := 1 / radius) (f := 𝓝 (0 : ℝ))).div tg one_ne_zero).div tl
        one_ne_zero
      rw [div_one, div_one] at this
      exact this
    · have := (tendsto_const_nhds (x := (-1 : ℝ)) (f := 𝓝 (0 : ℝ))).div tl one_ne_zero
      rw [div_one] at this
      exact this
    · filter_upwards [td.eventually (lt_mem_nhds one_pos), tl.eventually_ne one_ne_zero] with e he hle
      have he' : 0 ≤ d e := he.le
      have hg : Real.sqrt (d e) ≠ 0 := (Real.sqrt_pos.2 he).ne'
      simp only [hd] at he' hg
      simp only [hl, hd] at hle
      simp only [conicSag, conicNormal, div?_of_ne hR, Option.bind_eq_bind, Option.bind_some]
      rw [sqrt?_of_nonneg he']
      simp only [Option.bind_some, div?_of_ne hg, div?_of_ne hle, Option.pure_def,
        Option.some.injEq]
      apply V3.ext
      · simp only [hl, hd]; ring
      · simp only [hl, hd]; ring
      · rfl

/-! ## Examples -/

theorem translation_axial (z : ℝ) (p : V3) :
    (Rigid.translation ⟨0, 0, z⟩).point p = ⟨p.x, p.y, p.z + z⟩ := by
  apply V3.ext <;> simp [Rigid.translation, Rigid.id, Rigid.point, M3.one, M3.mulVec, dot]

theorem translation_turn (z : ℝ) (v : V3) : (Rigid.translation ⟨0, 0, z⟩).vec v = v := by
  apply V3.ext <;> simp [Rigid.translation, Rigid.id, Rigid.vec, M3.one, M3.mulVec, dot]

/-- Any sag with a curvature, a medium behind it, moved along the axis. -/
theorem centered_of {sag : Sag} {c : ℝ} (hs : CenteredSag sag c) (zs n w n' : ℝ) (hn' : 0 < n')
    (m : Bool) :
    Centered ⟨sag, medium n' m, none, none, some (Rigid.translation ⟨0, 0, zs⟩)⟩ c zs n w n' where
  sag := hs
  plain := rfl
  frame := translation_axial zs
  turn := translation_turn zs
  aperture a ha := by simp at ha
  pos := hn'
  index _ _ _ := rfl
  light _ _ _ := ⟨rfl, fun _ => rfl⟩

/-- The rays of a star on the axis. -/
noncomputable def starlight (w hx hy : ℝ) (e : ℝ) : Ray :=
  { wavelength := w, position := ⟨e * hx, e * hy, -10⟩, direction := ⟨0, 0, 1⟩, intensity := 1,
    attenuation := 0, index := 1, unvignetted := true }

theorem pencil_starlight (w hx hy : ℝ) : Pencil (starlight w hx hy) w ⟨-10, 1, 1, hx, 0, hy, 0⟩ where
  sense := Or.inl rfl
  pos := one_pos
  index := .of_forall fun _ => rfl
  wave := .of_forall fun _ => rfl
  px0 := by simp [starlight]
  px := by simpa [starlight] using (hasDerivAt_id (0 : ℝ)).mul_const hx
  py0 := by simp [starlight]
  py := by simpa [starlight] using (hasDerivAt_id (0 : ℝ)).mul_const hy
  pz := tendsto_const_nhds
  dx0 := rfl
  dx := hasDerivAt_const _ _
  dy0 := rfl
  dy := hasDerivAt_const _ _
  dz := tendsto_const_nhds

/-- A telescope of two mirrors: a paraboloid of focal length four and a convex hyperboloid three
in front of it.  Starlight is focused two thirds behind the vertex of the first mirror. -/
example (w hx hy : ℝ) : ∃ f' : ℝ → Ray,
    (∀ᶠ e in 𝓝 0, propagateSurfaces
      [⟨parabolaSag (-4), medium 1 true, none, none, some (Rigid.translation ⟨0, 0, 0⟩)⟩,
       ⟨conicSag (-22 / 8) (-3), medium 1 true, none, none, some (Rigid.translation ⟨0, 0, -3⟩)⟩]
      (starlight w hx hy e) = some (f' e)) ∧ HeightAt f' (2 / 3) 0 0 := by
  have h1 : Centered ⟨parabolaSag (-4), medium 1 true, none, none,
      some (Rigid.translation ⟨0, 0, 0⟩)⟩ (1 / (2 * -4)) 0 1 w 1 :=
    centered_of (C98_parabola (by norm_num)) 0 1 w 1 one_pos true
  have h2 : Centered ⟨conicSag (-22 / 8) (-3), medium 1 true, none, none,
      some (Rigid.translation ⟨0, 0, -3⟩)⟩ (1 / (-22 / 8)) (-3) 1 (w * 1 / 1) 1 :=
    centered_of (C98_conic (by norm_num) (by norm_num [abs_of_pos])) (-3) 1 (w * 1 / 1) 1 one_pos true
  obtain ⟨f', w', a, b⟩ := C98_train (.cons h1 (.cons h2 (.nil _ _))) (pencil_starlight w hx hy)
  refine ⟨f', a, ?_⟩
  rw [heightAt_iff b]
  simp only [Gauss.step, medium]
  constructor <;> norm_num <;> ring

/-- Starlight through a biconvex lens of index `3/2`. -/
example (w hx hy : ℝ) : ∃ f' : ℝ → Ray,
    (∀ᶠ e in 𝓝 0, propagateSurfaces
      [⟨sphereSag 2, medium (3 / 2) false, none, none, some (Rigid.translation ⟨0, 0, 0⟩)⟩,
       ⟨sphereSag (-2), medium 1 false, none, none, some (Rigid.translation ⟨0, 0, 1 / 10⟩)⟩]
      (starlight w hx hy e) = some (f' e)) ∧ HeightAt f' (1 / 10 + 236 / 119) 0 0 := by
  have h1 : Centered ⟨sphereSag 2, medium (3 / 2) false, none, none,
      some (Rigid.translation ⟨0, 0, 0⟩)⟩ (1 / 2) 0 1 w (3 / 2) :=
    centered_of (C98_sphere (by norm_num)) 0 1 w (3 / 2) (by norm_num) false
  have h2 : Centered ⟨sphereSag (-2), medium 1 false, none, none,
      some (Rigid.translation ⟨0, 0, 1 / 10⟩)⟩ (1 / -2) (1 / 10) (3 / 2) (w * (3 / 2) / 1) 1 :=
    centered_of (C98_sphere (by norm_num)) (1 / 10) (3 / 2) _ 1 one_pos false
  obtain ⟨f', w', a, b⟩ := C98_train (.cons h1 (.cons h2 (.nil _ _))) (pencil_starlight w hx hy)
  refine ⟨f', a, ?_⟩
  rw [heightAt_iff b]
  simp only [Gauss.step, medium]
  constructor <;> norm_num <;> ring

end Optika
