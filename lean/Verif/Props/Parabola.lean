import Verif.Props.Propagation
import Verif.Props.SagNormals
import Verif.Props.Sags

/-!
# C11: a parabolic mirror focuses axial light
-/

namespace Optika
open V3

/-- A mirror with a parabolic sag, in its own coordinate system. -/
noncomputable def parabolicMirror (f : ℝ) : Surface := ⟨parabolaSag f, mirror, none, none, none⟩

/-- The normal of the paraboloid, up to its length `N`. -/
theorem parabolaNormal_eq {f : ℝ} (hf : f ≠ 0) (p : V3) (hp : OnGraph (parabolaHeight f) p) :
    ∃ n : V3, ∃ k : ℝ, parabolaNormal f p = some n ∧ n = k • (⟨p.x, p.y, -(2 * f)⟩ : V3) ∧
      k ^ 2 * (4 * f * (p.z + f)) = 1 := by
  have h2f : 2 * f ≠ 0 := by simpa using hf
  have hpos : (0 : ℝ) < (p.x / (2 * f)) ^ 2 + (p.y / (2 * f)) ^ 2 + 1 := by positivity
  have hg := (onGraph_parabola.1 hp).2
  have hs := Real.sqrt_pos.2 hpos
  have hss := Real.sq_sqrt hpos.le
  refine ⟨_, 1 / (Real.sqrt ((p.x / (2 * f)) ^ 2 + (p.y / (2 * f)) ^ 2 + 1) * (2 * f)), ?_, rfl, ?_⟩
  · unfold parabolaNormal
    simp only []
    rw [div?_of_ne h2f, div?_of_ne h2f]
    simp only [Option.bind_eq_bind, Option.bind_some]
    rw [sqrt?_of_nonneg hpos.le]
    simp only [Option.bind_some]
    rw [div?_of_ne h2f, div?_of_ne h2f, div?_of_ne h2f]
    simp only [Option.bind_some, Option.pure_def, Option.some.injEq]
    generalize Real.sqrt ((p.x / (2 * f)) ^ 2 + (p.y / (2 * f)) ^ 2 + 1) = s at *
    ext <;> vsimp <;> field_simp
  · generalize Real.sqrt ((p.x / (2 * f)) ^ 2 + (p.y / (2 * f)) ^ 2 + 1) = s at *
    have : s ^ 2 * (2 * f) ^ 2 = 4 * f * (p.z + f) := by
      rw [hss]; field_simp; linear_combination hg
    rw [← this]
    field_simp

/-- Propagation through the parabolic mirror of a unit direction. -/
theorem parabolicMirror_propagate {f : ℝ} {r : Ray} {p : V3} (hf : f ≠ 0)
    (hdir : r.direction.dot r.direction = 1) (hn : r.index ≠ 0)
    (hint : parabolaIntercept f r.position r.direction = some p)
    (hp : OnGraph (parabolaHeight f) p) :
    ∃ out n, (parabolicMirror f).propagate r = some out ∧ out.position = p ∧
      parabolaNormal f p = some n ∧
      out.direction = r.direction - (2 * r.direction.dot n) • n := by
  obtain ⟨n, k, hn1, -, -⟩ := parabolaNormal_eq hf p hp
  have hs := C02_reflection (u := n) hdir hn
  have e : (parabolicMirror f).propagate r = some { r with
      position := p
      direction := r.direction - (2 * r.direction.dot n) • n
      intensity := Real.exp (-r.attenuation * (p - r.position).len) * r.intensity } := by
    simp [parabolicMirror, parabolaSag, Surface.propagate, Surface.propagateLocal, Sag.propagate,
      hint, Surface.interact, hn1, Surface.effectiveRay, mirror, hs, hn,
      Surface.rulingFactor, Surface.clip, div_self hn, div?]
  exact ⟨_, n, e, rfl, hn1, rfl⟩

/-- **C11**: every ray parallel to the axis, from either side (`s = ±1`) and for either sign of
the focal length, is reflected into a line through the focus `(0, 0, f)`. -/
theorem C11_axial_to_focus {f s : ℝ} {r : Ray} (hf : f ≠ 0) (hs : s = 1 ∨ s = -1)
    (hdir : r.direction = ⟨0, 0, s⟩) (hn : r.index ≠ 0) :
    ∃ out, (parabolicMirror f).propagate r = some out ∧
      OnGraph (parabolaHeight f) out.position ∧ OnLine r.position r.direction out.position ∧
      OnLine out.position out.direction ⟨0, 0, f⟩ := by
  have hss : s * s = 1 := by rcases hs with rfl | rfl <;> norm_num
  have hs0 : s ≠ 0 := by rintro rfl; norm_num at hss
  have hmeet : ∃ q, OnLine r.position r.direction q ∧ OnGraph (parabolaHeight f) q := by
    set z := (r.position.x ^ 2 + r.position.y ^ 2) / (4 * f) with hz
    refine ⟨⟨r.position.x, r.position.y, z⟩, ⟨(z - r.position.z) * s, ?_⟩,
      onGraph_parabola.2 ⟨hf, ?_⟩⟩
    · rw [hdir]
      ext <;> vsimp
      · ring
      · ring
      · linear_combination -(z - r.position.z) * hss
    · simp only [hz]; field_simp
  obtain ⟨q, hq, hline, hgraph⟩ := C08_parabola_partial (f := f) (o := r.position) (u := r.direction)
    (by rw [hdir]; exact hs0) (by left; rw [hdir]; simp) hmeet
  obtain ⟨out, n, h1, h2, h3, h4⟩ := parabolicMirror_propagate hf
    (by rw [hdir]; simpa [dot] using hss) hn hq hgraph
  refine ⟨out, h1, by rw [h2]; exact hgraph, by rw [h2]; exact hline, ?_⟩
  obtain ⟨n', k, hn1, hn2, hk⟩ := parabolaNormal_eq hf q hgraph
  rw [h3] at hn1
  simp only [Option.some.injEq] at hn1
  subst hn1
  have hg := (onGraph_parabola.1 hgraph).2
  rw [h2, h4, hdir, hn2]
  refine ⟨-(q.z + f) * s, ?_⟩
  simp only [dot]
  have hk2 : k * k * f * (q.z + f) = 1 / 4 := by linarith
  ext <;> vsimp
  · linear_combination (4 * q.x * s * s) * hk2 + q.x * hss
  · linear_combination (4 * q.y * s * s) * hk2 + q.y * hss
  · linear_combination (-8 * f * s * s) * hk2 + (q.z - f) * hss

/-- Non-vacuity and concreteness: `f = -3`, a ray at `x = 6` travelling towards positive `z`. -/
example : ∃ out, (parabolicMirror (-3)).propagate
      ⟨1, ⟨6, 0, -10⟩, ⟨0, 0, 1⟩, 1, 0, 1, true⟩ = some out ∧
    OnLine out.position out.direction ⟨0, 0, -3⟩ := by
  obtain ⟨out, h1, -, -, h2⟩ := C11_axial_to_focus (f := -3) (s := 1)
    (r := ⟨1, ⟨6, 0, -10⟩, ⟨0, 0, 1⟩, 1, 0, 1, true⟩) (by norm_num) (Or.inl rfl) rfl (by norm_num)
  exact ⟨out, h1, h2⟩

/-- **C11**, converse: every ray through the focus leaves parallel to the axis.  The guards are
those of the intercept with a paraboloid (C08). -/
theorem C11_focus_to_axial {f : ℝ} {r : Ray} (hf : f ≠ 0) (hdir : r.direction.dot r.direction = 1)
    (hfocus : OnLine r.position r.direction ⟨0, 0, f⟩) (hn : r.index ≠ 0)
    (hz : r.direction.z ≠ 0)
    (hexact : r.direction.x ^ 2 + r.direction.y ^ 2 = 0 ∨
      1e-10 < r.direction.x ^ 2 + r.direction.y ^ 2) :
    ∃ out, (parabolicMirror f).propagate r = some out ∧
      OnGraph (parabolaHeight f) out.position ∧
      (out.direction = ⟨0, 0, 1⟩ ∨ out.direction = ⟨0, 0, -1⟩) := by
  obtain ⟨t, ht⟩ := hfocus
  set u := r.direction with hu
  set A := u.x ^ 2 + u.y ^ 2 with hA
  have hunit : A + u.z ^ 2 = 1 := by rw [hA]; simp only [dot] at hdir; linarith
  -- the line through the focus meets the paraboloid
  have hmeet : ∃ q, OnLine r.position u q ∧ OnGraph (parabolaHeight f) q := by
    have key : ∀ τ : ℝ, A * τ ^ 2 - 4 * f * u.z * τ - 4 * f ^ 2 = 0 →
        ∃ q, OnLine r.position u q ∧ OnGraph (parabolaHeight f) q := by
      intro τ hτ
      refine ⟨(⟨0, 0, f⟩ : V3) + τ • u, ⟨t + τ, ?_⟩, onGraph_parabola.2 ⟨hf, ?_⟩⟩
      · rw [ht]; vring
      · vsimp; linear_combination hτ
    rcases hexact with h0 | h0
    · refine key (-f / u.z) ?_
      rw [h0]; field_simp; ring
    · have hA0 : A ≠ 0 := by linarith
      refine key ((2 * f * u.z + 2 * f) / A) ?_
      field_simp
      linear_combination (-4 * f ^ 2) * hunit
  obtain ⟨q, hq, hline, hgraph⟩ := C08_parabola_partial hz hexact hmeet
  obtain ⟨out, n, h1, h2, h3, h4⟩ := parabolicMirror_propagate hf hdir hn hq hgraph
  refine ⟨out, h1, by rw [h2]; exact hgraph, ?_⟩
  obtain ⟨n', k, hn1, hn2, hk⟩ := parabolaNormal_eq hf q hgraph
  rw [h3] at hn1
  simp only [Option.some.injEq] at hn1
  subst hn1
  have hg := (onGraph_parabola.1 hgraph).2
  -- the direction is proportional to `q - F`
  obtain ⟨t', ht'⟩ := hline
  set w := t' - t with hw
  have hx : q.x = w * u.x := by
    have h5 := congrArg V3.x ht; have h6 := congrArg V3.x ht'; vsimp at h5; vsimp at h6
    rw [h6, hw]; linear_combination -h5
  have hy : q.y = w * u.y := by
    have h5 := congrArg V3.y ht; have h6 := congrArg V3.y ht'; vsimp at h5; vsimp at h6
    rw [h6, hw]; linear_combination -h5
  have hzq : q.z = f + w * u.z := by
    have h5 := congrArg V3.z ht; have h6 := congrArg V3.z ht'; vsimp at h5; vsimp at h6
    rw [h6, hw]; linear_combination -h5
  have hk2 : k * k * f * (q.z + f) = 1 / 4 := by linarith
  have hw2 : w ^ 2 = (q.z + f) ^ 2 := by
    have : w ^ 2 = q.x ^ 2 + q.y ^ 2 + (q.z - f) ^ 2 := by
      rw [hx, hy, hzq]; linear_combination -w ^ 2 * hunit
    rw [this]; linear_combination hg
  have hqf : q.z + f ≠ 0 := by
    intro h; rw [h] at hk2; norm_num at hk2
  have hw0 : w ≠ 0 := by
    intro h; rw [h] at hw2
    have : (q.z + f) ^ 2 = 0 := by linarith
    exact hqf (by simpa using this)
  have hux : u.x = q.x / w := by rw [hx]; field_simp
  have huy : u.y = q.y / w := by rw [hy]; field_simp
  have huz : u.z = (q.z - f) / w := by rw [hzq]; field_simp; ring
  have hout : out.direction = ⟨0, 0, (q.z + f) / w⟩ := by
    rw [h4, hn2, ← hu]
    have hdot : u.dot (k • (⟨q.x, q.y, -(2 * f)⟩ : V3)) = k * (2 * f * (q.z + f)) / w := by
      simp only [dot]; vsimp; rw [hux, huy, huz]; field_simp; linear_combination k * hg
    rw [hdot]
    ext <;> vsimp
    · rw [hux]; field_simp; linear_combination (-4 * q.x) * hk2
    · rw [huy]; field_simp; linear_combination (-4 * q.y) * hk2
    · rw [huz]; field_simp; linear_combination (8 * f) * hk2
  have : (q.z + f) / w = 1 ∨ (q.z + f) / w = -1 := by
    rcases sq_eq_sq_iff_eq_or_eq_neg.1 hw2 with h | h
    · left; rw [h]; field_simp
    · right; rw [h]; field_simp
  rcases this with h | h
  · left; rw [hout, h]
  · right; rw [hout, h]

/-- Non-vacuity of `C11_focus_to_axial`. -/
example : OnLine ⟨0, 0, 5⟩ ⟨3 / 5, 0, 4 / 5⟩ ⟨0, 0, 5⟩ ∧
    (⟨3 / 5, 0, 4 / 5⟩ : V3).dot ⟨3 / 5, 0, 4 / 5⟩ = 1 ∧
    (1e-10 : ℝ) < (3 / 5) ^ 2 + 0 ^ 2 := by
  refine ⟨⟨0, ?_⟩, ?_, ?_⟩
  · ext <;> simp
  · simp [dot]; norm_num
  · norm_num

end Optika
