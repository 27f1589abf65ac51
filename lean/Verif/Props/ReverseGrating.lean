import Verif.Props.Reverse
import Verif.Props.PlaneGrating

/-!
# C86: gratings that are passed backwards
-/

namespace Optika
open V3

/-- Straight equidistant rulings on a plane between media of equal index can be passed both ways. -/
theorem rulesBothWays_plane {s : Surface} {r out : Ray} {d m : ℝ} (hd : d ≠ 0) (hs : s.sag = flatSag)
    (hr : s.rulings = some (idealRulings d m)) (hi : out.index = r.index) : RulesBothWays s r out := by
  intro ru h
  rw [hr, Option.some.injEq] at h
  subst h
  refine ⟨hi, fun r' n => ⟨1, rfl⟩, fun n hn => ⟨d, ⟨1, 0, 0⟩, rfl, hd, ?_, by simp [dot]⟩⟩
  rw [hs] at hn
  have hn' : some (⟨0, 0, -1⟩ : V3) = some n := hn
  rw [Option.some.injEq] at hn'
  rw [← hn']
  simp [dot]

/-- **C86** for plane gratings: mirrors and transmission gratings in vacuum can be passed both ways, if
the ray does not leave along the surface. -/
theorem C86_plane_grating {material : Material} (hm : material = mirror ∨ material = vacuum) {d m : ℝ}
    (hd : d ≠ 0) {ap : Option Aperture} {frame : Option Rigid} {r out : Ray}
    (h : (planeGrating material d m ap frame).propagate r = some out)
    (clips : ∀ a, ap = some a → a.unit = .length) (hr : 0 < r.index)
    (hv : material = vacuum → r.index = 1)
    (hz : ((planeGrating material d m ap frame).seen out.direction).z ≠ 0) :
    TwoWay (planeGrating material d m ap frame) r out := by
  have hi : out.index = r.index := by
    rcases hm with rfl | rfl
    · exact (C15_mirror_medium rfl h).2.1
    · rw [(C15_vacuum_medium rfl h).2, hv rfl]
  exact C86_plane h rfl (rulesBothWays_plane hd rfl rfl hi) clips hr (by rw [hi]; exact hr) (fun _ => hi) hz

/-- A ray that strikes a transmission grating along its normal, with three wavelengths to a period, and
returns: with the order that it had on the way there it does not come back on its way, since the code
counts the order from the side of the incident light. -/
theorem C86_order_counterexample : ∃ (s : Surface) (r out b : Ray), s.propagate r = some out ∧
    TwoWay s r out ∧ r.direction.dot r.direction = 1 ∧ s.propagate out.turned = some b ∧
    b.direction ≠ -r.direction := by
  obtain ⟨out, h⟩ := (C95_exists (material := vacuum) (Or.inr rfl) (d := 3) (m := 1) three_ne_zero
    (frame := none) (r := ⟨1, ⟨0, 0, -1⟩, ⟨0, 0, 1⟩, 1, 0, 1, true⟩) one_pos rfl).2 (by
      left
      rw [example_seen (Or.inl rfl)]
      simp [vacuum]; norm_num)
  obtain ⟨hw, hi⟩ := C15_vacuum_medium rfl h
  obtain ⟨-, -, u, y, p, -, -, s⟩ := C95_equation (Or.inr rfl) three_ne_zero (by exact one_pos) h
  simp only [example_seen (Or.inl rfl)] at u y p s
  simp only [hi, one_mul, mul_zero, mul_one] at y p
  have hx := p one_pos
  have hs := s trivial
  have hz : 0 < out.direction.z := by
    rcases eq_or_lt_of_le (by linarith : 0 ≤ out.direction.z) with h | h
    · rw [← h, hx, y] at u; norm_num at u
    · exact h
  have hwl : out.wavelength = 1 := by
    obtain ⟨r1, -, -, -, -, -, -, e⟩ := medium_behind h
    rw [e, hi]
    simp
  obtain ⟨b, h'⟩ := (C95_exists (material := vacuum) (Or.inr rfl) (d := 3) (m := 1) three_ne_zero
    (frame := none) (r := out.turned) (by show 0 < out.index; rw [hi]; exact one_pos) rfl).2 (by
      right
      rw [example_seen (Or.inl rfl)]
      refine ⟨by simpa [Ray.turned] using hz, ?_⟩
      simp [Ray.turned, hx, hi, y, hwl, vacuum]; norm_num)
  refine ⟨_, _, out, b, h, C86_plane_grating (Or.inr rfl) three_ne_zero h (by simp) one_pos (fun _ => rfl)
    (by rw [example_seen (Or.inl rfl)]; exact hz.ne'), by simp [dot], h', fun hb => ?_⟩
  obtain ⟨-, -, -, -, -, q, -⟩ := C95_equation (Or.inr rfl) three_ne_zero
    (by show 0 < out.index; rw [hi]; exact one_pos) h'
  simp only [example_seen (Or.inl rfl)] at q
  have := q (by simpa [Ray.turned] using hz)
  rw [hb, (C15_vacuum_medium rfl h').2] at this
  simp [Ray.turned, hx, hi, hwl] at this
  norm_num at this

/-- A ray in the plane of incidence that passes rulings of spacing one on a plane, from one medium into another. -/
theorem ruled_plane_step {n n' m w : ℝ} {d b : V3} (hn : 0 < n) (hn' : 0 < n') (hz : d.z ≠ 0)
    (h : PhaseMatched d b n n' ⟨0, 0, -1⟩ (((if d.dot ⟨0, 0, -1⟩ < 0 then -1 else 1) * (m * w / 1)) • ⟨1, 0, 0⟩))
    (hside : SameSide d b ⟨0, 0, -1⟩) :
    (planeGrating (medium n' false) 1 m none none).propagate ⟨w, 0, d, 1, 0, n, true⟩
      = some ⟨w / (n / n'), 0, b, 1, 0, n', true⟩ := by
  have hb := (ruled_iff (w := w) (a := d) (u := ⟨0, 0, -1⟩) (g := ⟨1, 0, 0⟩) (n1 := n) (n2 := n') (m := m) (d := 1) false
    (by simp [dot]) (by simp [dot]) (by simp [dot]) hn hn' one_ne_zero (by simpa [dot] using hz) b).2 ⟨h, by simpa using hside⟩
  obtain ⟨k, hk, hs⟩ := Option.bind_eq_some_iff.1 hb
  have hf : flatIntercept 0 d = some 0 := by
    unfold flatIntercept
    rw [div?_of_ne hz]
    simp only [Option.bind_eq_bind, Option.bind_some, Option.pure_def, Option.some.injEq]
    ext <;> simp
  have hr : n / n' ≠ 0 := (div_pos hn hn').ne'
  simp [planeGrating, Surface.propagate, Surface.propagateLocal, Sag.propagate, flatSag, hf, Surface.interact, flatNormal,
    Surface.effectiveRay, Surface.rulingFactor, medium, Surface.clip, idealRulings, constantSpacing, V3.len, V3.dot]
  have h11 : (1 : ℝ) • (⟨1, 0, 0⟩ : V3) = ⟨1, 0, 0⟩ := by ext <;> simp
  rw [h11] at hk ⊢
  rw [hk]
  simp [hs, div?_of_ne hn'.ne', div?_of_ne hr]

/-- Rulings on glass: a ray that enters it and returns, in the opposite order, does not come back on its way, since the code
multiplies the wavelength by the index (C17), so that the rulings deflect the light more on its way back. -/
theorem C86_glass_grating_counterexample : ∃ (s : Surface) (r out b : Ray), s.propagate r = some out ∧
    s.rulings = some (idealRulings 1 1) ∧ s.sag = flatSag ∧ s.material.isMirror = false ∧
    r.direction = ⟨0, 0, 1⟩ ∧ r.index = 1 ∧ out.index = 3 / 2 ∧
    (s.backward r.index).propagate out.turned = some b ∧ b.direction ≠ -r.direction := by
  have h1 := ruled_plane_step (n := 1) (n' := 3 / 2) (m := 1) (w := 6 / 5) (d := ⟨0, 0, 1⟩) (b := ⟨-4 / 5, 0, 3 / 5⟩)
    (by norm_num) (by norm_num) (by norm_num) ⟨by norm_num [dot], by
      ext <;> simp [tang, dot] <;> norm_num⟩ (by norm_num [SameSide, dot])
  have h2 := ruled_plane_step (n := 3 / 2) (n' := 1) (m := -1) (w := 9 / 5) (d := ⟨4 / 5, 0, -3 / 5⟩) (b := ⟨-3 / 5, 0, -4 / 5⟩)
    (by norm_num) (by norm_num) (by norm_num) ⟨by norm_num [dot], by
      ext <;> simp [tang, dot] <;> norm_num⟩ (by norm_num [SameSide, dot])
  refine ⟨_, _, _, ⟨9 / 5 / (3 / 2 / 1), 0, ⟨-3 / 5, 0, -4 / 5⟩, 1, 0, 1, true⟩, h1, rfl, rfl, rfl, rfl, rfl, rfl, ?_, ?_⟩
  · rw [← h2]
    congr 1
    simp only [Ray.turned, Ray.mk.injEq, and_true, true_and]
    refine ⟨by norm_num, ?_⟩
    ext <;> simp <;> norm_num
  · intro h
    have := congrArg V3.x h
    norm_num at this

end Optika
