import Verif.Props.Sphere
import Mathlib.Topology.Algebra.Order.Field
import Mathlib.Analysis.SpecialFunctions.Pow.Continuity

/-!
# C88: where a spherical surface focuses light along its axis

The place where a ray parallel to the axis crosses the axis behind a spherical surface, for every height of
the ray, and the focus, which is its limit for small heights.
-/

namespace Optika
open V3 Filter Topology

/-- The ray parallel to the axis of a surface through the point `p`, both in the frame of the surface. -/
def AlongAxis (g : Rigid) (r : Ray) (p : V3) (s : ℝ) : Prop :=
  r.position = g.point p ∧ r.direction = g.vec ⟨0, 0, s⟩ ∧ (s = 1 ∨ s = -1)

/-- Where a ray along the axis meets a sphere. -/
theorem axial_local {R s : ℝ} {m : Material} {g : Rigid} {r out : Ray} {p : V3} (hR : R ≠ 0)
    (hr : AlongAxis g r p s) (hp : p.x ^ 2 + p.y ^ 2 < R ^ 2)
    (h : (sphericalSurface R m g).propagate r = some out) :
    ∃ n : V3, g.ipoint out.position = ⟨0, 0, R⟩ + R • n ∧ n.dot n = 1 ∧
      n.z = -Real.sqrt (1 - (p.x ^ 2 + p.y ^ 2) / R ^ 2) ∧
      snellsLaw ⟨0, 0, s⟩ r.index out.index m.isMirror n = some (g.ivec out.direction) := by
  obtain ⟨hpos, hdir, hs⟩ := hr
  have hss : s * s = 1 := by rcases hs with rfl | rfl <;> norm_num
  have hR2 : 0 < R ^ 2 := by positivity
  have hx : 0 < 1 - (p.x ^ 2 + p.y ^ 2) / R ^ 2 := by
    rw [sub_pos, div_lt_one hR2]; exact hp
  have hld : g.ivec r.direction = ⟨0, 0, s⟩ := by rw [hdir, Rigid.ivec_vec]
  have hlp : g.ipoint r.position = p := by rw [hpos, Rigid.ipoint_point]
  have hu : r.direction.dot r.direction = 1 := by
    rw [hdir, Rigid.vec_dot_vec]; simp [V3.dot, hss]
  have hs0 : s ≠ 0 := by rintro rfl; simp at hss
  have hmeet : MeetsSphere R g r := by
    refine ⟨by rw [hld]; exact hs0, ⟨p.x, p.y, R * (1 - Real.sqrt (1 - (p.x ^ 2 + p.y ^ 2) / R ^ 2))⟩, ?_, ?_⟩
    · rw [hld, hlp]
      refine ⟨s * (R * (1 - Real.sqrt (1 - (p.x ^ 2 + p.y ^ 2) / R ^ 2)) - p.z), ?_⟩
      ext <;> vsimp
      · ring
      · ring
      · linear_combination (-(R * (1 - Real.sqrt (1 - (p.x ^ 2 + p.y ^ 2) / R ^ 2)) - p.z)) * hss
    · rw [onGraph_sphere]
      have h1 := Real.sq_sqrt hx.le
      have h2 := Real.sqrt_nonneg (1 - (p.x ^ 2 + p.y ^ 2) / R ^ 2)
      have h3 : (p.x ^ 2 + p.y ^ 2) / R ^ 2 * R ^ 2 = p.x ^ 2 + p.y ^ 2 := div_mul_cancel₀ _ hR2.ne'
      refine ⟨hR, ?_, ?_⟩
      · simp only
        linear_combination R ^ 2 * h1 - h3
      · simp only
        nlinarith
  obtain ⟨hg, hl, n, -, hq, hn1, hnz, hsn⟩ := sphericalSurface_local hu hmeet h
  refine ⟨n, hq, hn1, ?_, by rw [← hld]; exact hsn⟩
  obtain ⟨t, ht⟩ := hl
  have ht' : g.ipoint out.position = p + t • ⟨0, 0, s⟩ := by
    rw [ht, Rigid.ipoint_add_smul, hlp, hld]
  rw [hq] at ht'
  have h1 := congrArg V3.x ht'
  have h2 := congrArg V3.y ht'
  vsimp at h1 h2
  simp only [V3.dot] at hn1
  have hn2 : n.z ^ 2 = 1 - (p.x ^ 2 + p.y ^ 2) / R ^ 2 := by
    have e1 : p.x = R * n.x := by linarith
    have e2 : p.y = R * n.y := by linarith
    rw [e1, e2]; field_simp; linarith
  rw [← hn2, Real.sqrt_sq_eq_abs, abs_of_nonpos hnz]; ring

/-- A mirror leaves the index alone. -/
theorem mirror_index {R : ℝ} {g : Rigid} {r out : Ray}
    (h : (sphericalSurface R mirror g).propagate r = some out) : out.index = r.index := by
  rw [Surface.propagate_eq] at h
  simp only [Option.map_eq_some_iff] at h
  obtain ⟨o, ho, rfl⟩ := h
  obtain ⟨q', normal, r1, n2, b, e1, e2, att, hq', hn', heff, hp, hw', hi', ha, hv, hI, hn2, -, hr0, hb,
    he1, he2, hatt, ow, op, od, oI, oa, oi, -⟩ := propagateLocal_eq_some ho
  have : some r1.index = some n2 := hn2
  rw [Option.some.injEq] at this
  show o.index = r.index
  rw [oi, ← this, hi']; rfl

/-- **C88**, refraction: a ray that is parallel to the axis, at the distance `x R` from it, crosses the axis
behind a spherical surface at this place. -/
theorem C88_refraction {R s : ℝ} {m : Material} {g : Rigid} {r out : Ray} {p : V3} (hR : R ≠ 0)
    (hm : m.isMirror = false) (hi : 0 < r.index) (ho : 0 < out.index) (hne : r.index ≠ out.index)
    (hr : AlongAxis g r p s) (hp : p.x ^ 2 + p.y ^ 2 < R ^ 2)
    (h : (sphericalSurface R m g).propagate r = some out) :
    OnLine out.position out.direction (g.point ⟨0, 0, R + R /
      (Real.sqrt ((out.index / r.index) ^ 2 - (p.x ^ 2 + p.y ^ 2) / R ^ 2)
        - Real.sqrt (1 - (p.x ^ 2 + p.y ^ 2) / R ^ 2))⟩) := by
  obtain ⟨n, hq, hn1, hnz, hsn⟩ := axial_local hR hr hp h
  have hR2 : 0 < R ^ 2 := by positivity
  have hx : 0 < 1 - (p.x ^ 2 + p.y ^ 2) / R ^ 2 := by
    rw [sub_pos, div_lt_one hR2]; exact hp
  have hss : s * s = 1 := by rcases hr.2.2 with rfl | rfl <;> norm_num
  generalize (p.x ^ 2 + p.y ^ 2) / R ^ 2 = x at *
  have hc := Real.sq_sqrt hx.le
  have hc0 := Real.sqrt_pos.2 hx
  rw [hm, snellsLaw_eq_some] at hsn
  obtain ⟨-, -, hs0, hb⟩ := hsn
  have hau : (⟨0, 0, s⟩ : V3).dot n = -(s * Real.sqrt (1 - x)) := by
    simp only [V3.dot, hnz]; ring
  have haa : (⟨0, 0, s⟩ : V3).dot ⟨0, 0, s⟩ = 1 := by simp [V3.dot, hss]
  have harg : (out.index / r.index) ^ 2 + (⟨0, 0, s⟩ : V3).dot n ^ 2 - (⟨0, 0, s⟩ : V3).dot ⟨0, 0, s⟩
      = (out.index / r.index) ^ 2 - x := by
    rw [hau, haa]; linear_combination s * s * hc + (1 - x) * hss
  rw [harg] at hs0 hb
  have hS := Real.sq_sqrt hs0
  have hS0 := Real.sqrt_nonneg ((out.index / r.index) ^ 2 - x)
  have hd : Real.sqrt ((out.index / r.index) ^ 2 - x) - Real.sqrt (1 - x) ≠ 0 := by
    intro h0
    have : Real.sqrt ((out.index / r.index) ^ 2 - x) = Real.sqrt (1 - x) := by linarith
    rw [this, hc] at hS
    have : (out.index / r.index) ^ 2 = 1 := by linarith
    have hk : out.index / r.index = 1 := by
      have := div_pos ho hi
      nlinarith
    rw [div_eq_one_iff_eq hi.ne'] at hk
    exact hne hk.symm
  have hcs : copysign1 ((⟨0, 0, s⟩ : V3).dot n) = -s := by
    rw [hau]; unfold copysign1
    rcases hr.2.2 with rfl | rfl
    · rw [if_pos (by linarith)]
    · rw [if_neg (by linarith)]; ring
  generalize Real.sqrt ((out.index / r.index) ^ 2 - x) = S at *
  generalize Real.sqrt (1 - x) = C at *
  rw [hcs, hau] at hb
  have hgoal : OnLine (g.ipoint out.position) (g.ivec out.direction) ⟨0, 0, R + R / (S - C)⟩ := by
    refine ⟨s * R * (out.index / r.index) / (S - C), ?_⟩
    rw [hq, hb]
    have hk : s * R * (out.index / r.index) / (S - C) * (r.index / out.index) = s * R / (S - C) := by
      field_simp
    have hkd : s * R / (S - C) * (s * C + 1 * -s * S) = -R := by
      field_simp; linear_combination (-(S - C)) * hss
    have hks : s * R / (S - C) * s = R / (S - C) := by
      rw [div_mul_eq_mul_div]; congr 1; linear_combination R * hss
    ext
    · vsimp
      simp only [Bool.false_eq_true, if_false]
      linear_combination (-(s * C + 1 * -s * S) * n.x) * hk - n.x * hkd
    · vsimp
      simp only [Bool.false_eq_true, if_false]
      linear_combination (-(s * C + 1 * -s * S) * n.y) * hk - n.y * hkd
    · vsimp
      simp only [Bool.false_eq_true, if_false]
      linear_combination (-(s + (s * C + 1 * -s * S) * n.z)) * hk - n.z * hkd - hks
  have := OnLine.to_global (g := g) hgoal
  rwa [Rigid.point_ipoint, Rigid.vec_ivec] at this

/-- **C88**, reflection: a ray that is parallel to the axis, at the distance `x R` from it, crosses the axis
here after reflection by a spherical mirror. -/
theorem C88_reflection {R s : ℝ} {g : Rigid} {r out : Ray} {p : V3} (hR : R ≠ 0) (hi : r.index ≠ 0)
    (hr : AlongAxis g r p s) (hp : p.x ^ 2 + p.y ^ 2 < R ^ 2)
    (h : (sphericalSurface R mirror g).propagate r = some out) :
    OnLine out.position out.direction (g.point ⟨0, 0, R - R /
      (2 * Real.sqrt (1 - (p.x ^ 2 + p.y ^ 2) / R ^ 2))⟩) := by
  obtain ⟨n, hq, hn1, hnz, hsn⟩ := axial_local hR hr hp h
  have hR2 : 0 < R ^ 2 := by positivity
  have hx : 0 < 1 - (p.x ^ 2 + p.y ^ 2) / R ^ 2 := by
    rw [sub_pos, div_lt_one hR2]; exact hp
  have hss : s * s = 1 := by rcases hr.2.2 with rfl | rfl <;> norm_num
  have hio : out.index = r.index := mirror_index h
  have hc0 := Real.sqrt_pos.2 hx
  rw [hio, show mirror.isMirror = true from rfl, C02_reflection (by simp [V3.dot, hss]) hi,
    Option.some.injEq] at hsn
  generalize Real.sqrt (1 - (p.x ^ 2 + p.y ^ 2) / R ^ 2) = C at *
  have hgoal : OnLine (g.ipoint out.position) (g.ivec out.direction) ⟨0, 0, R - R / (2 * C)⟩ := by
    refine ⟨-(s * R / (2 * C)), ?_⟩
    have hau : (⟨0, 0, s⟩ : V3).dot n = s * n.z := by simp only [V3.dot]; ring
    have hk : s * R / (2 * C) * (2 * (s * n.z)) = -R := by
      rw [hnz]; field_simp; linear_combination (-1 : ℝ) * hss
    have hks : s * R / (2 * C) * s = R / (2 * C) := by
      rw [div_mul_eq_mul_div]; congr 1; linear_combination R * hss
    rw [hq, ← hsn, hau]
    ext
    · vsimp; linear_combination (-n.x) * hk
    · vsimp; linear_combination (-n.y) * hk
    · vsimp; linear_combination (-n.z) * hk + hks
  have := OnLine.to_global (g := g) hgoal
  rwa [Rigid.point_ipoint, Rigid.vec_ivec] at this

/-- **C88**, focus of a refracting surface: the place where the rays parallel to the axis cross the axis tends
to `n₂ R / (n₂ - n₁)` as their distance `d` from the axis tends to zero. -/
theorem C88_focus_refraction {R n1 n2 : ℝ} (hR : R ≠ 0) (h1 : 0 < n1) (h2 : 0 < n2) (hne : n1 ≠ n2) :
    ∃ z : ℝ → ℝ, Tendsto z (𝓝 0) (𝓝 (n2 * R / (n2 - n1))) ∧
      ∀ (m : Material) (g : Rigid) (r out : Ray) (p : V3) (s d : ℝ), m.isMirror = false →
        r.index = n1 → out.index = n2 → AlongAxis g r p s → p.x ^ 2 + p.y ^ 2 = d ^ 2 → d ^ 2 < R ^ 2 →
        (sphericalSurface R m g).propagate r = some out →
        OnLine out.position out.direction (g.point ⟨0, 0, z d⟩) := by
  refine ⟨fun d => R + R / (Real.sqrt ((n2 / n1) ^ 2 - d ^ 2 / R ^ 2) - Real.sqrt (1 - d ^ 2 / R ^ 2)),
    ?_, ?_⟩
  · have hk : 0 < n2 / n1 := div_pos h2 h1
    have hval : n2 * R / (n2 - n1) = R + R / (Real.sqrt ((n2 / n1) ^ 2 - 0 ^ 2 / R ^ 2)
        - Real.sqrt (1 - 0 ^ 2 / R ^ 2)) := by
      have : n2 - n1 ≠ 0 := sub_ne_zero.2 hne.symm
      simp only [ne_eq, OfNat.ofNat_ne_zero, not_false_eq_true, zero_pow, zero_div, sub_zero,
        Real.sqrt_one, Real.sqrt_sq hk.le]
      have h3 : n2 / n1 - 1 = (n2 - n1) / n1 := by field_simp
      rw [h3]; field_simp; ring
    rw [hval]
    have hc : ContinuousAt (fun d : ℝ => R + R / (Real.sqrt ((n2 / n1) ^ 2 - d ^ 2 / R ^ 2)
        - Real.sqrt (1 - d ^ 2 / R ^ 2))) 0 := by
      apply ContinuousAt.add continuousAt_const
      apply ContinuousAt.div continuousAt_const
      · fun_prop
      · simp only [ne_eq, OfNat.ofNat_ne_zero, not_false_eq_true, zero_pow, zero_div, sub_zero,
          Real.sqrt_one, Real.sqrt_sq hk.le]
        rw [sub_eq_zero, div_eq_one_iff_eq h1.ne']
        exact fun h => hne h.symm
    exact hc
  · rintro m g r out p s d hm rfl rfl hr hpd hd h
    have := C88_refraction hR hm h1 h2 hne hr (by rw [hpd]; exact hd) h
    rw [hpd] at this
    exact this

/-- **C88**, focus of a mirror: the place where the rays parallel to the axis cross the axis tends to half of
the radius as their distance `d` from the axis tends to zero. -/
theorem C88_focus_reflection {R : ℝ} (hR : R ≠ 0) :
    ∃ z : ℝ → ℝ, Tendsto z (𝓝 0) (𝓝 (R / 2)) ∧
      ∀ (g : Rigid) (r out : Ray) (p : V3) (s d : ℝ), r.index ≠ 0 →
        AlongAxis g r p s → p.x ^ 2 + p.y ^ 2 = d ^ 2 → d ^ 2 < R ^ 2 →
        (sphericalSurface R mirror g).propagate r = some out →
        OnLine out.position out.direction (g.point ⟨0, 0, z d⟩) := by
  refine ⟨fun d => R - R / (2 * Real.sqrt (1 - d ^ 2 / R ^ 2)), ?_, ?_⟩
  · have hval : R / 2 = R - R / (2 * Real.sqrt (1 - 0 ^ 2 / R ^ 2)) := by
      norm_num; ring
    rw [hval]
    have hc : ContinuousAt (fun d : ℝ => R - R / (2 * Real.sqrt (1 - d ^ 2 / R ^ 2))) 0 := by
      apply ContinuousAt.sub continuousAt_const
      apply ContinuousAt.div continuousAt_const
      · fun_prop
      · norm_num
    exact hc
  · rintro g r out p s d hi hr hpd hd h
    have := C88_reflection hR hi hr (by rw [hpd]; exact hd) h
    rw [hpd] at this
    exact this

/-- A ray that does strike the axis at one place: if it starts off the axis, the place is determined. -/
theorem C88_focus_unique {g : Rigid} {o u : V3} {z z' : ℝ} (hx : OnLine o u (g.point ⟨0, 0, z⟩))
    (hx' : OnLine o u (g.point ⟨0, 0, z'⟩)) (hoff : (g.ipoint o).x ≠ 0 ∨ (g.ipoint o).y ≠ 0) : z = z' := by
  obtain ⟨t, ht⟩ := hx.to_local
  obtain ⟨t', ht'⟩ := hx'.to_local
  generalize g.ipoint o = q at *
  generalize g.ivec u = v at *
  have a1 := congrArg V3.x ht; have a2 := congrArg V3.y ht; have a3 := congrArg V3.z ht
  have b1 := congrArg V3.x ht'; have b2 := congrArg V3.y ht'; have b3 := congrArg V3.z ht'
  vsimp at a1 a2 a3 b1 b2 b3
  have : t = t' := by
    rcases hoff with h | h
    · have hv : v.x ≠ 0 := by intro h0; rw [h0] at a1; apply h; linarith
      have : (t - t') * v.x = 0 := by linarith
      have := (mul_eq_zero.1 this).resolve_right hv
      linarith
    · have hv : v.y ≠ 0 := by intro h0; rw [h0] at a2; apply h; linarith
      have : (t - t') * v.y = 0 := by linarith
      have := (mul_eq_zero.1 this).resolve_right hv
      linarith
  rw [a3, b3, this]

/-- A ray at three fifths of the radius from the axis of a mirror crosses the axis at `15/8`, well short of the
focus `5/2`: the hypotheses hold far from the axis too. -/
example : ∃ r out : Ray, (sphericalSurface 5 mirror Rigid.id).propagate r = some out ∧ r.index ≠ 0 ∧
    AlongAxis Rigid.id r ⟨3, 0, 10⟩ (-1) ∧ (3 : ℝ) ^ 2 + 0 ^ 2 < 5 ^ 2 ∧
    OnLine out.position out.direction (Rigid.id.point ⟨0, 0, 15 / 8⟩) := by
  have hs : Real.sqrt (16 : ℝ) = 4 := by
    rw [show (16 : ℝ) = 4 ^ 2 by norm_num]; exact Real.sqrt_sq (by norm_num)
  have h5 : Real.sqrt (25 : ℝ) = 5 := by
    rw [show (25 : ℝ) = 5 ^ 2 by norm_num]; exact Real.sqrt_sq (by norm_num)
  have hsn : snellsLaw ⟨0, 0, -1⟩ 1 1 true ⟨3 / 5, 0, -4 / 5⟩ = some ⟨-24 / 25, 0, 7 / 25⟩ := by
    rw [C02_reflection (by norm_num [V3.dot]) one_ne_zero, Option.some.injEq]
    ext <;> vsimp <;> norm_num [V3.dot]
  have hv : ∀ v : V3, Rigid.id.ivec v = v := fun v => by
    have := Rigid.ivec_vec Rigid.id v
    rwa [show Rigid.id.vec v = v from M3.mulVec_one v] at this
  have hp : ∀ v : V3, Rigid.id.ipoint v = v := fun v => by
    have := Rigid.ipoint_point Rigid.id v
    rwa [show Rigid.id.point v = v by
      simp only [Rigid.point, Rigid.id, M3.mulVec_one]; ext <;> simp] at this
  have hp' : ∀ v : V3, Rigid.id.point v = v := fun v => by
    simp only [Rigid.point, Rigid.id, M3.mulVec_one]; ext <;> simp
  have hv' : ∀ v : V3, Rigid.id.vec v = v := fun v => M3.mulVec_one v
  refine ⟨⟨1, ⟨3, 0, 10⟩, ⟨0, 0, -1⟩, 1, 0, 1, true⟩,
    ⟨1, ⟨3, 0, 1⟩, ⟨-24 / 25, 0, 7 / 25⟩, 1, 0, 1, true⟩, ?_, one_ne_zero, ?_, by norm_num, ?_⟩
  · have hq : (sphericalSurface 5 mirror Rigid.id).sag.intercept ⟨3, 0, 10⟩ ⟨0, 0, -1⟩
        = some ⟨3, 0, 1⟩ := by
      show sphereIntercept _ _ _ = _
      unfold sphereIntercept
      norm_num [sgn, sqrt?, hs]
    have hn : (sphericalSurface 5 mirror Rigid.id).sag.normal ⟨3, 0, 1⟩ = some ⟨3 / 5, 0, -4 / 5⟩ := by
      show sphereNormal _ _ = _
      unfold sphereNormal
      norm_num [div?, sqrt?, hs, h5]
    rw [Surface.propagate_eq]
    have hf : (sphericalSurface 5 mirror Rigid.id).frame = Rigid.id := rfl
    rw [hf]
    unfold Surface.propagateLocal Sag.propagate Surface.interact
    simp only [Ray.unmove, hp, hv, hq, Option.bind_eq_bind, Option.bind_some, Option.pure_def, hn]
    have h1 : (sphericalSurface 5 mirror Rigid.id).rulings = none := rfl
    have h2 : (sphericalSurface 5 mirror Rigid.id).material = mirror := rfl
    have h3 : (sphericalSurface 5 mirror Rigid.id).aperture = none := rfl
    simp only [Surface.effectiveRay, Surface.rulingFactor, Surface.clip, h1, h2, h3]
    simp only [mirror, Option.bind_some, hsn, div?]
    norm_num [Ray.move, hp', hv']
  · unfold AlongAxis
    simp only [hp', hv']
    norm_num
  · rw [hp']
    exact ⟨25 / 8, by ext <;> vsimp <;> norm_num⟩

end Optika
