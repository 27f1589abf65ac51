import Verif.Props.SurfaceOptics
import Verif.Props.Sags
import Verif.Props.Conics
import Mathlib.Topology.Algebra.Order.Field
import Mathlib.Analysis.SpecialFunctions.Sqrt

/-!
# C87: what a spherical surface images perfectly

The center of curvature of a sphere, and its aplanatic points.
-/

namespace Optika
open V3

/-- A surface with a spherical sag, placed anywhere. -/
noncomputable def sphericalSurface (R : ℝ) (m : Material) (g : Rigid) : Surface :=
  ⟨sphereSag R, m, none, none, some g⟩

/-- The normal of a sphere is the direction from its center. -/
theorem sphereNormal_eq {R : ℝ} {q n : V3} (hon : OnGraph (sphereHeight R) q)
    (hn : sphereNormal R q = some n) :
    R ≠ 0 ∧ n = (1 / R) • (q - ⟨0, 0, R⟩) ∧ n.dot n = 1 ∧ n.z ≤ 0 := by
  obtain ⟨hR, hq, hRz⟩ := onGraph_sphere.1 hon
  have hnorm : (1 - (1 / R * q.x) ^ 2 - (1 / R * q.y) ^ 2) = ((R - q.z) / R) ^ 2 := by
    field_simp; linarith
  have hs0 : 0 ≤ (R - q.z) / R := by
    rw [div_nonneg_iff]
    rcases lt_or_gt_of_ne hR with h | h
    · right; exact ⟨by nlinarith, h.le⟩
    · left; exact ⟨by nlinarith, h.le⟩
  unfold sphereNormal at hn
  rw [div?_of_ne hR] at hn
  simp only [Option.bind_eq_bind, Option.bind_some, Option.pure_def] at hn
  rw [hnorm, sqrt?_of_nonneg (sq_nonneg _), Real.sqrt_sq hs0] at hn
  simp only [Option.bind_some, Option.some.injEq] at hn
  subst hn
  refine ⟨hR, ?_, ?_, by simpa using hs0⟩
  · ext <;> vsimp <;> field_simp <;> ring
  · simp only [V3.dot]; field_simp; linarith

/-- The line of a ray meets a sphere on the half that belongs to the sag. -/
def MeetsSphere (R : ℝ) (g : Rigid) (r : Ray) : Prop :=
  (g.ivec r.direction).z ≠ 0 ∧
    ∃ q, OnLine (g.ipoint r.position) (g.ivec r.direction) q ∧ OnGraph (sphereHeight R) q

/-- What a spherical surface does to a ray that meets it, in its own frame. -/
theorem sphericalSurface_local {R : ℝ} {m : Material} {g : Rigid} {r out : Ray}
    (hu : r.direction.dot r.direction = 1) (hmeet : MeetsSphere R g r)
    (h : (sphericalSurface R m g).propagate r = some out) :
    OnGraph (sphereHeight R) (g.ipoint out.position) ∧ OnLine r.position r.direction out.position ∧
      ∃ n : V3, R ≠ 0 ∧ g.ipoint out.position = ⟨0, 0, R⟩ + R • n ∧ n.dot n = 1 ∧ n.z ≤ 0 ∧
        snellsLaw (g.ivec r.direction) r.index out.index m.isMirror n = some (g.ivec out.direction) := by
  obtain ⟨n, hn, hsn⟩ := surface_plain h rfl
  have hf : (sphericalSurface R m g).frame = g := rfl
  rw [hf] at hn hsn
  have hu' : (g.ivec r.direction).dot (g.ivec r.direction) = 1 := by
    rw [Rigid.ivec_dot_ivec]; exact hu
  obtain ⟨q, hq, hql, hqg, -⟩ := C08_sphere hu' hmeet.1 hmeet.2
  have hpos : g.ipoint out.position = q := by
    have h := h
    rw [Surface.propagate_eq] at h
    simp only [Option.map_eq_some_iff] at h
    obtain ⟨o, ho, rfl⟩ := h
    obtain ⟨q', normal, r1, n2, b, e1, e2, att, hq', hn', heff, hp, hw', hi', ha, hv, hI, hn2, -, hr0, hb,
      he1, he2, hatt, ow, op, od, oI, oa, oi, -⟩ := propagateLocal_eq_some ho
    show g.ipoint (g.point o.position) = q
    rw [Rigid.ipoint_point, op]
    have : sphereIntercept R (g.ipoint r.position) (g.ivec r.direction) = some q' := hq'
    rw [hq, Option.some.injEq] at this
    exact this.symm
  rw [hpos] at hn ⊢
  obtain ⟨hR, hnq, hn1, hnz⟩ := sphereNormal_eq hqg hn
  refine ⟨hqg, ?_, n, hR, ?_, hn1, hnz, hsn⟩
  · have := OnLine.to_global (g := g) hql
    rw [Rigid.point_ipoint, Rigid.vec_ivec, ← hpos, Rigid.point_ipoint] at this
    exact this
  · rw [hnq]
    ext <;> vsimp <;> field_simp <;> ring

/-- A point on the line of a ray, seen from the point where it strikes the surface. -/
theorem towards_point {g : Rigid} {r out : Ray} {A : V3}
    (h1 : OnLine r.position r.direction out.position) (h2 : OnLine r.position r.direction (g.point A)) :
    ∃ t : ℝ, A - g.ipoint out.position = t • g.ivec r.direction := by
  obtain ⟨t1, e1⟩ := h1
  have h2 : OnLine (g.ipoint r.position) (g.ivec r.direction) A := h2.to_local
  obtain ⟨t2, e2⟩ := h2
  refine ⟨t2 - t1, ?_⟩
  rw [e1, Rigid.ipoint_add_smul, e2]
  vring

theorem center_direction {R t : ℝ} {q n a : V3} (hR : R ≠ 0) (hq : q = ⟨0, 0, R⟩ + R • n)
    (hn1 : n.dot n = 1) (hu : a.dot a = 1) (ht : (⟨0, 0, R⟩ : V3) - q = t • a) :
    ∃ c : ℝ, a = c • n ∧ c ^ 2 = 1 := by
  have hx := congrArg V3.x ht; have hy := congrArg V3.y ht; have hz := congrArg V3.z ht
  rw [hq] at hx hy hz
  vsimp at hx hy hz
  have ht0 : t ≠ 0 := by
    rintro rfl
    have hnx : n.x = 0 := by have : R * n.x = 0 := by linarith
                             exact (mul_eq_zero.1 this).resolve_left hR
    have hny : n.y = 0 := by have : R * n.y = 0 := by linarith
                             exact (mul_eq_zero.1 this).resolve_left hR
    have hnz : n.z = 0 := by have : R * n.z = 0 := by linarith
                             exact (mul_eq_zero.1 this).resolve_left hR
    simp [V3.dot, hnx, hny, hnz] at hn1
  have ha : a = (-(R / t)) • n := by
    ext <;> vsimp <;> field_simp <;> linarith
  refine ⟨_, ha, ?_⟩
  rw [ha] at hu
  simp only [V3.dot, smul_x, smul_y, smul_z] at hu hn1
  linear_combination hu - (-(R / t)) ^ 2 * hn1

/-- **C87**, center: a ray through the center of curvature crosses the surface without being deviated. -/
theorem C87_center_refraction {R : ℝ} {m : Material} {g : Rigid} {r out : Ray}
    (hm : m.isMirror = false) (hi : 0 < r.index) (ho : 0 < out.index)
    (hu : r.direction.dot r.direction = 1) (hmeet : MeetsSphere R g r)
    (hcenter : OnLine r.position r.direction (g.point ⟨0, 0, R⟩))
    (h : (sphericalSurface R m g).propagate r = some out) :
    OnGraph (sphereHeight R) (g.ipoint out.position) ∧ OnLine r.position r.direction out.position ∧
      out.direction = r.direction := by
  obtain ⟨h1, h2, n, hR, hq, hn1, -, hs⟩ := sphericalSurface_local hu hmeet h
  refine ⟨h1, h2, ?_⟩
  obtain ⟨t, ht⟩ := towards_point h2 hcenter
  have hu' : (g.ivec r.direction).dot (g.ivec r.direction) = 1 := by
    rw [Rigid.ivec_dot_ivec]; exact hu
  rw [hm] at hs
  obtain ⟨c, hc, hc1⟩ := center_direction hR hq hn1 hu' ht
  have han : (g.ivec r.direction).dot n ≠ 0 := by
    rw [hc]
    simp only [V3.dot] at hn1 ⊢
    simp only [smul_x, smul_y, smul_z]
    intro h0
    have : c = 0 := by linear_combination h0 - c * hn1
    rw [this] at hc1; norm_num at hc1
  have huniq := (snellsLaw_iff false hn1 hi ho han (g.ivec r.direction)).2
    ⟨⟨hu', ?_⟩, by simp only [Bool.false_eq_true, if_false, SameSide]; exact mul_self_nonneg _⟩
  · rw [hs, Option.some.injEq] at huniq
    have := congrArg g.vec huniq
    rwa [Rigid.vec_ivec, Rigid.vec_ivec] at this
  · have ht0 : (g.ivec r.direction).tang n = 0 := by
      rw [hc]
      unfold V3.tang
      have : (c • n).dot n = c := by
        simp only [V3.dot, smul_x, smul_y, smul_z] at hn1 ⊢; linear_combination c * hn1
      rw [this]; vring
    rw [ht0]; ext <;> vsimp <;> ring

/-- **C87**, center: a mirror returns the rays through its center of curvature on themselves. -/
theorem C87_center_reflection {R : ℝ} {g : Rigid} {r out : Ray} (hi : r.index ≠ 0)
    (hu : r.direction.dot r.direction = 1) (hmeet : MeetsSphere R g r)
    (hcenter : OnLine r.position r.direction (g.point ⟨0, 0, R⟩))
    (h : (sphericalSurface R mirror g).propagate r = some out) :
    OnGraph (sphereHeight R) (g.ipoint out.position) ∧ OnLine r.position r.direction out.position ∧
      out.direction = -r.direction := by
  obtain ⟨h1, h2, n, hR, hq, hn1, -, hs⟩ := sphericalSurface_local hu hmeet h
  refine ⟨h1, h2, ?_⟩
  obtain ⟨t, ht⟩ := towards_point h2 hcenter
  have hu' : (g.ivec r.direction).dot (g.ivec r.direction) = 1 := by
    rw [Rigid.ivec_dot_ivec]; exact hu
  have hio : out.index = r.index := by
    have h := h
    rw [Surface.propagate_eq] at h
    simp only [Option.map_eq_some_iff] at h
    obtain ⟨o, ho, rfl⟩ := h
    obtain ⟨q', normal, r1, n2, b, e1, e2, att, hq', hn', heff, hp, hw', hi', ha, hv, hI, hn2, -, hr0, hb,
      he1, he2, hatt, ow, op, od, oI, oa, oi, -⟩ := propagateLocal_eq_some ho
    have : some r1.index = some n2 := hn2
    rw [Option.some.injEq] at this
    show o.index = r.index
    rw [oi, ← this, hi']; rfl
  rw [hio, show mirror.isMirror = true from rfl, C02_reflection hu' hi, Option.some.injEq] at hs
  obtain ⟨c, hc, hc1⟩ := center_direction hR hq hn1 hu' ht
  have hneg : g.ivec out.direction = -g.ivec r.direction := by
    rw [← hs, hc]
    have : (c • n).dot n = c := by
      simp only [V3.dot, smul_x, smul_y, smul_z] at hn1 ⊢; linear_combination c * hn1
    rw [this]; vring
  have := congrArg g.vec hneg
  rw [Rigid.vec_ivec] at this
  rw [this]
  have h3 := M3.mulVec_smul g.rot (-1) (g.ivec r.direction)
  have h4 : (-1 : ℝ) • g.ivec r.direction = -g.ivec r.direction := by vring
  rw [h4] at h3
  show g.rot.mulVec _ = _
  rw [h3]
  show (-1 : ℝ) • g.vec (g.ivec r.direction) = _
  rw [Rigid.vec_ivec]; vring

/-- **C87**, aplanatic points: the rays towards the point at the distance `R n₂ / n₁` beyond the center of
curvature are refracted towards the point at the distance `R n₁ / n₂` beyond the center. -/
theorem C87_aplanatic {R : ℝ} {m : Material} {g : Rigid} {r out : Ray}
    (hm : m.isMirror = false) (hi : 0 < r.index) (ho : 0 < out.index)
    (hu : r.direction.dot r.direction = 1) (hmeet : MeetsSphere R g r)
    (hpoint : OnLine r.position r.direction (g.point ⟨0, 0, R * (1 + out.index / r.index)⟩))
    (h : (sphericalSurface R m g).propagate r = some out) :
    OnGraph (sphereHeight R) (g.ipoint out.position) ∧ OnLine r.position r.direction out.position ∧
      OnLine out.position out.direction (g.point ⟨0, 0, R * (1 + r.index / out.index)⟩) := by
  obtain ⟨h1, h2, n, hR, hq, hn1, hnz, hs⟩ := sphericalSurface_local hu hmeet h
  refine ⟨h1, h2, ?_⟩
  obtain ⟨t, ht⟩ := towards_point h2 hpoint
  have hu' : (g.ivec r.direction).dot (g.ivec r.direction) = 1 := by
    rw [Rigid.ivec_dot_ivec]; exact hu
  rw [hm] at hs
  rw [hq] at ht
  set a := g.ivec r.direction
  set k := out.index / r.index with hk
  have hk0 : 0 < k := div_pos ho hi
  -- the candidate for the refracted direction
  have e1 : t * a.dot n = R * (k * n.z - 1) := by
    have hx := congrArg V3.x ht; have hy := congrArg V3.y ht; have hz := congrArg V3.z ht
    vsimp at hx hy hz
    simp only [V3.dot] at hn1 ⊢
    linear_combination (-n.x) * hx - n.y * hy - n.z * hz - R * hn1
  have e2 : t ^ 2 = R ^ 2 * (k ^ 2 + 1 - 2 * k * n.z) := by
    have hx := congrArg V3.x ht; have hy := congrArg V3.y ht; have hz := congrArg V3.z ht
    vsimp at hx hy hz
    simp only [V3.dot] at hn1 hu'
    have : (t * a.x) ^ 2 + (t * a.y) ^ 2 + (t * a.z) ^ 2 = t ^ 2 := by linear_combination t ^ 2 * hu'
    rw [← this, ← hx, ← hy, ← hz]
    linear_combination R ^ 2 * hn1
  have ht0 : t ≠ 0 := by
    rintro rfl
    have : 0 < R ^ 2 * (k ^ 2 + 1 - 2 * k * n.z) := by
      have : 0 ≤ -(k * n.z) := by nlinarith
      have hR2 : 0 < R ^ 2 := by positivity
      apply mul_pos hR2; nlinarith
    linarith
  have hneg : k * n.z - 1 < 0 := by nlinarith
  have hneg' : n.z / k - 1 < 0 := by
    have : n.z / k ≤ 0 := div_nonpos_of_nonpos_of_nonneg hnz hk0.le
    linarith
  have han : a.dot n ≠ 0 := by
    intro h0
    rw [h0, mul_zero] at e1
    rcases mul_eq_zero.1 e1.symm with h | h
    · exact hR h
    · linarith
  have hb : g.ivec out.direction = (k / t) • (⟨0, 0, R * (1 + 1 / k)⟩ - (⟨0, 0, R⟩ + R • n)) := by
    have huniq := (snellsLaw_iff false hn1 hi ho han
      ((k / t) • (⟨0, 0, R * (1 + 1 / k)⟩ - (⟨0, 0, R⟩ + R • n)))).2 ?_
    · rw [hs, Option.some.injEq] at huniq; exact huniq
    · have hax : a.x = R / t * -n.x := by
        have hx := congrArg V3.x ht
        vsimp at hx
        field_simp; linarith
      have hay : a.y = R / t * -n.y := by
        have hy := congrArg V3.y ht
        vsimp at hy
        field_simp; linarith
      have haz : a.z = R / t * (k - n.z) := by
        have hz := congrArg V3.z ht
        vsimp at hz
        field_simp; linarith
      have hrk : out.index = k * r.index := by rw [hk]; field_simp
      have hbb : (k / t) • ((⟨0, 0, R * (1 + 1 / k)⟩ : V3) - (⟨0, 0, R⟩ + R • n))
          = (R / t) • ⟨-(k * n.x), -(k * n.y), 1 - k * n.z⟩ := by
        ext <;> vsimp <;> field_simp <;> ring
      rw [hbb]
      have hRt : (R / t) ^ 2 * (k ^ 2 + 1 - 2 * k * n.z) = 1 := by
        rw [div_pow, div_mul_eq_mul_div, ← e2]; field_simp
      simp only [V3.dot] at hn1
      refine ⟨⟨?_, ?_⟩, ?_⟩
      · simp only [V3.dot, smul_x, smul_y, smul_z]
        linear_combination hRt + (R / t) ^ 2 * k ^ 2 * hn1
      · have hd1 : a.dot n = R / t * (k * n.z - 1) := by
          simp only [V3.dot, hax, hay, haz]; linear_combination (-(R / t)) * hn1
        have hd2 : ((R / t) • (⟨-(k * n.x), -(k * n.y), 1 - k * n.z⟩ : V3)).dot n = R / t * (n.z - k) := by
          simp only [V3.dot, smul_x, smul_y, smul_z]; linear_combination (-(R / t) * k) * hn1
        unfold V3.tang
        rw [hd1, hd2, hrk]
        ext <;> vsimp <;> simp only [hax, hay, haz] <;> ring
      · simp only [Bool.false_eq_true, if_false, SameSide]
        have hd1 : a.dot n = R / t * (k * n.z - 1) := by
          simp only [V3.dot, hax, hay, haz]; linear_combination (-(R / t)) * hn1
        have hd2 : ((R / t) • (⟨-(k * n.x), -(k * n.y), 1 - k * n.z⟩ : V3)).dot n = R / t * (n.z - k) := by
          simp only [V3.dot, smul_x, smul_y, smul_z]; linear_combination (-(R / t) * k) * hn1
        rw [hd1, hd2]
        have : 0 ≤ (1 - k * n.z) * (k - n.z) := mul_nonneg (by linarith) (by linarith)
        have := mul_nonneg (sq_nonneg (R / t)) this
        nlinarith
  have hgoal : OnLine (g.ipoint out.position) (g.ivec out.direction)
      ⟨0, 0, R * (1 + r.index / out.index)⟩ := by
    refine ⟨t / k, ?_⟩
    have hkk : r.index / out.index = 1 / k := by rw [hk]; field_simp
    rw [hb, hq, hkk]
    ext <;> vsimp <;> field_simp <;> ring
  have := OnLine.to_global (g := g) hgoal
  rw [Rigid.point_ipoint, Rigid.vec_ivec] at this
  exact this

/-- Non-vacuity of C87: a ray in water towards the aplanatic point of a sphere of radius one, which it
leaves at the edge of the hemisphere. -/
example : ∃ r out : Ray, (sphericalSurface 1 vacuum Rigid.id).propagate r = some out ∧
    r.direction.dot r.direction = 1 ∧ MeetsSphere 1 Rigid.id r ∧ 0 < r.index ∧ 0 < out.index ∧
    OnLine r.position r.direction (Rigid.id.point ⟨0, 0, 1 * (1 + out.index / r.index)⟩) ∧
    out.direction ≠ r.direction := by
  have hs : Real.sqrt (16 / 25) = 4 / 5 := by
    rw [show (16 / 25 : ℝ) = (4 / 5) ^ 2 by norm_num]; exact Real.sqrt_sq (by norm_num)
  have hsn : snellsLaw ⟨-4 / 5, 0, 3 / 5⟩ (4 / 3) 1 false ⟨1, 0, 0⟩ = some ⟨-3 / 5, 0, 4 / 5⟩ := by
    rw [snellsLaw_iff false (by simp [V3.dot]) (by norm_num) (by norm_num) (by norm_num [V3.dot])]
    refine ⟨⟨by norm_num [V3.dot], ?_⟩, by norm_num [SameSide, V3.dot]⟩
    ext <;> norm_num [V3.tang, V3.dot]
  have hv : ∀ v : V3, Rigid.id.ivec v = v := fun v => M3.mulVec_one v
  have hp : ∀ v : V3, Rigid.id.ipoint v = v := fun v => by
    have := Rigid.ipoint_point Rigid.id v
    rwa [show Rigid.id.point v = v by
      simp only [Rigid.point, Rigid.id, M3.mulVec_one]; ext <;> simp] at this
  have hp' : ∀ v : V3, Rigid.id.point v = v := fun v => by
    simp only [Rigid.point, Rigid.id, M3.mulVec_one]; ext <;> simp
  have hv' : ∀ v : V3, Rigid.id.vec v = v := fun v => M3.mulVec_one v
  refine ⟨⟨1, ⟨1, 0, 1⟩, ⟨-4 / 5, 0, 3 / 5⟩, 1, 0, 4 / 3, true⟩,
    ⟨3 / 4, ⟨1, 0, 1⟩, ⟨-3 / 5, 0, 4 / 5⟩, 1, 0, 1, true⟩, ?_, by norm_num [V3.dot], ?_, by norm_num,
    by norm_num, ?_, ?_⟩
  · have hq : (sphericalSurface 1 vacuum Rigid.id).sag.intercept ⟨1, 0, 1⟩ ⟨-4 / 5, 0, 3 / 5⟩
        = some ⟨1, 0, 1⟩ := by
      show sphereIntercept _ _ _ = _
      unfold sphereIntercept
      norm_num [sgn, sqrt?, hs]
    have hn : (sphericalSurface 1 vacuum Rigid.id).sag.normal ⟨1, 0, 1⟩ = some ⟨1, 0, 0⟩ := by
      show sphereNormal _ _ = _
      unfold sphereNormal
      norm_num [div?, sqrt?]
    rw [Surface.propagate_eq]
    have hf : (sphericalSurface 1 vacuum Rigid.id).frame = Rigid.id := rfl
    rw [hf]
    unfold Surface.propagateLocal Sag.propagate Surface.interact
    simp only [Ray.unmove, hp, hv, hq, Option.bind_eq_bind, Option.bind_some, Option.pure_def, hn]
    have h1 : (sphericalSurface 1 vacuum Rigid.id).rulings = none := rfl
    have h2 : (sphericalSurface 1 vacuum Rigid.id).material = vacuum := rfl
    have h3 : (sphericalSurface 1 vacuum Rigid.id).aperture = none := rfl
    simp only [Surface.effectiveRay, Surface.rulingFactor, Surface.clip, h1, h2, h3]
    simp only [vacuum, Option.bind_some, hsn, div?]
    norm_num [Ray.move, hp', hv']
  · refine ⟨?_, ⟨1, 0, 1⟩, ⟨0, ?_⟩, ?_⟩
    · rw [hv]; norm_num
    · rw [hv, hp]; ext <;> vsimp <;> norm_num
    · rw [onGraph_sphere]; norm_num
  · rw [hp']
    exact ⟨5 / 4, by ext <;> vsimp <;> norm_num⟩
  · intro h
    have := congrArg V3.x h
    norm_num at this

end Optika
