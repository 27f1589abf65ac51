import Verif.Props.Sags
import Verif.Props.Transformed

/-!
# C08 and C09 for the sag objects

Height, normal and intercept of one object describe one and the same surface.
-/

namespace Optika
open V3

/-- **C08**: flat sags. -/
theorem C08_flat_object (o u : V3) (hz : u.z ≠ 0) : ∃ q, flatSag.intercept o u = some q ∧ OnLine o u q
    ∧ OnGraph flatSag.height q ∧ ∀ q', OnLine o u q' → OnGraph flatSag.height q' → q' = q :=
  (C08_flat o u).1 hz

/-- **C08**: spherical sags. -/
theorem C08_sphere_object {r : ℝ} {o u : V3} (hu : u.dot u = 1) (hz : u.z ≠ 0)
    (hmeet : ∃ q, OnLine o u q ∧ OnGraph (sphereSag r).height q) :
    ∃ q, (sphereSag r).intercept o u = some q ∧ OnLine o u q ∧ OnGraph (sphereSag r).height q ∧
      ∀ q', OnLine o u q' → OnGraph (sphereSag r).height q' → r * q.z ≤ r * q'.z :=
  C08_sphere hu hz hmeet

/-- **C08**: conic sags. -/
theorem C08_conic_object {R k : ℝ} {o u : V3}
    (hexact : (1 / R) * (u.x ^ 2 + u.y ^ 2 + (1 + k) * u.z ^ 2) = 0 ∨
      1e-12 ≤ |(1 / R) * (u.x ^ 2 + u.y ^ 2 + (1 + k) * u.z ^ 2)|) (hu : u ≠ 0)
    (hmeet : ∃ q, OnLine o u q ∧ OnGraph (conicSag R k).height q) :
    ∃ q, (conicSag R k).intercept o u = some q ∧ OnGraph (conicSag R k).height q ∧
      ∃ t : ℝ, q = o + t • u ∧ ∀ t' : ℝ, OnGraph (conicSag R k).height (o + t' • u) → |t| ≤ |t'| := by
  obtain ⟨q, hq⟩ := C08_conic_complete hexact hu hmeet
  exact ⟨q, hq, C08_conic_sound hexact hu hq⟩

/-- **C08**: parabolic sags. -/
theorem C08_parabola_object {f : ℝ} {o u : V3} (hz : u.z ≠ 0)
    (hexact : u.x ^ 2 + u.y ^ 2 = 0 ∨ 1e-10 < u.x ^ 2 + u.y ^ 2)
    (hmeet : ∃ q, OnLine o u q ∧ OnGraph (parabolaSag f).height q) :
    ∃ q, (parabolaSag f).intercept o u = some q ∧ OnLine o u q ∧ OnGraph (parabolaSag f).height q :=
  C08_parabola_partial hz hexact hmeet

/-- **C08**: cylindrical sags. -/
theorem C08_cylinder_object {r : ℝ} {o u : V3} (hz : u.z ≠ 0)
    (hcross : ((o.z - r) * u.x - o.x * u.z) ^ 2 < r ^ 2 * (u.x ^ 2 + u.z ^ 2))
    (hmeet : ∃ q, OnLine o u q ∧ OnGraph (cylinderSag r).height q) :
    ∃ q, (cylinderSag r).intercept o u = some q ∧ OnLine o u q ∧ OnGraph (cylinderSag r).height q ∧
      ∀ q', OnLine o u q' → OnGraph (cylinderSag r).height q' → r * q.z ≤ r * q'.z :=
  C08_cylinder hz hcross hmeet

/-- A ray along the axis meets each of them. -/
example : ∃ q, OnLine ⟨1, 0, -5⟩ ⟨0, 0, 1⟩ q ∧ OnGraph (parabolaSag 1).height q :=
  ⟨⟨1, 0, 1 / 4⟩, ⟨21 / 4, by ext <;> simp; norm_num⟩, onGraph_parabola.2 ⟨by norm_num, by norm_num⟩⟩

/-- **C08**: a flat sag with a transformation is struck in the one point of the ray in the moved
plane, which is also the graph of its height. -/
theorem C08_flat_moved (g : Rigid) (o u : V3) (hz : (g.ivec u).z ≠ 0) :
    ∃ q, (flatSagWithTransformation g).intercept o u = some q ∧ OnLine o u q ∧ (g.ipoint q).z = 0
      ∧ OnGraph (flatSagWithTransformation g).height q
      ∧ ∀ q', OnLine o u q' → (g.ipoint q').z = 0 → q' = q := by
  obtain ⟨q, h1, ⟨t, rfl⟩, h3, h4⟩ := (C08_flat (g.ipoint o) (g.ivec u)).1 hz
  have hline : g.point (g.ipoint o + t • g.ivec u) = o + t • u := by
    rw [Rigid.point_add_smul, Rigid.point_ipoint, Rigid.vec_ivec]
  have hip : g.ipoint (o + t • u) = g.ipoint o + t • g.ivec u := by
    rw [← hline, Rigid.ipoint_point]
  have h0 : (g.ipoint o + t • g.ivec u).z = 0 := by
    have : some (0 : ℝ) = some _ := h3
    exact (Option.some.inj this).symm
  refine ⟨o + t • u, ?_, ⟨t, rfl⟩, by rw [hip, h0], ?_, ?_⟩
  · simp only [flatSagWithTransformation, h1, Option.map_some, hline]
  · show some _ = some _
    rw [hip]
    have : (⟨(g.ipoint o + t • g.ivec u).x, (g.ipoint o + t • g.ivec u).y, 0⟩ : V3)
        = g.ipoint o + t • g.ivec u := V3.ext rfl rfl h0.symm
    rw [this, hline]
  · rintro q' ⟨t', rfl⟩ hq'
    rw [Rigid.ipoint_add_smul] at hq'
    simp only [add_z, smul_z] at h0 hq'
    have : t' = t := mul_right_cancel₀ hz (by linarith)
    rw [this]

/-- **C08**: a conic sag with a transformation is struck on the moved surface. -/
theorem C08_conic_moved {R k : ℝ} (g : Rigid) {o u q : V3}
    (hexact : (1 / R) * ((g.ivec u).x ^ 2 + (g.ivec u).y ^ 2 + (1 + k) * (g.ivec u).z ^ 2) = 0 ∨
      1e-12 ≤ |(1 / R) * ((g.ivec u).x ^ 2 + (g.ivec u).y ^ 2 + (1 + k) * (g.ivec u).z ^ 2)|)
    (hu : u ≠ 0) (h : ((conicSag R k).withTransformation g).intercept o u = some q) :
    OnLine o u q ∧ OnGraph (conicSag R k).height (g.ipoint q) := by
  refine C08_transformed _ g (fun q' hq' => ?_) h
  have hne : g.ivec u ≠ 0 := by
    intro h0
    apply hu
    rw [← Rigid.vec_ivec g u, h0]
    apply V3.ext <;> simp [Rigid.vec, M3.mulVec, dot]
  obtain ⟨h1, t, h2, -⟩ := C08_conic_sound hexact hne hq'
  exact ⟨⟨t, h2⟩, h1⟩

/-- **C09**: spherical, conic, parabolic and cylindrical sags. -/
theorem C09_sphere_object {R : ℝ} {p : V3} (hR : R ≠ 0) (hin : p.x ^ 2 + p.y ^ 2 < R ^ 2) :
    ∃ n, (sphereSag R).normal p = some n ∧ IsGraphNormal (sphereSag R).height p n :=
  C09_sphere hR hin

theorem C09_conic_object {R k : ℝ} {p : V3} (hR : R ≠ 0)
    (hin : (1 + k) * (p.x ^ 2 + p.y ^ 2) < R ^ 2) :
    ∃ n, (conicSag R k).normal p = some n ∧ IsGraphNormal (conicSag R k).height p n :=
  C09_conic hR hin

theorem C09_parabola_object {f : ℝ} (hf : f ≠ 0) (p : V3) :
    ∃ n, (parabolaSag f).normal p = some n ∧ IsGraphNormal (parabolaSag f).height p n :=
  C09_parabola hf p

theorem C09_cylinder_object {r : ℝ} {p : V3} (hr : r ≠ 0) (hin : p.x ^ 2 < r ^ 2) :
    ∃ n, (cylinderSag r).normal p = some n ∧ IsGraphNormal (cylinderSag r).height p n :=
  C09_cylinder hr hin

/-- **C09**: the flat sag without transformation. -/
theorem C09_flat_object (p : V3) :
    ∃ n, flatSag.normal p = some n ∧ IsGraphNormal flatSag.height p n := by
  refine ⟨⟨0, 0, -1⟩, rfl, by simp [dot], by norm_num, 0, 0, ⟨fun _ => 0, ?_, hasDerivAt_const _ _⟩,
    ⟨fun _ => 0, ?_, hasDerivAt_const _ _⟩, by simp [dot], by simp [dot]⟩ <;>
  exact Filter.Eventually.of_forall fun _ => rfl

/-- **C09**: `NoSag.normal` ignores the transformation: the normal of a plane that is turned by a right
angle lies in the plane. -/
theorem C09_flat_turned_counterexample :
    (flatSagWithTransformation quarterTurn).normal ⟨0, 0, 0⟩ = some ⟨0, 0, -1⟩
      ∧ ¬ PerpendicularTo (fun q => (quarterTurn.ipoint q).z = 0) ⟨0, 0, 0⟩ ⟨0, 0, -1⟩ := by
  refine ⟨rfl, fun h => ?_⟩
  have := h (fun _ => 0) (fun _ => 0) (fun s => s) 0 0 1 ?_ rfl (hasDerivAt_const _ _)
    (hasDerivAt_const _ _) (hasDerivAt_id _)
  · simp [dot] at this
  · intro s
    simp [Rigid.ipoint, quarterTurn, M3.mulVec, M3.transpose, dot]

end Optika
