import Verif.Props.Wavefronts

/-!
# C100: conservation of etendue
-/

namespace Optika
open V3 Filter Topology

/-! ## Specification -/

/-- A curve of rays with the velocities of position and direction; the index is the same along the curve. -/
structure Sweep (f : ℝ → Ray) (p d : V3) : Prop where
  position : Moving (fun t => (f t).position) p
  direction : Moving (fun t => (f t).direction) d
  unit : ∀ᶠ t in 𝓝 0, (f t).direction.dot (f t).direction = 1
  index : ∀ᶠ t in 𝓝 0, (f t).index = (f 0).index
  pos : 0 < (f 0).index

/-- The element of etendue that two curves of rays through a common ray span, given the index and the
velocities of positions and directions. -/
def etendue (n : ℝ) (p1 d1 p2 d2 : V3) : ℝ := n * (p1.dot d2 - p2.dot d1)

/-- A sag without edges: along two curves on the surface through a common point, the normal is perpendicular to
both and turns symmetrically. -/
def SmoothNormal (sag : Sag) : Prop :=
  ∀ (q1 q2 n1 n2 : ℝ → V3) (v1 v2 : V3), Moving q1 v1 → Moving q2 v2 → q1 0 = q2 0 →
    (∀ᶠ t in 𝓝 0, OnGraph sag.height (q1 t)) → (∀ᶠ t in 𝓝 0, OnGraph sag.height (q2 t)) →
    (∀ᶠ t in 𝓝 0, sag.normal (q1 t) = some (n1 t)) → (∀ᶠ t in 𝓝 0, sag.normal (q2 t) = some (n2 t)) →
    (∀ᶠ t in 𝓝 0, (n1 t).dot (n1 t) = 1) ∧ (∀ᶠ t in 𝓝 0, (n2 t).dot (n2 t) = 1) ∧
      (n1 0).dot v1 = 0 ∧ (n2 0).dot v2 = 0 ∧
      ∃ w1 w2, Moving n1 w1 ∧ Moving n2 w2 ∧ w1.dot v2 = w2.dot v1

/-- How a curve of rays passes a surface: each ray runs along its line to the surface, and the surface is struck
at an angle. -/
structure Passes (s : Surface) (f g : ℝ → Ray) : Prop where
  traced : ∀ᶠ t in 𝓝 0, s.propagate (f t) = some (g t)
  line : ∀ᶠ t in 𝓝 0, ∃ c : ℝ, (g t).position = (f t).position + c • (f t).direction
  lands : ∀ᶠ t in 𝓝 0, s.Contains (g t).position
  aslant : ∀ n, s.sag.normal (s.frame.ipoint (g 0).position) = some n →
    (s.frame.ivec (f 0).direction).dot n ≠ 0

/-- A curve of rays that passes a sequence of surfaces without rulings, smoothly. -/
inductive Swept : List Surface → (ℝ → Ray) → (ℝ → Ray) → Prop
  | nil (f : ℝ → Ray) : Swept [] f f
  | cons {s : Surface} {ss : List Surface} {f g h : ℝ → Ray} {p d : V3} (passes : Passes s f g)
      (behind : Sweep g p d) (rest : Swept ss g h) : Swept (s :: ss) f h

/-! ## Calculus of moving points -/

theorem Moving.add {p q : ℝ → V3} {v w : V3} (hp : Moving p v) (hq : Moving q w) :
    Moving (fun t => p t + q t) (v + w) :=
  ⟨hp.x.add hq.x, hp.y.add hq.y, hp.z.add hq.z⟩

theorem Moving.sub {p q : ℝ → V3} {v w : V3} (hp : Moving p v) (hq : Moving q w) :
    Moving (fun t => p t - q t) (v - w) :=
  ⟨hp.x.sub hq.x, hp.y.sub hq.y, hp.z.sub hq.z⟩

theorem Moving.const_smul {p : ℝ → V3} {v : V3} (hp : Moving p v) (c : ℝ) :
    Moving (fun t => c • p t) (c • v) :=
  ⟨hp.x.const_mul c, hp.y.const_mul c, hp.z.const_mul c⟩

theorem Moving.smul {p : ℝ → V3} {v : V3} {c : ℝ → ℝ} {c' : ℝ} (hc : HasDerivAt c c' 0) (hp : Moving p v) :
    Moving (fun t => c t • p t) (c' • p 0 + c 0 • v) :=
  ⟨hc.mul hp.x, hc.mul hp.y, hc.mul hp.z⟩

theorem Moving.dot {p q : ℝ → V3} {v w : V3} (hp : Moving p v) (hq : Moving q w) :
    HasDerivAt (fun t => (p t).dot (q t)) (v.dot (q 0) + (p 0).dot w) 0 := by
  refine (((hp.x.mul hq.x).add (hp.y.mul hq.y)).add (hp.z.mul hq.z)).congr_deriv ?_
  simp only [V3.dot]; ring

theorem Moving.congr {p q : ℝ → V3} {v : V3} (hp : Moving p v) (h : ∀ᶠ t in 𝓝 0, q t = p t) : Moving q v :=
  ⟨hp.x.congr_of_eventuallyEq (h.mono fun t e => by simp only [e]),
    hp.y.congr_of_eventuallyEq (h.mono fun t e => by simp only [e]),
    hp.z.congr_of_eventuallyEq (h.mono fun t e => by simp only [e])⟩

theorem Moving.unique {p : ℝ → V3} {v w : V3} (h : Moving p v) (h' : Moving p w) : v = w :=
  V3.ext (h.x.unique h'.x) (h.y.unique h'.y) (h.z.unique h'.z)

theorem Moving.ivec (g : Rigid) {p : ℝ → V3} {v : V3} (hp : Moving p v) :
    Moving (fun t => g.ivec (p t)) (g.ivec v) := by
  constructor
  · exact (((hp.x.const_mul g.rot.r1.x).add (hp.y.const_mul g.rot.r2.x)).add (hp.z.const_mul g.rot.r3.x))
  · exact (((hp.x.const_mul g.rot.r1.y).add (hp.y.const_mul g.rot.r2.y)).add (hp.z.const_mul g.rot.r3.y))
  · exact (((hp.x.const_mul g.rot.r1.z).add (hp.y.const_mul g.rot.r2.z)).add (hp.z.const_mul g.rot.r3.z))

theorem Moving.unit_perp {p : ℝ → V3} {v : V3} (hp : Moving p v) (h : ∀ᶠ t in 𝓝 0, (p t).dot (p t) = 1) :
    (p 0).dot v = 0 := by
  have h1 := hp.dot hp
  have h2 : HasDerivAt (fun t => (p t).dot (p t)) 0 0 := (hasDerivAt_const (0 : ℝ) (1 : ℝ)).congr_of_eventuallyEq h
  have := h1.unique h2
  simp only [V3.dot] at this ⊢
  linarith

theorem Moving.tendsto_dot {p q : ℝ → V3} {v w : V3} (hp : Moving p v) (hq : Moving q w) :
    Tendsto (fun t => (p t).dot (q t)) (𝓝 0) (𝓝 ((p 0).dot (q 0))) :=
  (hp.dot hq).continuousAt.tendsto

/-! ## Proofs -/

/-- Running along the rays keeps the etendue. -/
theorem etendue_run {f1 f2 : ℝ → Ray} {g1 g2 : ℝ → Ray} {p1 d1 p2 d2 P1 P2 : V3}
    (h1 : Sweep f1 p1 d1) (h2 : Sweep f2 p2 d2) (h0 : f1 0 = f2 0)
    (m1 : Moving (fun t => (g1 t).position) P1) (m2 : Moving (fun t => (g2 t).position) P2)
    (hg : g1 0 = g2 0)
    (l1 : ∀ᶠ t in 𝓝 0, ∃ c : ℝ, (g1 t).position = (f1 t).position + c • (f1 t).direction)
    (l2 : ∀ᶠ t in 𝓝 0, ∃ c : ℝ, (g2 t).position = (f2 t).position + c • (f2 t).direction) :
    P1.dot d2 - P2.dot d1 = p1.dot d2 - p2.dot d1 := by
  have key : ∀ {f g : ℝ → Ray} {p d P : V3}, Sweep f p d → Moving (fun t => (g t).position) P →
      (∀ᶠ t in 𝓝 0, ∃ c : ℝ, (g t).position = (f t).position + c • (f t).direction) →
      ∃ c' : ℝ, P = p + (c' • (f 0).direction
        + (((g 0).position - (f 0).position).dot (f 0).direction) • d) := by
    intro f g p d P hs hm hl
    have hc := (hm.sub hs.position).dot hs.direction
    have hm' := hs.position.add (Moving.smul hc hs.direction)
    have : ∀ᶠ t in 𝓝 0, (g t).position = (f t).position
        + (((g t).position - (f t).position).dot (f t).direction) • (f t).direction := by
      filter_upwards [hl, hs.unit] with t ⟨c, hc⟩ hu
      have e : ((g t).position - (f t).position).dot (f t).direction = c := by
        rw [hc]
        have : (f t).position + c • (f t).direction - (f t).position = c • (f t).direction := by vring
        rw [this, smul_dot, hu, mul_one]
      rw [e, ← hc]
    exact ⟨_, hm.unique (hm'.congr this)⟩
  obtain ⟨c1, e1⟩ := key h1 m1 l1
  obtain ⟨c2, e2⟩ := key h2 m2 l2
  have u1 := h1.direction.unit_perp h1.unit
  have u2 := h2.direction.unit_perp h2.unit
  simp only [h0, hg] at e1 e2 u1 u2
  rw [e1, e2]
  simp only [V3.dot, add_x, add_y, add_z, smul_x, smul_y, smul_z] at u1 u2 ⊢
  linear_combination c1 * u2 - c2 * u1

/-- Refraction and reflection keep the etendue. -/
theorem etendue_bend {s : Surface} (plain : s.rulings = none) (hs : SmoothNormal s.sag)
    {f1 f2 g1 g2 : ℝ → Ray} {p1 d1 p2 d2 P1 D1 P2 D2 : V3}
    (h1 : Sweep f1 p1 d1) (h2 : Sweep f2 p2 d2) (h0 : f1 0 = f2 0)
    (k1 : Sweep g1 P1 D1) (k2 : Sweep g2 P2 D2) (t1 : Passes s f1 g1) (t2 : Passes s f2 g2) :
    (g1 0).index * (P1.dot D2 - P2.dot D1) = (f1 0).index * (P1.dot d2 - P2.dot d1) := by
  have hg : g1 0 = g2 0 := by
    have e1 := t1.traced.self_of_nhds
    have e2 := t2.traced.self_of_nhds
    rw [h0, e2, Option.some.injEq] at e1
    exact e1.symm
  -- the normals along the curves
  have hN : ∀ {f g : ℝ → Ray}, Passes s f g → ∃ n : ℝ → V3,
      ∀ᶠ t in 𝓝 0, s.sag.normal (s.frame.ipoint (g t).position) = some (n t) := by
    intro f g hp
    refine ⟨fun t => (s.sag.normal (s.frame.ipoint (g t).position)).getD 0, ?_⟩
    filter_upwards [hp.traced] with t ht
    obtain ⟨u, hu, -⟩ := surface_plain ht plain
    rw [hu]; rfl
  obtain ⟨n1, hn1⟩ := hN t1
  obtain ⟨n2, hn2⟩ := hN t2
  have hn0 : n1 0 = n2 0 := by
    have e1 := hn1.self_of_nhds
    have e2 := hn2.self_of_nhds
    rw [hg, e2, Option.some.injEq] at e1
    exact e1.symm
  obtain ⟨un1, un2, tan1, tan2, w1, w2, mn1, mn2, hsym⟩ := hs (fun t => s.frame.ipoint (g1 t).position)
    (fun t => s.frame.ipoint (g2 t).position) n1 n2 _ _ (k1.position.ipoint s.frame)
    (k2.position.ipoint s.frame) (by simp only [hg]) t1.lands t2.lands hn1 hn2
  -- the vector that is bent along the normal
  have key : ∀ {f g : ℝ → Ray} {p d P D w : V3} {n : ℝ → V3}, Sweep f p d → Sweep g P D → Passes s f g →
      (∀ᶠ t in 𝓝 0, s.sag.normal (s.frame.ipoint (g t).position) = some (n t)) →
      (∀ᶠ t in 𝓝 0, (n t).dot (n t) = 1) → Moving n w →
      ∃ c' : ℝ, s.frame.ivec ((g 0).index • D - (f 0).index • d) = c' • n 0
        + ((s.frame.ivec ((g 0).index • (g 0).direction - (f 0).index • (f 0).direction)).dot (n 0)) • w := by
    intro f g p d P D w n hf hk hp hn hun mn
    have mW := ((hk.direction.const_smul (g 0).index).sub (hf.direction.const_smul (f 0).index)).ivec s.frame
    have hne : ∀ᶠ t in 𝓝 0, (s.frame.ivec (f t).direction).dot (n t) ≠ 0 :=
      ((hf.direction.ivec s.frame).tendsto_dot mn).eventually_ne (hp.aslant _ hn.self_of_nhds)
    have : ∀ᶠ t in 𝓝 0, s.frame.ivec ((g 0).index • (g t).direction - (f 0).index • (f t).direction)
        = ((s.frame.ivec ((g 0).index • (g t).direction - (f 0).index • (f t).direction)).dot (n t)) • n t := by
      filter_upwards [hp.traced, hn, hun, hne, hf.index, hk.index] with t a1 a2 a3 a4 a5 a6
      obtain ⟨hm, -⟩ := C01_surface a1 plain a2 a3 (by rw [a5]; exact hf.pos) (by rw [a6]; exact hk.pos) a4
      have := hm.tangential
      rw [a5, a6] at this
      have e : s.frame.ivec ((g 0).index • (g t).direction - (f 0).index • (f t).direction)
          = (g 0).index • s.frame.ivec (g t).direction - (f 0).index • s.frame.ivec (f t).direction := by
        simp only [Rigid.ivec, M3.mulVec_sub, M3.mulVec_smul]
      rw [e]
      have ex := congrArg V3.x this
      have ey := congrArg V3.y this
      have ez := congrArg V3.z this
      simp only [tang, V3.dot, add_x, add_y, add_z, sub_x, sub_y, sub_z, smul_x, smul_y, smul_z, zero_x,
        zero_y, zero_z] at ex ey ez
      apply V3.ext <;> simp only [V3.dot, sub_x, sub_y, sub_z, smul_x, smul_y, smul_z]
      · linear_combination ex
      · linear_combination ey
      · linear_combination ez
    have := mW.unique ((Moving.smul (mW.dot mn) mn).congr this)
    exact ⟨_, this⟩
  obtain ⟨c1, e1⟩ := key h1 k1 t1 hn1 un1 mn1
  obtain ⟨c2, e2⟩ := key h2 k2 t2 hn2 un2 mn2
  have b1 := congrArg (fun v => v.dot (s.frame.ivec P2)) e1
  have b2 := congrArg (fun v => v.dot (s.frame.ivec P1)) e2
  rw [hn0] at tan1
  have tan12 : (n2 0).dot (s.frame.ivec P1) = 0 := tan1
  simp only [Rigid.ivec_dot_ivec, add_dot, smul_dot, hn0, tan12, tan2, h0, hg] at b1 b2
  rw [hsym] at b1
  simp only [hg, h0]
  simp only [V3.dot, sub_x, sub_y, sub_z, smul_x, smul_y, smul_z] at b1 b2 ⊢
  linear_combination b2 - b1

/-- **C100**, one surface keeps the etendue. -/
theorem C100_surface {s : Surface} (plain : s.rulings = none) (hs : SmoothNormal s.sag)
    {f1 f2 g1 g2 : ℝ → Ray} {p1 d1 p2 d2 P1 D1 P2 D2 : V3}
    (h1 : Sweep f1 p1 d1) (h2 : Sweep f2 p2 d2) (h0 : f1 0 = f2 0)
    (k1 : Sweep g1 P1 D1) (k2 : Sweep g2 P2 D2) (t1 : Passes s f1 g1) (t2 : Passes s f2 g2) :
    etendue (g1 0).index P1 D1 P2 D2 = etendue (f1 0).index p1 d1 p2 d2 := by
  have hg : g1 0 = g2 0 := by
    have e1 := t1.traced.self_of_nhds
    have e2 := t2.traced.self_of_nhds
    rw [h0, e2, Option.some.injEq] at e1
    exact e1.symm
  unfold etendue
  rw [etendue_bend plain hs h1 h2 h0 k1 k2 t1 t2,
    etendue_run h1 h2 h0 k1.position k2.position hg t1.line t2.line]

/-- **C100**, a sequence of surfaces keeps the etendue. -/
theorem C100_system {ss : List Surface} (hs : ∀ s ∈ ss, s.rulings = none ∧ SmoothNormal s.sag)
    {f1 f2 g1 g2 : ℝ → Ray} (t1 : Swept ss f1 g1) (t2 : Swept ss f2 g2) (h0 : f1 0 = f2 0)
    {p1 d1 p2 d2 P1 D1 P2 D2 : V3} (h1 : Sweep f1 p1 d1) (h2 : Sweep f2 p2 d2)
    (k1 : Sweep g1 P1 D1) (k2 : Sweep g2 P2 D2) :
    etendue (g1 0).index P1 D1 P2 D2 = etendue (f1 0).index p1 d1 p2 d2 := by
  induction t1 generalizing f2 p1 d1 p2 d2 with
  | nil f =>
    cases t2
    rw [k1.position.unique h1.position, k1.direction.unique h1.direction,
      k2.position.unique h2.position, k2.direction.unique h2.direction]
  | cons q1 b1 r1 ih =>
    cases t2 with
    | cons q2 b2 r2 =>
      obtain ⟨pl, sm⟩ := hs _ (List.mem_cons_self ..)
      have hg := q1.traced.self_of_nhds
      rw [h0, q2.traced.self_of_nhds, Option.some.injEq] at hg
      rw [ih (fun s h => hs s (List.mem_cons_of_mem _ h)) r2 hg.symm b1 b2 k1]
      exact C100_surface pl sm h1 h2 h0 b1 b2 q1 q2

/-! ## The sags -/

/-- The normal of a sag is along the field of vectors `G`, perpendicular to the surface, whose derivative in a
direction is given by `M`. -/
structure HasGradient (sag : Sag) (G : V3 → V3) (M : V3 → V3 → V3) : Prop where
  along : ∀ q n, OnGraph sag.height q → sag.normal q = some n → n.dot n = 1 ∧ ∃ κ : ℝ, 0 < κ ∧ n = κ • G q
  turns : ∀ (q : ℝ → V3) v n, Moving q v → (∀ᶠ t in 𝓝 0, OnGraph sag.height (q t)) →
    sag.normal (q 0) = some n → Moving (fun t => G (q t)) (M (q 0) v) ∧ (G (q 0)).dot v = 0

/-- How a normal along a field of vectors turns. -/
theorem normal_of_gradient {sag : Sag} {G : V3 → V3} {M : V3 → V3 → V3} (hg : HasGradient sag G M)
    (q n : ℝ → V3) (v : V3) (hq : Moving q v) (hon : ∀ᶠ t in 𝓝 0, OnGraph sag.height (q t))
    (hnn : ∀ᶠ t in 𝓝 0, sag.normal (q t) = some (n t)) :
    (∀ᶠ t in 𝓝 0, (n t).dot (n t) = 1) ∧ (n 0).dot v = 0 ∧ (G (q 0)).dot v = 0 ∧
      ∃ c' : ℝ, Moving n (c' • G (q 0) + (1 / Real.sqrt ((G (q 0)).dot (G (q 0)))) • M (q 0) v) := by
  have hn := hg.along
  obtain ⟨mG, hG⟩ := hg.turns q v (n 0) hq hon hnn.self_of_nhds
  obtain ⟨h1, κ, hκ, he⟩ := hn _ _ hon.self_of_nhds hnn.self_of_nhds
  have hpos : 0 < (G (q 0)).dot (G (q 0)) := by
    rw [he] at h1
    rcases lt_or_ge 0 ((G (q 0)).dot (G (q 0))) with h | h
    · exact h
    · simp only [smul_dot, dot_smul] at h1
      nlinarith [mul_pos hκ hκ]
  refine ⟨?_, by rw [he, smul_dot, hG, mul_zero], hG, ?_⟩
  · filter_upwards [hon, hnn] with t a b using (hn _ _ a b).1
  have hs : HasDerivAt (fun t => 1 / Real.sqrt ((G (q t)).dot (G (q t)))) _ 0 :=
    (((mG.dot mG).sqrt hpos.ne').inv (Real.sqrt_pos.2 hpos).ne').congr_of_eventuallyEq
      (Eventually.of_forall fun t => by simp [one_div])
  refine ⟨_, (Moving.smul hs mG).congr ?_⟩
  filter_upwards [hon, hnn] with t a b
  obtain ⟨h1, κ, hκ, he⟩ := hn _ _ a b
  rw [he]
  rw [he] at h1
  simp only [smul_dot, dot_smul] at h1
  have : (G (q t)).dot (G (q t)) = (1 / κ) ^ 2 := by field_simp; linarith
  rw [this, Real.sqrt_sq (by positivity), one_div_one_div]

theorem smooth_of_gradient {sag : Sag} {G : V3 → V3} {M : V3 → V3 → V3} (hg : HasGradient sag G M)
    (sym : ∀ q v w, (M q v).dot w = (M q w).dot v) : SmoothNormal sag := by
  have key := normal_of_gradient hg
  intro q1 q2 n1 n2 v1 v2 m1 m2 h0 o1 o2 e1 e2
  obtain ⟨a1, b1, g1, c1, w1⟩ := key q1 n1 v1 m1 o1 e1
  obtain ⟨a2, b2, g2, c2, w2⟩ := key q2 n2 v2 m2 o2 e2
  refine ⟨a1, a2, b1, b2, _, _, w1, w2, ?_⟩
  rw [h0] at g1
  simp only [add_dot, smul_dot, h0, g1, g2, sym (q2 0) v1 v2]
  ring

/-- A quadratic equation that holds along a curve close to its start, differentiated. -/
theorem quadric_tangent_near {q : ℝ → V3} {v : V3} {e a b : ℝ} (hq : Moving q v)
    (h : ∀ᶠ t in 𝓝 0, (q t).x ^ 2 + e * (q t).y ^ 2 + a * (q t).z ^ 2 = b * (q t).z) :
    2 * (q 0).x * v.x + 2 * e * (q 0).y * v.y + 2 * a * (q 0).z * v.z = b * v.z := by
  have h1 := ((hq.x.pow 2).add ((hq.y.pow 2).const_mul e)).add ((hq.z.pow 2).const_mul a)
  have h2 := (hq.z.const_mul b).congr_of_eventuallyEq h
  have := h1.unique h2
  simp at this
  linarith

/-- **C100**, plane surfaces. -/
theorem C100_flat : SmoothNormal flatSag := by
  refine smooth_of_gradient (G := fun _ => ⟨0, 0, -1⟩) (M := fun _ _ => 0) ⟨?_, ?_⟩ ?_
  · intro q n _ h
    have h : flatNormal q = some n := h
    unfold flatNormal at h
    rw [Option.some.injEq] at h
    subst h
    exact ⟨by simp [V3.dot], 1, one_pos, by vring⟩
  · intro q v n hq hon _
    refine ⟨Moving.const _, ?_⟩
    have : ∀ᶠ t in 𝓝 0, (q t).z = 0 := by
      filter_upwards [hon] with t ht
      have : flatHeight (q t) = some (q t).z := ht
      unfold flatHeight at this
      rw [Option.some.injEq] at this
      exact this.symm
    have h2 := (hasDerivAt_const (0 : ℝ) (0 : ℝ)).congr_of_eventuallyEq this
    simp [V3.dot, hq.z.unique h2]
  · intro q v w; simp [V3.dot]

theorem sphere_gradient (R : ℝ) : HasGradient (sphereSag R) (fun q => (1 / R) • (q - ⟨0, 0, R⟩))
    (fun _ v => (1 / R) • v) := by
  refine ⟨?_, ?_⟩
  · intro q n ho h
    obtain ⟨-, h1, h2, -⟩ := sphereNormal_eq ho h
    exact ⟨h2, 1, one_pos, by rw [h1]; vring⟩
  · intro q v n hq hon _
    refine ⟨?_, ?_⟩
    · have := (hq.sub (Moving.const ⟨0, 0, R⟩)).const_smul (1 / R)
      rwa [show v - 0 = v by vring] at this
    · have := quadric_tangent_near (e := 1) (a := 1) (b := 2 * R) hq (by
        filter_upwards [hon] with t ht
        obtain ⟨-, h, -⟩ := onGraph_sphere.1 ht
        linarith)
      simp only [dot, smul_x, smul_y, smul_z, sub_x, sub_y, sub_z]
      linear_combination 1 / R / 2 * this

/-- **C100**, spheres. -/
theorem C100_sphere (R : ℝ) : SmoothNormal (sphereSag R) := by
  refine smooth_of_gradient (sphere_gradient R) ?_
  · intro q v w
    simp only [smul_dot, dot_comm v w]

/-- The normal of a conic surface points against the axis. -/
theorem conicNormal_z {R k : ℝ} {p n : V3} (hn : conicNormal R k p = some n) : n.z < 0 := by
  unfold conicNormal at hn
  simp only [Option.bind_eq_bind, Option.bind_eq_some_iff, div?_eq_some, sqrt?_eq_some,
    Option.pure_def, Option.some.injEq] at hn
  obtain ⟨c, -, g, -, dx, -, dy, -, a, -, b, -, d, ⟨hl, rfl⟩, rfl⟩ := hn
  have := lt_of_le_of_ne (Real.sqrt_nonneg _) (Ne.symm hl)
  exact div_neg_of_neg_of_pos (by norm_num) this

theorem conic_gradient (R k : ℝ) : HasGradient (conicSag R k) (fun q => (1 / R) • ⟨q.x, q.y, (1 + k) * q.z - R⟩)
    (fun _ v => (1 / R) • ⟨v.x, v.y, (1 + k) * v.z⟩) := by
  refine ⟨?_, ?_⟩
  · intro q n ho h
    obtain ⟨hR, -, hz, hpos, κ, hκ, he, h1⟩ := conicNormal_eq ho h
    have hz := conicNormal_z h
    refine ⟨h1, κ * R, ?_, ?_⟩
    · rw [he] at hz
      simp only [smul_z] at hz
      have h2 : κ * ((1 + k) * q.z - R) * (R * (R - (1 + k) * q.z)) < 0 := mul_neg_of_neg_of_pos hz hpos
      have h3 : 0 < (R - (1 + k) * q.z) ^ 2 := by
        have : R - (1 + k) * q.z ≠ 0 := by rintro h; rw [h, mul_zero] at hpos; exact lt_irrefl _ hpos
        positivity
      by_contra hc
      push Not at hc
      nlinarith
    · rw [he]; ext <;> vsimp <;> field_simp
  · intro q v n hq hon _
    refine ⟨?_, ?_⟩
    · refine Moving.const_smul (p := fun t => (⟨(q t).x, (q t).y, (1 + k) * (q t).z - R⟩ : V3))
        (v := ⟨v.x, v.y, (1 + k) * v.z⟩) ⟨hq.x, hq.y, ?_⟩ _
      exact (hq.z.const_mul (1 + k)).sub_const R
    · have := quadric_tangent_near (e := 1) (a := 1 + k) (b := 2 * R) hq (by
        filter_upwards [hon] with t ht
        obtain ⟨hR, h, -⟩ := onGraph_conic.1 ht
        field_simp at h
        linarith)
      simp only [dot, smul_x, smul_y, smul_z]
      linear_combination 1 / R / 2 * this

/-- **C100**, conic surfaces. -/
theorem C100_conic (R k : ℝ) : SmoothNormal (conicSag R k) := by
  refine smooth_of_gradient (conic_gradient R k) ?_
  · intro q v w
    simp only [dot, smul_x, smul_y, smul_z]
    ring

theorem parabola_gradient (f : ℝ) : HasGradient (parabolaSag f) (fun q => (1 / (2 * f)) • ⟨q.x, q.y, -(2 * f)⟩)
    (fun _ v => (1 / (2 * f)) • ⟨v.x, v.y, 0⟩) := by
  refine ⟨?_, ?_⟩
  · intro q n ho h
    refine ⟨(C97_parabola_normal ho h).1, ?_⟩
    have h : parabolaNormal f q = some n := h
    unfold parabolaNormal at h
    simp only [Option.bind_eq_bind, Option.bind_eq_some_iff, div?_eq_some, sqrt?_eq_some,
      Option.pure_def, Option.some.injEq] at h
    obtain ⟨a, ⟨h0, rfl⟩, b, ⟨-, rfl⟩, s, ⟨-, rfl⟩, c, ⟨-, rfl⟩, d, ⟨-, rfl⟩, e, ⟨-, rfl⟩, rfl⟩ := h
    have : 0 < Real.sqrt ((q.x / (2 * f)) ^ 2 + (q.y / (2 * f)) ^ 2 + 1) := Real.sqrt_pos.2 (by positivity)
    refine ⟨1 / Real.sqrt ((q.x / (2 * f)) ^ 2 + (q.y / (2 * f)) ^ 2 + 1), by positivity, ?_⟩
    generalize Real.sqrt ((q.x / (2 * f)) ^ 2 + (q.y / (2 * f)) ^ 2 + 1) = s at *
    have h1 : f ≠ 0 := by rintro rfl; simp at h0
    ext <;> vsimp <;> field_simp
  · intro q v n hq hon _
    refine ⟨?_, ?_⟩
    · exact Moving.const_smul (p := fun t => (⟨(q t).x, (q t).y, -(2 * f)⟩ : V3)) (v := ⟨v.x, v.y, 0⟩)
        ⟨hq.x, hq.y, hasDerivAt_const _ _⟩ _
    · have := quadric_tangent_near (e := 1) (a := 0) (b := 4 * f) hq (by
        filter_upwards [hon] with t ht
        obtain ⟨-, h⟩ := onGraph_parabola.1 ht
        linarith)
      simp only [dot, smul_x, smul_y, smul_z]
      linear_combination 1 / (2 * f) / 2 * this

/-- **C100**, paraboloids. -/
theorem C100_parabola (f : ℝ) : SmoothNormal (parabolaSag f) := by
  refine smooth_of_gradient (parabola_gradient f) ?_
  · intro q v w
    simp only [dot, smul_x, smul_y, smul_z]
    ring

theorem cylinder_gradient (R : ℝ) : HasGradient (cylinderSag R) (fun q => (1 / R) • ⟨q.x, 0, q.z - R⟩)
    (fun _ v => (1 / R) • ⟨v.x, 0, v.z⟩) := by
  refine ⟨?_, ?_⟩
  · intro q n ho h
    refine ⟨(C97_cylinder_normal ho h).1, 1, one_pos, ?_⟩
    obtain ⟨hR, hg, hle⟩ := onGraph_cylinder.1 ho
    have h : cylinderNormal R q = some n := h
    unfold cylinderNormal at h
    simp only [Option.bind_eq_bind, Option.bind_eq_some_iff, div?_eq_some, sqrt?_eq_some,
      Option.pure_def, Option.some.injEq] at h
    obtain ⟨a, ⟨-, rfl⟩, s, ⟨-, rfl⟩, rfl⟩ := h
    have : Real.sqrt (1 - (q.x / R) ^ 2) = (R - q.z) / R := by
      rw [show 1 - (q.x / R) ^ 2 = ((R - q.z) / R) ^ 2 by field_simp; linarith, Real.sqrt_sq]
      have : 0 ≤ R * (R - q.z) := by nlinarith
      have h2 : (R - q.z) / R = R * (R - q.z) / R ^ 2 := by field_simp
      rw [h2]; positivity
    rw [this]
    ext <;> vsimp <;> field_simp
    all_goals try ring
  · intro q v n hq hon _
    refine ⟨?_, ?_⟩
    · exact Moving.const_smul (p := fun t => (⟨(q t).x, 0, (q t).z - R⟩ : V3)) (v := ⟨v.x, 0, v.z⟩)
        ⟨hq.x, hasDerivAt_const _ _, hq.z.sub_const R⟩ _
    · have := quadric_tangent_near (e := 0) (a := 1) (b := 2 * R) hq (by
        filter_upwards [hon] with t ht
        obtain ⟨-, h, -⟩ := onGraph_cylinder.1 ht
        linarith)
      simp only [dot, smul_x, smul_y, smul_z]
      linear_combination 1 / R / 2 * this

/-- **C100**, cylinders. -/
theorem C100_cylinder (R : ℝ) : SmoothNormal (cylinderSag R) := by
  refine smooth_of_gradient (cylinder_gradient R) ?_
  · intro q v w
    simp only [dot, smul_x, smul_y, smul_z]
    ring

/-- The gradient of a torus in `y`. -/
noncomputable def torusSlope (R r : ℝ) (y : ℝ) : ℝ :=
  (r - 1 / R * y ^ 2 / (1 + Real.sqrt (1 - (1 / R) ^ 2 * y ^ 2)))
    * (1 / R * y / Real.sqrt (1 - (1 / R) ^ 2 * y ^ 2))

theorem torus_gradient (R r : ℝ) (S : Sag) (hh : S.height = torusHeight R r) (hn : S.normal = torusNormal R r) :
    HasGradient S (fun q => ⟨q.x, torusSlope R r q.y, -(r - q.z)⟩)
      (fun q v => ⟨v.x, deriv (torusSlope R r) q.y * v.y, v.z⟩) := by
  set g : ℝ → ℝ := fun y => Real.sqrt (1 - (1 / R) ^ 2 * y ^ 2) with hgd
  set zy : ℝ → ℝ := fun y => 1 / R * y ^ 2 / (1 + g y) with hzy
  set h : ℝ → ℝ := torusSlope R r with hhd'
  have hhd : h = fun y => (r - zy y) * (1 / R * y / g y) := rfl
  -- the section in the plane of the minor circle
  have dg : ∀ y, 0 < 1 - (1 / R) ^ 2 * y ^ 2 → HasDerivAt g (-((1 / R) ^ 2 * y / g y)) y := by
    intro y hy
    have := (((hasDerivAt_id y).pow 2).const_mul ((1 / R) ^ 2)).const_sub 1
    refine (this.sqrt hy.ne').congr_deriv ?_
    have : 0 < g y := Real.sqrt_pos.2 hy
    simp only [Pi.pow_apply, id]
    change _ = -((1 / R) ^ 2 * y / g y)
    change _ / (2 * g y) = _
    field_simp
    simp
  have dzy : ∀ y, 0 < 1 - (1 / R) ^ 2 * y ^ 2 → HasDerivAt zy (1 / R * y / g y) y := by
    intro y hy
    have hg : 0 < g y := Real.sqrt_pos.2 hy
    have hss : g y ^ 2 = 1 - (1 / R) ^ 2 * y ^ 2 := Real.sq_sqrt hy.le
    refine ((((hasDerivAt_id y).pow 2).const_mul (1 / R)).div ((dg y hy).const_add 1) (by positivity)).congr_deriv ?_
    simp only [id]
    generalize g y = G at *
    generalize 1 / R = c at *
    field_simp
    have : c ^ 2 * y ^ 2 = 1 - G ^ 2 := by linarith
    simp only [Pi.pow_apply, id]
    ring_nf
    ring_nf at this
    linear_combination y * c * this
  have dh : ∀ y, 0 < 1 - (1 / R) ^ 2 * y ^ 2 → ∃ h', HasDerivAt h h' y := by
    intro y hy
    have hg : 0 < g y := Real.sqrt_pos.2 hy
    exact ⟨_, ((dzy y hy).const_sub r).mul (((hasDerivAt_id y).const_mul (1 / R)).div (dg y hy) hg.ne')⟩
  -- what the code asks of a point
  have spec : ∀ q n, OnGraph S.height q → S.normal q = some n →
      0 < 1 - (1 / R) ^ 2 * q.y ^ 2 ∧ 0 < r - q.z ∧ (r - q.z) ^ 2 + q.x ^ 2 = (r - zy q.y) ^ 2 ∧
      n.dot n = 1 ∧ ∃ κ : ℝ, 0 < κ ∧ n = κ • ⟨q.x, h q.y, -(r - q.z)⟩ := by
    intro q n ho hq
    rw [hn] at hq
    unfold OnGraph at ho
    rw [hh] at ho
    unfold torusHeight at ho
    unfold torusNormal at hq
    simp only [Option.bind_eq_bind, Option.bind_eq_some_iff, div?_eq_some, sqrt?_eq_some,
      Option.pure_def, Option.some.injEq] at hq ho
    obtain ⟨_, ⟨hR, rfl⟩, _, ⟨h0, rfl⟩, _, ⟨h1, rfl⟩, _, ⟨h2, rfl⟩, h3⟩ := ho
    obtain ⟨_, ⟨-, rfl⟩, _, ⟨-, rfl⟩, _, ⟨-, rfl⟩, _, ⟨-, rfl⟩, _, ⟨k0, rfl⟩, _, ⟨k1, rfl⟩, _, ⟨-, rfl⟩, _,
      ⟨hl, rfl⟩, _, ⟨-, rfl⟩, _, ⟨-, rfl⟩, rfl⟩ := hq
    have hf := lt_of_le_of_ne (Real.sqrt_nonneg _) (Ne.symm k0)
    have hg := lt_of_le_of_ne (Real.sqrt_nonneg _) (Ne.symm k1)
    have hll := lt_of_le_of_ne (Real.sqrt_nonneg _) (Ne.symm hl)
    have e : Real.sqrt ((r - zy q.y) ^ 2 - q.x ^ 2) = r - q.z := by
      simp only [hzy, hgd]; linarith
    have ep : 0 < r - q.z := by rw [← e]; exact hf
    refine ⟨Real.sqrt_pos.1 hg, ep, ?_, ?_, ?_⟩
    · rw [← e, Real.sq_sqrt h2]; ring
    · have := V3.len_sq ⟨q.x / (r - q.z), (r - zy q.y) * (1 / R * q.y / g q.y) / (r - q.z), -1⟩
      simp only [hzy, hgd] at e this
      rw [e] at hl ⊢
      generalize V3.len ⟨q.x / (r - q.z), _, -1⟩ = l at *
      simp only [V3.dot] at this ⊢
      field_simp
      field_simp at this
      linarith
    · simp only [hzy, hgd, hhd] at e ⊢
      rw [e] at hl hll ⊢
      refine ⟨1 / (V3.len ⟨q.x / (r - q.z), (r - zy q.y) * (1 / R * q.y / g q.y) / (r - q.z), -1⟩ * (r - q.z)), ?_, ?_⟩
      · exact one_div_pos.2 (mul_pos hll ep)
      · simp only [hzy, hgd]
        generalize V3.len ⟨q.x / (r - q.z), _, -1⟩ = l at *
        have := ep.ne'
        generalize (r - q.z) = f at *
        ext <;> vsimp <;> field_simp
  refine ⟨fun q n a b => (spec q n a b).2.2.2, ?_⟩
  · intro q v n hq hon hnn
    obtain ⟨hy, hz, -, -, -⟩ := spec _ _ hon.self_of_nhds hnn
    obtain ⟨h', hh'⟩ := dh _ hy
    refine ⟨⟨hq.x, ?_, ?_⟩, ?_⟩
    · simp only [hh'.deriv]
      exact hh'.comp (0 : ℝ) hq.y
    · exact (hq.z.const_sub r).neg.congr_deriv (by simp)
    · have hev : ∀ᶠ t in 𝓝 0, (r - (q t).z) ^ 2 + (q t).x ^ 2 = (r - zy (q t).y) ^ 2 := by
        filter_upwards [hon] with t ho
        unfold OnGraph at ho
        rw [hh] at ho
        unfold torusHeight at ho
        simp only [Option.bind_eq_bind, Option.bind_eq_some_iff, div?_eq_some, sqrt?_eq_some,
          Option.pure_def, Option.some.injEq] at ho
        obtain ⟨_, ⟨hR, rfl⟩, _, ⟨h0, rfl⟩, _, ⟨h1, rfl⟩, _, ⟨h2, rfl⟩, h3⟩ := ho
        rw [← h3, sub_sub_cancel, Real.sq_sqrt h2]
        simp only [hzy, hgd]; ring
      have d1 := ((hq.z.const_sub r).pow 2).add (hq.x.pow 2)
      have d3 := (((dzy _ hy).comp (0 : ℝ) hq.y).const_sub r).pow 2
      have d2 : HasDerivAt (fun t => (r - (q t).z) ^ 2 + (q t).x ^ 2) _ 0 := d3.congr_of_eventuallyEq hev
      have := d1.unique d2
      simp at this
      simp only [V3.dot, hhd]
      simp only [one_div] at this ⊢
      linarith

/-- **C100**, tori. -/
theorem C100_torus (R r : ℝ) (S : Sag) (hh : S.height = torusHeight R r) (hn : S.normal = torusNormal R r) :
    SmoothNormal S := by
  refine smooth_of_gradient (torus_gradient R r S hh hn) ?_
  intro q v w
  simp only [V3.dot]; ring

/-! ## Images and gratings -/

/-- **C100**, the relation of Helmholtz between the magnifications of lengths and of angles: where the rays
through one point of the object are brought together again to first order, the product of index, displacement
and angle is that of the object. -/
theorem C100_helmholtz {ss : List Surface} (hs : ∀ s ∈ ss, s.rulings = none ∧ SmoothNormal s.sag)
    {f1 f2 g1 g2 : ℝ → Ray} (t1 : Swept ss f1 g1) (t2 : Swept ss f2 g2) (h0 : f1 0 = f2 0)
    {d1 p2 d2 D1 P2 D2 : V3} (h1 : Sweep f1 0 d1) (h2 : Sweep f2 p2 d2)
    (k1 : Sweep g1 0 D1) (k2 : Sweep g2 P2 D2) :
    (g1 0).index * P2.dot D1 = (f1 0).index * p2.dot d1 := by
  have := C100_system hs t1 t2 h0 h1 h2 k1 k2
  simp only [etendue, V3.dot, zero_x, zero_y, zero_z] at this ⊢
  linarith

/-- **C100**, plane gratings whose rulings are the same everywhere keep the etendue of light of one wavelength:
what they add to the direction does not depend on where and how they are struck. -/
theorem C100_grating {s : Surface} {ru : RulingProfile} {g : V3} {d : ℝ} (flat : s.sag = flatSag)
    (ruled : s.rulings = some ru) (spacing : ∀ q u, ru.spacing q u = some (d • g)) (hd : d ≠ 0)
    (hg : g.z = 0) (hg1 : g.dot g = 1)
    {f1 f2 g1 g2 : ℝ → Ray} {p1 d1 p2 d2 P1 D1 P2 D2 : V3}
    (h1 : Sweep f1 p1 d1) (h2 : Sweep f2 p2 d2) (h0 : f1 0 = f2 0)
    (l1 : ∀ᶠ t in 𝓝 0, (f1 t).wavelength = (f1 0).wavelength)
    (l2 : ∀ᶠ t in 𝓝 0, (f2 t).wavelength = (f2 0).wavelength)
    (k1 : Sweep g1 P1 D1) (k2 : Sweep g2 P2 D2) (t1 : Passes s f1 g1) (t2 : Passes s f2 g2) :
    etendue (g1 0).index P1 D1 P2 D2 = etendue (f1 0).index p1 d1 p2 d2 := by
  have hgg : g1 0 = g2 0 := by
    have e1 := t1.traced.self_of_nhds
    have e2 := t2.traced.self_of_nhds
    rw [h0, e2, Option.some.injEq] at e1
    exact e1.symm
  have hn : ∀ q, s.sag.normal q = some ⟨0, 0, -1⟩ := fun q => by rw [flat]; rfl
  -- the surface is a plane
  have tangent : ∀ {f h : ℝ → Ray} {P D : V3}, Sweep h P D → Passes s f h →
      V3.dot (s.frame.ivec P) ⟨0, 0, -1⟩ = 0 := by
    intro f h P D hk hp
    have hz := (hk.position.ipoint s.frame).z
    have h2 : ∀ᶠ t in 𝓝 0, (s.frame.ipoint (h t).position).z = 0 := by
      filter_upwards [hp.lands] with t ht
      unfold Surface.Contains at ht
      rw [flat] at ht
      have : flatHeight (s.frame.ipoint (h t).position) = some (s.frame.ipoint (h t).position).z := ht
      unfold flatHeight at this
      rw [Option.some.injEq] at this
      exact this.symm
    have h3 := (hasDerivAt_const (0 : ℝ) (0 : ℝ)).congr_of_eventuallyEq h2
    simp [V3.dot, hz.unique h3]
  -- along the plane the directions turn together
  have key : ∀ {f h : ℝ → Ray} {p e P D : V3}, Sweep f p e → Sweep h P D → Passes s f h →
      (∀ᶠ t in 𝓝 0, (f t).wavelength = (f 0).wavelength) → ∀ V : V3,
      V3.dot (s.frame.ivec V) ⟨0, 0, -1⟩ = 0 → (h 0).index * D.dot V = (f 0).index * e.dot V := by
    intro f h p e P D hf hk hp hw V hV
    have hV' : V3.dot ⟨0, 0, -1⟩ (s.frame.ivec V) = 0 := by rw [dot_comm]; exact hV
    have ma := (hf.direction.ivec s.frame).dot (Moving.const (⟨0, 0, -1⟩ : V3))
    have hne := hp.aslant _ (hn _)
    have hside : ∀ᶠ t in 𝓝 0, (if V3.dot (s.frame.ivec (f t).direction) ⟨0, 0, -1⟩ < 0 then (-1 : ℝ) else 1)
        = if V3.dot (s.frame.ivec (f 0).direction) ⟨0, 0, -1⟩ < 0 then (-1 : ℝ) else 1 := by
      rcases lt_or_gt_of_ne hne with hlt | hgt
      · filter_upwards [ma.continuousAt.eventually (gt_mem_nhds hlt)] with t ht
        rw [if_pos ht, if_pos hlt]
      · filter_upwards [ma.continuousAt.eventually (lt_mem_nhds hgt)] with t ht
        rw [if_neg (not_lt.2 ht.le), if_neg (not_lt.2 hgt.le)]
    have hne' := ma.continuousAt.eventually_ne hne
    have heq : ∀ᶠ t in 𝓝 0, (h 0).index * (h t).direction.dot V - (f 0).index * (f t).direction.dot V
        = V3.dot (((if V3.dot (s.frame.ivec (f 0).direction) ⟨0, 0, -1⟩ < 0 then (-1 : ℝ) else 1)
          * (ru.order * (f 0).wavelength / d)) • g) (s.frame.ivec V) := by
      filter_upwards [hp.traced, hf.index, hk.index, hside, hne', hw] with t a1 a2 a3 a4 a5 a6
      obtain ⟨hm, -⟩ := C06_surface a1 ruled (hn _) (spacing _ _) hd (by simp [V3.dot, hg]) hg1
        (by simp [V3.dot]) (by rw [a2]; exact hf.pos) (by rw [a3]; exact hk.pos) a5
      have := hm.along hV'
      rw [a2, a3, a4, a6] at this
      simp only [Rigid.ivec_dot_ivec] at this
      rw [this]; ring
    have m1 := ((hk.direction.dot (Moving.const V)).const_mul (h 0).index).sub
      ((hf.direction.dot (Moving.const V)).const_mul (f 0).index)
    have m2 := (hasDerivAt_const (0 : ℝ) _).congr_of_eventuallyEq heq
    have := m1.unique m2
    simp only [V3.dot, zero_x, zero_y, zero_z] at this ⊢
    linarith
  have e1 := key h1 k1 t1 l1 P2 (tangent k2 t2)
  have e2 := key h2 k2 t2 l2 P1 (tangent k1 t1)
  have e3 := etendue_run h1 h2 h0 k1.position k2.position hgg t1.line t2.line
  rw [← hgg, ← h0] at e2
  rw [dot_comm] at e1 e2
  rw [dot_comm d1] at e1
  rw [dot_comm d2] at e2
  unfold etendue
  linear_combination (f1 0).index * e3 + e2 - e1

/-! ## A plane mirror -/

/-- Parallel light that falls onto the mirror of the lamp. -/
noncomputable def beamRay (t : ℝ) : Ray := ⟨1, ⟨t, 0, -1⟩, ⟨0, 0, 1⟩, 1, 0, 1, true⟩

/-- What the mirror makes of it. -/
noncomputable def beamReflected (t : ℝ) : Ray := ⟨1, ⟨t, 0, 0⟩, ⟨0, 0, -1⟩, 1, 0, 1, true⟩

theorem beam_traced (t : ℝ) :
    (⟨flatSag, mirror, none, none, none⟩ : Surface).propagate (beamRay t) = some (beamReflected t) := by
  have hs : snellsLaw ⟨0, 0, 1⟩ 1 1 true ⟨0, 0, -1⟩ = some ⟨0, 0, -1⟩ := by
    rw [snellsLaw_iff true (by simp [dot]) one_pos one_pos (by simp [dot])]
    refine ⟨⟨by simp [dot], by apply V3.ext <;> simp [tang, dot]⟩, by simp [OppositeSide, dot]⟩
  have hi : flatIntercept ⟨t, 0, -1⟩ ⟨0, 0, 1⟩ = some ⟨t, 0, 0⟩ := by
    unfold flatIntercept
    rw [div?_of_ne (by simp)]
    simp
  simp [Surface.propagate, Surface.propagateLocal, Sag.propagate, flatSag, hi, Surface.interact, div?,
    Surface.effectiveRay, flatNormal, mirror, Surface.rulingFactor, Surface.clip, beamRay, beamReflected, hs]

theorem lamp_direction (c : ℝ) :
    Moving (fun t => (1 / Real.sqrt (1 + t ^ 2)) • (⟨t, 0, c⟩ : V3)) ⟨1, 0, 0⟩ := by
  have h := (((hasDerivAt_id (0 : ℝ)).pow 2).const_add 1).sqrt (by simp)
  have h1 : HasDerivAt (fun t : ℝ => 1 / Real.sqrt (1 + t ^ 2)) 0 0 := by
    refine ((h.inv (by simp)).congr_of_eventuallyEq (Eventually.of_forall fun t => ?_)).congr_deriv (by simp)
    simp [one_div]
  have h2 : Moving (fun t => (⟨t, 0, c⟩ : V3)) ⟨1, 0, 0⟩ :=
    ⟨hasDerivAt_id 0, hasDerivAt_const _ _, hasDerivAt_const _ _⟩
  have := Moving.smul h1 h2
  convert this using 1
  apply V3.ext <;> simp

/-- The lamp and the parallel light share the ray along the normal of the mirror, and span an etendue of one
before and after. -/
example :
    let s : Surface := ⟨flatSag, mirror, none, none, none⟩
    Sweep lampRay 0 ⟨1, 0, 0⟩ ∧ Sweep beamRay ⟨1, 0, 0⟩ 0 ∧ lampRay 0 = beamRay 0 ∧
    Sweep lampReflected ⟨1, 0, 0⟩ ⟨1, 0, 0⟩ ∧ Sweep beamReflected ⟨1, 0, 0⟩ 0 ∧
    Swept [s] lampRay lampReflected ∧ Swept [s] beamRay beamReflected ∧
    s.rulings = none ∧ SmoothNormal s.sag ∧
    etendue 1 0 ⟨1, 0, 0⟩ ⟨1, 0, 0⟩ 0 = -1 := by
  intro s
  have hlen : ∀ c t : ℝ, c ^ 2 = 1 → V3.dot ((1 / Real.sqrt (1 + t ^ 2)) • ⟨t, 0, c⟩)
      ((1 / Real.sqrt (1 + t ^ 2)) • ⟨t, 0, c⟩) = 1 := by
    intro c t hc
    have h2 := Real.sq_sqrt (show (0 : ℝ) ≤ 1 + t ^ 2 by positivity)
    have h0 : 0 < Real.sqrt (1 + t ^ 2) := Real.sqrt_pos.2 (by positivity)
    simp only [dot, smul_x, smul_y, smul_z]; field_simp; rw [h2, hc]; ring
  have hx : Moving (fun t => (⟨t, 0, 0⟩ : V3)) ⟨1, 0, 0⟩ :=
    ⟨hasDerivAt_id 0, hasDerivAt_const _ _, hasDerivAt_const _ _⟩
  have hx' : Moving (fun t => (⟨t, 0, -1⟩ : V3)) ⟨1, 0, 0⟩ :=
    ⟨hasDerivAt_id 0, hasDerivAt_const _ _, hasDerivAt_const _ _⟩
  have a1 : Sweep lampRay 0 ⟨1, 0, 0⟩ := ⟨Moving.const _, lamp_direction 1,
    Eventually.of_forall fun t => hlen 1 t (by norm_num), Eventually.of_forall fun t => rfl, one_pos⟩
  have a2 : Sweep beamRay ⟨1, 0, 0⟩ 0 := ⟨hx', Moving.const _,
    Eventually.of_forall fun t => by simp [beamRay, dot], Eventually.of_forall fun t => rfl, one_pos⟩
  have b1 : Sweep lampReflected ⟨1, 0, 0⟩ ⟨1, 0, 0⟩ := ⟨hx, lamp_direction (-1),
    Eventually.of_forall fun t => hlen (-1) t (by norm_num), Eventually.of_forall fun t => rfl, one_pos⟩
  have b2 : Sweep beamReflected ⟨1, 0, 0⟩ 0 := ⟨hx, Moving.const _,
    Eventually.of_forall fun t => by simp [beamReflected, dot], Eventually.of_forall fun t => rfl, one_pos⟩
  have hivec : ∀ v, s.frame.ivec v = v := fun v => by
    apply V3.ext <;> simp [s, dot, Surface.frame, Rigid.ivec, Rigid.id, M3.one, M3.mulVec, M3.transpose]
  have hland : ∀ t : ℝ, s.Contains ⟨t, 0, 0⟩ := fun t => by
    show some (0 : ℝ) = some (Surface.frame _ |>.ipoint ⟨t, 0, 0⟩).z
    simp [s, dot, Surface.frame, Rigid.ipoint, Rigid.id, M3.one, M3.mulVec, M3.transpose]
  have hasl : ∀ q n, s.sag.normal q = some n → n = ⟨0, 0, -1⟩ := fun q n h => by
    have h : some (⟨0, 0, -1⟩ : V3) = some n := h
    rw [Option.some.injEq] at h
    exact h.symm
  have p1 : Passes s lampRay lampReflected := ⟨Eventually.of_forall lamp_traced,
    Eventually.of_forall fun t => ⟨Real.sqrt (1 + t ^ 2), by
      have h0 : 0 < Real.sqrt (1 + t ^ 2) := Real.sqrt_pos.2 (by positivity)
      apply V3.ext
      · simp only [lampReflected, lampRay, add_x, smul_x]; field_simp; ring
      · simp [lampReflected, lampRay]
      · simp only [lampReflected, lampRay, add_z, smul_z]; field_simp; ring⟩,
    Eventually.of_forall hland, fun n h => by
      rw [hasl _ n h, hivec]; simp [lampRay, dot]⟩
  have p2 : Passes s beamRay beamReflected := ⟨Eventually.of_forall beam_traced,
    Eventually.of_forall fun t => ⟨1, by apply V3.ext <;> simp [beamReflected, beamRay]⟩,
    Eventually.of_forall hland, fun n h => by
      rw [hasl _ n h, hivec]; simp [beamRay, dot]⟩
  refine ⟨a1, a2, ?_, b1, b2, .cons p1 b1 (.nil _), .cons p2 b2 (.nil _), rfl, C100_flat, ?_⟩
  · simp [lampRay, beamRay]
    apply V3.ext <;> simp
  · simp [etendue, dot]

end Optika
