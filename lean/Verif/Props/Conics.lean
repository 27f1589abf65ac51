import Verif.Props.Parabola
import Verif.Props.SurfaceOptics

/-!
# C82: conic surfaces are stigmatic

A conic surface of radius `R` and conic constant `-e²` has its foci on the axis at `R / (1 + e)` and
`R / (1 - e)`.  As a mirror it sends the rays through one focus through the other one; as a boundary
between media whose indices have the ratio `e` it sends the rays along the axis through a focus.
-/

namespace Optika
open V3

/-- A surface with a conic sag, placed anywhere. -/
noncomputable def conicSurface (R k : ℝ) (m : Material) (g : Rigid) : Surface :=
  ⟨conicSag R k, m, none, none, some g⟩

/-- The guard of the intercept with a conic (C08): the quadratic equation is not nearly, but not quite,
linear. -/
def ConicGuard (R k : ℝ) (u : V3) : Prop :=
  (1 / R) * (u.x ^ 2 + u.y ^ 2 + (1 + k) * u.z ^ 2) = 0 ∨
    1e-12 ≤ |(1 / R) * (u.x ^ 2 + u.y ^ 2 + (1 + k) * u.z ^ 2)|

/-- The normal of a conic, up to a factor, where there is one. -/
theorem conicNormal_eq {R k : ℝ} {p n : V3} (hp : OnGraph (conicHeight R k) p)
    (hn : conicNormal R k p = some n) :
    R ≠ 0 ∧ p.x ^ 2 + p.y ^ 2 + (1 + k) * p.z ^ 2 = 2 * R * p.z ∧ (1 + k) * p.z - R ≠ 0 ∧
      0 < R * (R - (1 + k) * p.z) ∧
      ∃ κ : ℝ, κ ≠ 0 ∧ n = κ • (⟨p.x, p.y, (1 + k) * p.z - R⟩ : V3) ∧ n.dot n = 1 := by
  have hp' := hp
  unfold OnGraph at hp
  obtain ⟨hR, h0, hz⟩ := conicHeight_eq_some.1 hp
  obtain ⟨-, hq, -⟩ := onGraph_conic.1 hp'
  unfold conicNormal at hn
  simp only [Option.bind_eq_bind, Option.bind_eq_some_iff, div?_eq_some, sqrt?_eq_some,
    Option.pure_def, Option.some.injEq] at hn
  obtain ⟨c, ⟨-, rfl⟩, g, ⟨-, rfl⟩, dx, ⟨hg, rfl⟩, dy, ⟨-, rfl⟩, a, ⟨hl, rfl⟩, b, ⟨-, rfl⟩, d, ⟨-, rfl⟩,
    rfl⟩ := hn
  have hss := Real.sq_sqrt h0
  have hs0 := Real.sqrt_nonneg (1 - (1 + k) * (1 / R) ^ 2 * (p.x ^ 2 + p.y ^ 2))
  generalize Real.sqrt (1 - (1 + k) * (1 / R) ^ 2 * (p.x ^ 2 + p.y ^ 2)) = G at *
  have hG : 0 < G := lt_of_le_of_ne hs0 (Ne.symm hg)
  have hz' : p.z * (1 + G) * R = p.x ^ 2 + p.y ^ 2 := by
    rw [hz]; field_simp
  have hG2 : G ^ 2 * R ^ 2 = R ^ 2 - (1 + k) * (p.x ^ 2 + p.y ^ 2) := by
    rw [hss]; field_simp
  have hkey : (1 + k) * p.z - R = -(R * G) := by
    have : (1 + G) * R * ((1 + k) * p.z - R + R * G) = 0 := by
      linear_combination (1 + k) * hz' + hG2
    have h1 : (1 + G) * R ≠ 0 := mul_ne_zero (by positivity) hR
    have := (mul_eq_zero.1 this).resolve_left h1
    linarith
  have hRG : R * G ≠ 0 := mul_ne_zero hR hg
  refine ⟨hR, ?_, ?_, ?_, 1 / (R * G * V3.len ⟨1 / R * p.x / G, 1 / R * p.y / G, -1⟩), ?_, ?_, ?_⟩
  · field_simp at hq; linarith
  · rw [hkey]; exact neg_ne_zero.2 hRG
  · have : R - (1 + k) * p.z = R * G := by linarith
    rw [this]
    have : 0 < R ^ 2 := by positivity
    nlinarith
  · exact one_div_ne_zero (mul_ne_zero hRG hl)
  · rw [hkey]
    ext <;> vsimp <;> field_simp
  · have hlen : V3.len ⟨1 / R * p.x / G, 1 / R * p.y / G, -1⟩ ^ 2
        = (1 / R * p.x / G) ^ 2 + (1 / R * p.y / G) ^ 2 + 1 := by
      rw [sq, V3.len_sq]
      simp only [V3.dot]; ring
    generalize V3.len ⟨1 / R * p.x / G, 1 / R * p.y / G, -1⟩ = l at *
    simp only [V3.dot]
    have : (1 / R * p.x / G / l) * (1 / R * p.x / G / l) + (1 / R * p.y / G / l) * (1 / R * p.y / G / l)
        + -1 / l * (-1 / l) = ((1 / R * p.x / G) ^ 2 + (1 / R * p.y / G) ^ 2 + 1) / l ^ 2 := by
      field_simp
    rw [this, ← hlen, div_self (pow_ne_zero 2 hl)]

theorem OnLine.to_local {g : Rigid} {o u q : V3} (h : OnLine o u (g.point q)) :
    OnLine (g.ipoint o) (g.ivec u) q := by
  obtain ⟨t, ht⟩ := h
  refine ⟨t, ?_⟩
  have : g.ipoint (g.point q) = g.ipoint (o + t • u) := by rw [ht]
  rw [g.ipoint_point] at this
  rw [this]
  simp only [Rigid.ipoint, Rigid.ivec, M3.mulVec_sub, M3.mulVec_add, M3.mulVec_smul]
  vring

theorem OnLine.to_global {g : Rigid} {o u q : V3} (h : OnLine o u q) :
    OnLine (g.point o) (g.vec u) (g.point q) := by
  obtain ⟨t, rfl⟩ := h
  refine ⟨t, ?_⟩
  simp only [Rigid.point, Rigid.vec, M3.mulVec_add, M3.mulVec_smul]
  vring

/-- The ray behind a conic surface, in the coordinates of the surface. -/
theorem conicSurface_local {R k : ℝ} {m : Material} {g : Rigid} {r out : Ray} (hu : g.ivec r.direction ≠ 0)
    (hexact : ConicGuard R k (g.ivec r.direction)) (h : (conicSurface R k m g).propagate r = some out) :
    ∃ p n b, out.position = g.point p ∧ out.direction = g.vec b ∧ OnGraph (conicHeight R k) p ∧
      OnLine (g.ipoint r.position) (g.ivec r.direction) p ∧ conicNormal R k p = some n ∧
      snellsLaw (g.ivec r.direction) r.index out.index m.isMirror n = some b ∧
      ∃ r1, m.index r1 = some out.index ∧ r1.index = r.index := by
  simp only [conicSurface, Surface.propagate, Option.map_eq_some_iff] at h
  obtain ⟨o, ho, rfl⟩ := h
  obtain ⟨q, normal, r1, n2, b, e1, e2, att, hq, hn, heff, hp, hw, hi, ha, hv, hI, hn2, -, hr0, hb,
    he1, he2, hatt, ow, op, od, oI, oa, oi, -⟩ := propagateLocal_eq_some ho
  simp only [Surface.effectiveRay, Option.some.injEq] at heff
  obtain ⟨hgraph, t, ht, -⟩ := C08_conic_sound hexact hu hq
  refine ⟨q, normal, b, ?_, ?_, hgraph, ⟨t, ht⟩, hn, ?_, r1, ?_, ?_⟩
  · show g.point o.position = _
    rw [op]
  · show g.vec o.direction = _
    rw [od]
  · show snellsLaw _ _ o.index _ _ = _
    rw [oi, ← hb, ← heff]
    rfl
  · show _ = some o.index
    rw [oi]; exact hn2
  · rw [hi]; rfl

/-- The line of a ray is met by a conic where it is not parallel to the axis. -/
theorem conicSurface_exists {R k : ℝ} {g : Rigid} {r : Ray} (hR : R ≠ 0)
    (hu : g.ivec r.direction ≠ 0)
    (hexact : ConicGuard R k (g.ivec r.direction))
    (hmeet : ∃ q, OnLine (g.ipoint r.position) (g.ivec r.direction) q ∧ OnGraph (conicHeight R k) q)
    (hin : ∀ q, OnLine (g.ipoint r.position) (g.ivec r.direction) q → OnGraph (conicHeight R k) q →
      (1 + k) * (q.x ^ 2 + q.y ^ 2) < R ^ 2) :
    ∃ q n, conicIntercept R k (g.ipoint r.position) (g.ivec r.direction) = some q ∧
      conicNormal R k q = some n := by
  obtain ⟨q, hq⟩ := C08_conic_complete hexact hu hmeet
  obtain ⟨hgraph, t, ht, -⟩ := C08_conic_sound hexact hu hq
  obtain ⟨n, hn, -⟩ := C09_conic hR (hin q ⟨t, ht⟩ hgraph)
  exact ⟨q, n, hq, hn⟩

/-- Distances of a point of the conic from its foci, and the squared length of its gradient. -/
theorem conic_foci {R e x y z z1 z2 : ℝ} (hq : x ^ 2 + y ^ 2 + (1 + -e ^ 2) * z ^ 2 = 2 * R * z)
    (h1 : (1 + e) * z1 = R) (h2 : (1 - e) * z2 = R) :
    x ^ 2 + y ^ 2 + (z - z1) ^ 2 = (z1 + e * z) ^ 2 ∧ x ^ 2 + y ^ 2 + (z - z2) ^ 2 = (z2 - e * z) ^ 2 ∧
    x ^ 2 + y ^ 2 + ((1 + -e ^ 2) * z - R) ^ 2 = (1 - e ^ 2) * ((z1 + e * z) * (z2 - e * z)) := by
  refine ⟨?_, ?_, ?_⟩
  · linear_combination hq - 2 * z * h1
  · linear_combination hq - 2 * z * h2
  · linear_combination hq + (e * z * (1 - e) - (1 - e) * z2) * h1 - (e * z * (1 + e) + R) * h2

/-- Where the normal of the conic exists, the point is neither of the foci. -/
theorem conic_factors {R e : ℝ} (he : e ^ 2 ≠ 1) {p n : V3} (hp : OnGraph (conicHeight R (-e ^ 2)) p)
    (hn : conicNormal R (-e ^ 2) p = some n) :
    R / (1 + e) + e * p.z ≠ 0 ∧ R / (1 - e) - e * p.z ≠ 0 ∧
    ∃ κ : ℝ, κ ≠ 0 ∧ n = κ • (⟨p.x, p.y, (1 + -e ^ 2) * p.z - R⟩ : V3) ∧
      κ ^ 2 * ((1 - e ^ 2) * ((R / (1 + e) + e * p.z) * (R / (1 - e) - e * p.z))) = 1 := by
  have hp1 : 1 + e ≠ 0 := fun h => he (by linear_combination (e - 1) * h)
  have hm1 : 1 - e ≠ 0 := fun h => he (by linear_combination -(1 + e) * h)
  obtain ⟨hR, hq, hz, -, κ, hκ, hnκ, hn1⟩ := conicNormal_eq hp hn
  obtain ⟨-, -, hg⟩ := conic_foci hq (mul_div_cancel₀ R hp1) (mul_div_cancel₀ R hm1)
  have hunit : κ ^ 2 * ((1 - e ^ 2) * ((R / (1 + e) + e * p.z) * (R / (1 - e) - e * p.z))) = 1 := by
    rw [hnκ] at hn1
    simp only [V3.dot, smul_x, smul_y, smul_z] at hn1
    rw [← hg]
    linear_combination hn1
  refine ⟨fun h => ?_, fun h => ?_, κ, hκ, hnκ, hunit⟩
  · rw [h] at hunit; simp at hunit
  · rw [h] at hunit; simp at hunit

/-- Reflection at a conic, in its coordinates. -/
theorem conic_reflect {R e : ℝ} (he : e ^ 2 ≠ 1) {p n d : V3} (hp : OnGraph (conicHeight R (-e ^ 2)) p)
    (hn : conicNormal R (-e ^ 2) p = some n) (hline : OnLine p d ⟨0, 0, R / (1 + e)⟩) :
    OnLine p (d - (2 * d.dot n) • n) ⟨0, 0, R / (1 - e)⟩ := by
  have hp1 : 1 + e ≠ 0 := fun h => he (by linear_combination (e - 1) * h)
  have hm1 : 1 - e ≠ 0 := fun h => he (by linear_combination -(1 + e) * h)
  obtain ⟨hR, hq, -⟩ := conicNormal_eq hp hn
  obtain ⟨hA, hB, κ, hκ, hnκ, hunit⟩ := conic_factors he hp hn
  have h1 := mul_div_cancel₀ R hp1
  have h2 := mul_div_cancel₀ R hm1
  generalize R / (1 + e) = z1 at *
  generalize R / (1 - e) = z2 at *
  obtain ⟨τ, hτ⟩ := hline
  have hx : τ * d.x = -p.x := by have := congrArg V3.x hτ; simp at this; linarith
  have hy : τ * d.y = -p.y := by have := congrArg V3.y hτ; simp at this; linarith
  have hz : τ * d.z = z1 - p.z := by have := congrArg V3.z hτ; simp at this; linarith
  have hdot : τ * d.dot n = -(κ * (R * (z1 + e * p.z))) := by
    rw [hnκ]
    simp only [V3.dot, smul_x, smul_y, smul_z]
    linear_combination κ * p.x * hx + κ * p.y * hy + κ * ((1 + -e ^ 2) * p.z - R) * hz - κ * hq
      + κ * (1 - e) * p.z * h1
  have hAB : (1 - e ^ 2) * (z1 + e * p.z + (z2 - e * p.z)) = 2 * R := by
    linear_combination (1 - e) * h1 + (1 + e) * h2
  generalize hA' : z1 + e * p.z = A at *
  generalize hB' : z2 - e * p.z = B at *
  have hκR : 2 * κ ^ 2 * R * A * B = A + B := by
    have he' : 1 - e ^ 2 ≠ 0 := fun h => he (by linarith)
    apply mul_left_cancel₀ he'
    linear_combination 2 * R * hunit - hAB
  refine ⟨-(τ * B / A), ?_⟩
  generalize hδ : d.dot n = δ at *
  rw [hnκ]
  ext
  · vsimp; field_simp
    linear_combination B * hx - 2 * κ * p.x * B * hdot + p.x * hκR
  · vsimp; field_simp
    linear_combination B * hy - 2 * κ * p.y * B * hdot + p.y * hκR
  · vsimp; field_simp
    linear_combination B * hz - 2 * κ * ((1 + -e ^ 2) * p.z - R) * B * hdot + ((1 + -e ^ 2) * p.z - R) * hκR
      + A * h2 + e * A * hB' + B * h1 - e * B * hA'

/-- **C82**: a conic mirror with conic constant `-e²`, placed anywhere, sends every ray whose line goes
through one focus into a line through the other focus; exchanging `e` and `-e` exchanges the foci. -/
theorem C82_mirror {R e : ℝ} (he : e ^ 2 ≠ 1) {g : Rigid} {r out : Ray}
    (hdir : r.direction.dot r.direction = 1)
    (hfocus : OnLine r.position r.direction (g.point ⟨0, 0, R / (1 + e)⟩))
    (hexact : ConicGuard R (-e ^ 2) (g.ivec r.direction))
    (h : (conicSurface R (-e ^ 2) mirror g).propagate r = some out) :
    OnGraph (conicHeight R (-e ^ 2)) (g.ipoint out.position) ∧
    OnLine r.position r.direction out.position ∧
    OnLine out.position out.direction (g.point ⟨0, 0, R / (1 - e)⟩) := by
  have hd : (g.ivec r.direction).dot (g.ivec r.direction) = 1 := by rw [g.ivec_dot_ivec, hdir]
  have hu : g.ivec r.direction ≠ 0 := by
    intro h0; rw [h0] at hd; simp [V3.dot] at hd
  obtain ⟨p, n, b, hp, hb, hgraph, hline, hn, hs, r1, hr1, hi⟩ := conicSurface_local hu hexact h
  have hindex : out.index = r.index := by
    have : some r1.index = some out.index := hr1
    rw [Option.some.injEq] at this
    rw [← this, hi]
  rw [hindex] at hs
  have h0 : r.index ≠ 0 := by
    obtain ⟨h0, -⟩ := snellsLaw_eq_some.1 hs
    exact h0
  rw [show mirror.isMirror = true from rfl, C02_reflection hd h0, Option.some.injEq] at hs
  have hl := hfocus.to_local
  have hl' : OnLine p (g.ivec r.direction) ⟨0, 0, R / (1 + e)⟩ := by
    obtain ⟨t, ht⟩ := hline
    obtain ⟨t', ht'⟩ := hl
    exact ⟨t' - t, by rw [ht', ht]; vring⟩
  refine ⟨?_, ?_, ?_⟩
  · rw [hp, g.ipoint_point]; exact hgraph
  · have := hline.to_global (g := g)
    rw [g.point_ipoint, g.vec_ivec] at this
    rw [hp]; exact this
  · rw [hp, hb, ← hs]
    exact (conic_reflect he hgraph hn hl').to_global

/-- The unit vector from a point of the conic to a focus, and the axis. -/
theorem conic_unit {R e : ℝ} (he : e ^ 2 ≠ 1) {p n : V3} (hp : OnGraph (conicHeight R (-e ^ 2)) p)
    (hn : conicNormal R (-e ^ 2) p = some n) :
    ∃ (v : V3) (B μ : ℝ), B ≠ 0 ∧ (⟨0, 0, R / (1 - e)⟩ : V3) = p + B • v ∧ v.dot v = 1 ∧
      v = e • (⟨0, 0, 1⟩ : V3) + μ • n ∧ 0 < v.dot n * (⟨0, 0, 1⟩ : V3).dot n := by
  have hp1 : 1 + e ≠ 0 := fun h => he (by linear_combination (e - 1) * h)
  have hm1 : 1 - e ≠ 0 := fun h => he (by linear_combination -(1 + e) * h)
  obtain ⟨hR, hq, -, hside, -⟩ := conicNormal_eq hp hn
  obtain ⟨hA, hB, κ, hκ, hnκ, hunit⟩ := conic_factors he hp hn
  have h1 := mul_div_cancel₀ R hp1
  have h2 := mul_div_cancel₀ R hm1
  obtain ⟨-, hlen, -⟩ := conic_foci hq h1 h2
  clear hA hunit h1
  generalize R / (1 - e) = z2 at *
  generalize hB' : z2 - e * p.z = B at *
  refine ⟨⟨-p.x / B, -p.y / B, (z2 - p.z) / B⟩, B, -1 / (B * κ), hB, ?_, ?_, ?_, ?_⟩
  · ext <;> vsimp <;> field_simp <;> ring
  · simp only [V3.dot]
    field_simp
    linear_combination hlen
  · rw [hnκ]
    ext
    · vsimp; field_simp; ring
    · vsimp; field_simp; ring
    · vsimp; field_simp
      linear_combination h2 + e * hB'
  · have e1 : (⟨-p.x / B, -p.y / B, (z2 - p.z) / B⟩ : V3).dot n = -(κ * R) := by
      rw [hnκ]
      simp only [V3.dot, smul_x, smul_y, smul_z]
      field_simp
      linear_combination -hq - R * hB' + (1 + e) * p.z * h2
    have e2 : (⟨0, 0, 1⟩ : V3).dot n = κ * ((1 + -e ^ 2) * p.z - R) := by
      rw [hnκ]; simp [V3.dot]
    rw [e1, e2]
    have : 0 < κ ^ 2 := by positivity
    have := mul_pos this hside
    linarith

theorem V3.tang_add_smul (a n : V3) (hn : n.dot n = 1) (e μ : ℝ) :
    (e • a + μ • n).tang n = e • a.tang n := by
  have hd : (e • a + μ • n).dot n = e * a.dot n + μ := by
    have : (e • a + μ • n).dot n = e * a.dot n + μ * n.dot n := by
      simp only [V3.dot, add_x, add_y, add_z, smul_x, smul_y, smul_z]; ring
    rw [this, hn, mul_one]
  unfold V3.tang
  rw [hd]
  vring

/-- **C82**: a conic boundary with conic constant `-(n1 / n2)²` between media of the indices `n1` and `n2`
sends every ray along its axis into a line through the focus. -/
theorem C82_refraction {R n1 n2 s : ℝ} (h1 : 0 < n1) (h2 : 0 < n2) (hne : n1 ≠ n2) (hs : s = 1 ∨ s = -1)
    {m : Material} (hm : m.isMirror = false) {g : Rigid} {r out : Ray}
    (hdir : r.direction = g.vec ⟨0, 0, s⟩) (hi : r.index = n1)
    (hexact : ConicGuard R (-(n1 / n2) ^ 2) ⟨0, 0, s⟩)
    (h : (conicSurface R (-(n1 / n2) ^ 2) m g).propagate r = some out) (ho : out.index = n2) :
    OnGraph (conicHeight R (-(n1 / n2) ^ 2)) (g.ipoint out.position) ∧
    OnLine r.position r.direction out.position ∧
    OnLine out.position out.direction (g.point ⟨0, 0, R / (1 - n1 / n2)⟩) := by
  have hloc : g.ivec r.direction = ⟨0, 0, s⟩ := by rw [hdir, g.ivec_vec]
  have hss : s * s = 1 := by rcases hs with rfl | rfl <;> norm_num
  have he : (n1 / n2) ^ 2 ≠ 1 := by
    intro h0
    have : n1 ^ 2 = n2 ^ 2 := by field_simp at h0; exact h0
    exact hne ((sq_eq_sq₀ h1.le h2.le).1 this)
  have hu : g.ivec r.direction ≠ 0 := by
    rw [hloc]; intro h0; have := congrArg V3.z h0
    simp at this; rw [this] at hss; norm_num at hss
  obtain ⟨p, n, b, hp, hb, hgraph, hline, hn, hsn, -⟩ := conicSurface_local hu (by rw [hloc]; exact hexact) h
  obtain ⟨v, B, μ, hB, hF, hv, hvn, hside⟩ := conic_unit he hgraph hn
  obtain ⟨-, -, -, -, κ, -, -, hn1⟩ := conicNormal_eq hgraph hn
  have hz : (⟨0, 0, 1⟩ : V3).dot n ≠ 0 := right_ne_zero_of_mul hside.ne'
  have hs0 : s ≠ 0 := left_ne_zero_of_mul (by rw [hss]; exact one_ne_zero)
  have haz : (⟨0, 0, s⟩ : V3) = s • (⟨0, 0, 1⟩ : V3) := by vring
  have hau : (⟨0, 0, s⟩ : V3).dot n ≠ 0 := by
    rw [haz, smul_dot]; exact mul_ne_zero hs0 hz
  have hbv : b = s • v := by
    have : snellsLaw ⟨0, 0, s⟩ n1 n2 false n = some (s • v) := by
      rw [snellsLaw_iff false hn1 h1 h2 hau]
      refine ⟨⟨?_, ?_⟩, ?_⟩
      · rw [smul_dot, dot_smul, hv, mul_one, hss]
      · have e1 : s • v = (n1 / n2) • (⟨0, 0, s⟩ : V3) + (s * μ) • n := by
          rw [hvn, haz]; vring
        rw [e1, V3.tang_add_smul _ _ hn1]
        have e2 : n2 * (n1 / n2) = n1 := by field_simp
        have e3 : ∀ w : V3, n2 • (n1 / n2) • w = (n2 * (n1 / n2)) • w := fun w => by vring
        rw [e3, e2]
        vring
      · simp only [Bool.false_eq_true, if_false, SameSide]
        rw [haz, smul_dot, smul_dot]
        have : s * (⟨0, 0, 1⟩ : V3).dot n * (s * v.dot n) = s * s * (v.dot n * (⟨0, 0, 1⟩ : V3).dot n) := by
          ring
        rw [this, hss, one_mul]
        exact hside.le
    rw [hloc, hi, ho, hm, this, Option.some.injEq] at hsn
    exact hsn.symm
  refine ⟨?_, ?_, ?_⟩
  · rw [hp, g.ipoint_point]; exact hgraph
  · have := hline.to_global (g := g)
    rw [g.point_ipoint, g.vec_ivec] at this
    rw [hp]; exact this
  · rw [hp, hb]
    refine OnLine.to_global ⟨B * s, ?_⟩
    rw [hF, hbv]
    have : (B * s) • s • v = (B * (s * s)) • v := by vring
    rw [this, hss, mul_one]

/-- **C82**: the way back: a conic boundary with conic constant `-(n2 / n1)²` sends every ray whose line
goes through the focus along its axis. -/
theorem C82_collimation {R n1 n2 : ℝ} (h1 : 0 < n1) (h2 : 0 < n2) (hne : n1 ≠ n2)
    {m : Material} (hm : m.isMirror = false) {g : Rigid} {r out : Ray}
    (hdir : r.direction.dot r.direction = 1) (hi : r.index = n1)
    (hfocus : OnLine r.position r.direction (g.point ⟨0, 0, R / (1 - n2 / n1)⟩))
    (hexact : ConicGuard R (-(n2 / n1) ^ 2) (g.ivec r.direction))
    (h : (conicSurface R (-(n2 / n1) ^ 2) m g).propagate r = some out) (ho : out.index = n2) :
    OnGraph (conicHeight R (-(n2 / n1) ^ 2)) (g.ipoint out.position) ∧
    OnLine r.position r.direction out.position ∧
    (out.direction = g.vec ⟨0, 0, 1⟩ ∨ out.direction = g.vec ⟨0, 0, -1⟩) := by
  have hd : (g.ivec r.direction).dot (g.ivec r.direction) = 1 := by rw [g.ivec_dot_ivec, hdir]
  have he : (n2 / n1) ^ 2 ≠ 1 := by
    intro h0
    have : n2 ^ 2 = n1 ^ 2 := by field_simp at h0; exact h0
    exact hne.symm ((sq_eq_sq₀ h2.le h1.le).1 this)
  have hu : g.ivec r.direction ≠ 0 := by
    intro h0; rw [h0] at hd; simp [V3.dot] at hd
  obtain ⟨p, n, b, hp, hb, hgraph, hline, hn, hsn, -⟩ := conicSurface_local hu hexact h
  obtain ⟨v, B, μ, hB, hF, hv, hvn, hside⟩ := conic_unit he hgraph hn
  obtain ⟨-, -, -, -, κ, -, -, hn1⟩ := conicNormal_eq hgraph hn
  have hmeet : OnLine r.position r.direction out.position := by
    have := hline.to_global (g := g)
    rw [g.point_ipoint, g.vec_ivec] at this
    rw [hp]; exact this
  obtain ⟨τ, hτ⟩ : ∃ τ, B • v = τ • g.ivec r.direction := by
    have hline' := hline
    obtain ⟨t, ht⟩ := hline'
    obtain ⟨t', ht'⟩ := hfocus.to_local
    refine ⟨t' - t, ?_⟩
    have : p + B • v = g.ipoint r.position + t' • g.ivec r.direction := by rw [← hF, ← ht']
    have h3 : B • v = (p + B • v) - p := by vring
    rw [h3, this]
    conv_lhs => rw [ht]
    vring
  generalize g.ivec r.direction = d at *
  have hBτ : B ^ 2 = τ ^ 2 := by
    have h3 : (B • v).dot (B • v) = B ^ 2 * v.dot v := by rw [smul_dot, dot_smul]; ring
    have h4 : (τ • d).dot (τ • d) = τ ^ 2 * d.dot d := by rw [smul_dot, dot_smul]; ring
    rw [hτ, h4, hv, hd] at h3
    linarith
  have hτ0 : τ ≠ 0 := by rintro rfl; simp at hBτ; exact hB hBτ
  set s := B / τ with hsdef
  have hss : s * s = 1 := by
    rw [hsdef]; field_simp; exact hBτ
  have hdv : d = s • v := by
    have : d = (1 / τ) • τ • d := by
      have : (1 / τ) • τ • d = (1 / τ * τ) • d := by vring
      rw [this, one_div_mul_cancel hτ0]; vring
    rw [this, ← hτ, hsdef]
    vring
  have hs0 : s ≠ 0 := left_ne_zero_of_mul (by rw [hss]; exact one_ne_zero)
  have haz : (⟨0, 0, s⟩ : V3) = s • (⟨0, 0, 1⟩ : V3) := by vring
  have hau : d.dot n ≠ 0 := by
    rw [hdv, smul_dot]; exact mul_ne_zero hs0 (left_ne_zero_of_mul hside.ne')
  have hbv : b = ⟨0, 0, s⟩ := by
    have : snellsLaw d n1 n2 false n = some ⟨0, 0, s⟩ := by
      rw [snellsLaw_iff false hn1 h1 h2 hau]
      refine ⟨⟨?_, ?_⟩, ?_⟩
      · simp only [V3.dot]; linarith
      · have e1 : d = (n2 / n1) • (⟨0, 0, s⟩ : V3) + (s * μ) • n := by
          rw [hdv, hvn, haz]; vring
        rw [e1, V3.tang_add_smul _ _ hn1]
        have e2 : n1 * (n2 / n1) = n2 := by field_simp
        have e3 : ∀ w : V3, n1 • (n2 / n1) • w = (n1 * (n2 / n1)) • w := fun w => by vring
        rw [e3, e2]
        vring
      · simp only [Bool.false_eq_true, if_false, SameSide]
        rw [haz, hdv, smul_dot, smul_dot]
        have : s * v.dot n * (s * (⟨0, 0, 1⟩ : V3).dot n) = s * s * (v.dot n * (⟨0, 0, 1⟩ : V3).dot n) := by
          ring
        rw [this, hss, one_mul]
        exact hside.le
    rw [hi, ho, hm, this, Option.some.injEq] at hsn
    exact hsn.symm
  refine ⟨?_, hmeet, ?_⟩
  · rw [hp, g.ipoint_point]; exact hgraph
  · rcases mul_self_eq_one_iff.1 hss with h | h
    · left; rw [hb, hbv, h]
    · right; rw [hb, hbv, h]

/-- **C82**: a conic mirror sends every ray on whose line meets the mirror, and does so only where the
mirror is not parallel to its axis. -/
theorem C82_mirror_exists {R k : ℝ} {g : Rigid} {r : Ray} (hR : R ≠ 0)
    (hdir : r.direction.dot r.direction = 1) (hi : r.index ≠ 0)
    (hexact : ConicGuard R k (g.ivec r.direction))
    (hmeet : ∃ q, OnLine (g.ipoint r.position) (g.ivec r.direction) q ∧ OnGraph (conicHeight R k) q)
    (hin : ∀ q, OnLine (g.ipoint r.position) (g.ivec r.direction) q → OnGraph (conicHeight R k) q →
      (1 + k) * (q.x ^ 2 + q.y ^ 2) < R ^ 2) :
    ∃ out, (conicSurface R k mirror g).propagate r = some out := by
  have hd : (g.ivec r.direction).dot (g.ivec r.direction) = 1 := by rw [g.ivec_dot_ivec, hdir]
  have hu : g.ivec r.direction ≠ 0 := by
    intro h0; rw [h0] at hd; simp [V3.dot] at hd
  obtain ⟨q, n, hq, hn⟩ := conicSurface_exists hR hu hexact hmeet hin
  have hs := C02_reflection (u := n) hd hi
  refine ⟨Ray.move g { r.unmove g with
      position := q
      direction := g.ivec r.direction - (2 * (g.ivec r.direction).dot n) • n
      intensity := Real.exp (-r.attenuation * (q - g.ipoint r.position).len) * r.intensity }, ?_⟩
  simp [conicSurface, conicSag, Surface.propagate, Surface.propagateLocal, Sag.propagate, Ray.unmove,
    hq, Surface.interact, hn, Surface.effectiveRay, mirror, hs, hi,
    Surface.rulingFactor, Surface.clip, div_self hi, div?]

/-- The ellipsoid `x² + y² + 3/4 z² = 6 z` has its foci at `z = 2` and `z = 6`; a ray through the first one
and at right angles to the axis goes through the second one. -/
example (r : Ray) (hp : r.position = ⟨1, 0, 2⟩) (hd : r.direction = ⟨1, 0, 0⟩) (hi : r.index = 1) :
    ∃ out, (conicSurface 3 (-(1 / 2) ^ 2) mirror Rigid.id).propagate r = some out ∧
      OnLine out.position out.direction ⟨0, 0, 6⟩ := by
  have hp' : Rigid.id.ipoint r.position = ⟨1, 0, 2⟩ := by rw [Rigid.id_ipoint, hp]
  have hd' : Rigid.id.ivec r.direction = ⟨1, 0, 0⟩ := by rw [Rigid.id_ivec, hd]
  have hunit : r.direction.dot r.direction = 1 := by rw [hd]; norm_num [V3.dot]
  have hexact : ConicGuard 3 (-(1 / 2) ^ 2) (Rigid.id.ivec r.direction) := by
    right; rw [hd']; norm_num [abs_of_pos]
  have hline : OnLine (Rigid.id.ipoint r.position) (Rigid.id.ivec r.direction) ⟨3, 0, 2⟩ :=
    ⟨2, by rw [hp', hd']; ext <;> vsimp <;> norm_num⟩
  have hgraph : OnGraph (conicHeight 3 (-(1 / 2) ^ 2)) ⟨3, 0, 2⟩ := onGraph_conic.2 (by norm_num)
  obtain ⟨out, h⟩ := C82_mirror_exists (R := 3) (k := -(1 / 2) ^ 2) (g := Rigid.id) (r := r)
    (by norm_num) hunit (by rw [hi]; norm_num) hexact ⟨_, hline, hgraph⟩ (by
      rintro q ⟨t, rfl⟩ hq
      obtain ⟨-, h1, -⟩ := onGraph_conic.1 hq
      rw [hp', hd'] at *
      simp at h1 ⊢
      nlinarith)
  refine ⟨out, h, ?_⟩
  have hfocus : OnLine r.position r.direction (Rigid.id.point ⟨0, 0, 3 / (1 + 1 / 2)⟩) :=
    ⟨-1, by rw [Rigid.id_point, hp, hd]; ext <;> vsimp <;> norm_num⟩
  have := (C82_mirror (e := 1 / 2) (by norm_num) hunit hfocus hexact h).2.2
  rw [Rigid.id_point, show (3 : ℝ) / (1 - 1 / 2) = 6 by norm_num] at this
  exact this

/-- A parabolic mirror keeps the length of the direction. -/
theorem parabolicMirror_unit {f : ℝ} (hf : f ≠ 0) {r mid : Ray} (hdir : r.direction.dot r.direction = 1)
    (hi : r.index ≠ 0) (hgraph : OnGraph (parabolaHeight f) mid.position)
    (hmid : (parabolicMirror f).propagate r = some mid) : mid.direction.dot mid.direction = 1 := by
  have hloc := hmid
  simp only [parabolicMirror, Surface.propagate] at hloc
  obtain ⟨q, normal, r1, n2, b, e1, e2, att, hq, hn, heff, hp, hw, hi', ha, hv, hI, hn2, -, hr0, hb,
    he1, he2, hatt, ow, op, od, oI, oa, oi, -⟩ := propagateLocal_eq_some hloc
  simp only [Surface.effectiveRay, Option.some.injEq] at heff
  rw [op] at hgraph
  obtain ⟨n, k, hn1, hnk, hk⟩ := parabolaNormal_eq hf q hgraph
  have hg := (onGraph_parabola.1 hgraph).2
  have : some normal = some n := by rw [← hn, ← hn1]; rfl
  rw [Option.some.injEq] at this
  subst this
  have hnn : normal.dot normal = 1 := by
    rw [hnk]; simp only [V3.dot, smul_x, smul_y, smul_z]
    linear_combination hk + k ^ 2 * hg
  have hi2 : n2 = r.index := by
    have : some r1.index = some n2 := hn2
    rw [Option.some.injEq] at this
    rw [← this, hi']
  rw [od]
  refine (C02_reflection_consequences (a := r1.direction) (u := normal) (n := r.index) ?_ hnn hi ?_).1
  · rw [← heff]; show r.direction.dot r.direction = 1
    exact hdir
  · rw [← hb, hi', hi2]; rfl

/-- **C82**: a telescope of a parabolic and a conic mirror, one focus of which is at the focus of the
parabola, sends all light along the axis through the other focus.  With a hyperbola (`1 < |e|`) it is a
Cassegrain, with an ellipse (`|e| < 1`) a Gregorian telescope; `g` may also tilt the second mirror about
the common focus. -/
theorem C82_telescope {f R e s : ℝ} (hf : f ≠ 0) (he : e ^ 2 ≠ 1) (hs : s = 1 ∨ s = -1) {g : Rigid}
    (hg : g.point ⟨0, 0, R / (1 + e)⟩ = ⟨0, 0, f⟩) {r out : Ray} (hdir : r.direction = ⟨0, 0, s⟩)
    (hi : r.index ≠ 0)
    (hexact : ∀ mid, (parabolicMirror f).propagate r = some mid →
      ConicGuard R (-e ^ 2) (g.ivec mid.direction))
    (h : propagateSurfaces [parabolicMirror f, conicSurface R (-e ^ 2) mirror g] r = some out) :
    OnLine out.position out.direction (g.point ⟨0, 0, R / (1 - e)⟩) := by
  obtain ⟨mid, hmid, hgraph, -, hfocus⟩ := C11_axial_to_focus hf hs hdir hi
  rw [propagateSurfaces_cons, hmid, Option.bind_some, propagateSurfaces_cons] at h
  obtain ⟨o, ho, h⟩ := Option.bind_eq_some_iff.1 h
  rw [propagateSurfaces_nil, Option.some.injEq] at h
  subst h
  have hunit := parabolicMirror_unit hf (by rw [hdir]; rcases hs with rfl | rfl <;> norm_num [V3.dot]) hi
    hgraph hmid
  exact (C82_mirror he hunit (by rw [hg]; exact hfocus) (hexact mid hmid) ho).2.2

/-- A boundary with a flat sag, placed anywhere. -/
noncomputable def flatSurface (m : Material) (g : Rigid) : Surface := ⟨flatSag, m, none, none, some g⟩

/-- A ray at the distance 8 from the axis of a paraboloid that focuses to `z = -4`, and an ellipsoid with
foci at `z = -4` and `z = 0`. -/
example (r : Ray) (hp : r.position = ⟨8, 0, -20⟩) (hd : r.direction = ⟨0, 0, 1⟩) (hi : r.index = 1) :
    ∃ out, propagateSurfaces [parabolicMirror (-4),
        conicSurface 3 (-(1 / 2) ^ 2) mirror (Rigid.translation ⟨0, 0, -6⟩)] r = some out ∧
      OnLine out.position out.direction ⟨0, 0, 0⟩ := by
  have hi0 : r.index ≠ 0 := by rw [hi]; norm_num
  have hpt : ∀ v, (Rigid.translation ⟨0, 0, -6⟩).point v = v + ⟨0, 0, -6⟩ := by
    intro v
    show M3.one.mulVec v + _ = _
    rw [M3.mulVec_one]
    rfl
  have hiv : ∀ v, (Rigid.translation ⟨0, 0, -6⟩).ivec v = v := fun v => Rigid.id_ivec v
  have hip : ∀ v, (Rigid.translation ⟨0, 0, -6⟩).ipoint v = v - ⟨0, 0, -6⟩ := by
    intro v
    have h1 := (Rigid.translation ⟨0, 0, -6⟩).ipoint_point (v - ⟨0, 0, -6⟩)
    rw [hpt] at h1
    rw [← h1]
    congr 1
    vring
  have key : ∀ mid, (parabolicMirror (-4)).propagate r = some mid → mid.position = ⟨8, 0, -4⟩ ∧
      mid.index = 1 ∧ (mid.direction = ⟨1, 0, 0⟩ ∨ mid.direction = ⟨-1, 0, 0⟩) := by
    intro mid hmid
    obtain ⟨mid', hmid', hgraph, ⟨t, ht⟩, ⟨τ, hτ⟩⟩ := C11_axial_to_focus (f := -4) (s := 1) (r := r)
      (by norm_num) (Or.inl rfl) hd hi0
    rw [hmid, Option.some.injEq] at hmid'
    subst hmid'
    have hu := parabolicMirror_unit (by norm_num) (by rw [hd]; norm_num [V3.dot]) hi0 hgraph hmid
    have hg := (onGraph_parabola.1 hgraph).2
    rw [hp, hd] at ht
    have hx : mid.position.x = 8 := by rw [ht]; simp
    have hy : mid.position.y = 0 := by rw [ht]; simp
    rw [hx, hy] at hg
    have hz : mid.position.z = -4 := by linarith
    have hpos : mid.position = ⟨8, 0, -4⟩ := V3.ext hx hy hz
    rw [hpos] at hτ
    have tx := congrArg V3.x hτ
    have ty := congrArg V3.y hτ
    have tz := congrArg V3.z hτ
    simp at tx ty tz
    have hτ0 : τ ≠ 0 := by rintro rfl; norm_num at tx
    have dy : mid.direction.y = 0 := ty.resolve_left hτ0
    have dz : mid.direction.z = 0 := tz.resolve_left hτ0
    simp only [V3.dot, dy, dz] at hu
    have hxx : mid.direction.x * mid.direction.x = 1 := by linarith
    refine ⟨hpos, ?_, ?_⟩
    · have hloc := hmid
      simp only [parabolicMirror, Surface.propagate] at hloc
      obtain ⟨q, normal, r1, n2, b, e1, e2, att, -, -, -, -, -, hi', -, -, -, hn2, -, -, -,
        -, -, -, -, -, -, -, -, oi, -⟩ := propagateLocal_eq_some hloc
      have : some r1.index = some n2 := hn2
      rw [Option.some.injEq] at this
      rw [oi, ← this, hi', hi]
    · rcases mul_self_eq_one_iff.1 hxx with h | h
      · left; exact V3.ext h dy dz
      · right; exact V3.ext h dy dz
  obtain ⟨mid, hmid, -⟩ := C11_axial_to_focus (f := -4) (s := 1) (r := r) (by norm_num) (Or.inl rfl) hd hi0
  have hguard : ∀ mid, (parabolicMirror (-4)).propagate r = some mid →
      ConicGuard 3 (-(1 / 2) ^ 2) ((Rigid.translation ⟨0, 0, -6⟩).ivec mid.direction) := by
    intro mid hmid
    rw [hiv]
    right
    rcases (key mid hmid).2.2 with h | h <;> rw [h] <;> norm_num [abs_of_pos]
  obtain ⟨hmp, hmi, hmd⟩ := key mid hmid
  have hlp : (Rigid.translation ⟨0, 0, -6⟩).ipoint mid.position = ⟨8, 0, 2⟩ := by
    rw [hip, hmp]; ext <;> vsimp <;> norm_num
  obtain ⟨out, hout⟩ := C82_mirror_exists (R := 3) (k := -(1 / 2) ^ 2)
    (g := Rigid.translation ⟨0, 0, -6⟩) (r := mid) (by norm_num)
    (by rcases hmd with h | h <;> rw [h] <;> norm_num [V3.dot]) (by rw [hmi]; norm_num) (hguard mid hmid)
    ⟨⟨3, 0, 2⟩, by
      rw [hlp, hiv]
      rcases hmd with h | h
      · exact ⟨-5, by rw [h]; ext <;> vsimp <;> norm_num⟩
      · exact ⟨5, by rw [h]; ext <;> vsimp <;> norm_num⟩, onGraph_conic.2 (by norm_num)⟩ (by
      rintro q ⟨t, rfl⟩ hq
      obtain ⟨-, h1, -⟩ := onGraph_conic.1 hq
      rw [hlp, hiv] at *
      rcases hmd with h | h <;> rw [h] at h1 ⊢ <;> simp at h1 ⊢ <;> norm_num at h1 ⊢ <;> linarith)
  have hall : propagateSurfaces [parabolicMirror (-4),
      conicSurface 3 (-(1 / 2) ^ 2) mirror (Rigid.translation ⟨0, 0, -6⟩)] r = some out := by
    rw [propagateSurfaces_cons, hmid, Option.bind_some, propagateSurfaces_cons, hout, Option.bind_some,
      propagateSurfaces_nil]
  refine ⟨out, hall, ?_⟩
  have hg : (Rigid.translation ⟨0, 0, -6⟩).point ⟨0, 0, 3 / (1 + 1 / 2)⟩ = ⟨0, 0, -4⟩ := by
    rw [hpt]; ext <;> vsimp <;> norm_num
  have := C82_telescope (f := -4) (s := 1) (by norm_num) (by norm_num) (Or.inl rfl) hg hd hi0 hguard hall
  rw [hpt] at this
  have e0 : (⟨0, 0, 3 / (1 - 1 / 2)⟩ : V3) + ⟨0, 0, -6⟩ = ⟨0, 0, 0⟩ := by ext <;> vsimp <;> norm_num
  rw [e0] at this
  exact this

/-- **C82**: a lens with a flat face across the axis and a conic face with conic constant `-(n1 / n2)²`,
where `n1` is the index of the lens and `n2` that of the medium behind it, sends all light along the axis
through the focus. -/
theorem C82_lens {R n0 n1 n2 s : ℝ} (h0 : 0 < n0) (h1 : 0 < n1) (h2 : 0 < n2) (hne : n1 ≠ n2)
    (hs : s = 1 ∨ s = -1) {m1 m2 : Material} (hm1 : m1.isMirror = false) (hm2 : m2.isMirror = false)
    {g1 g2 : Rigid} {r mid out : Ray} (hdir : r.direction = g2.vec ⟨0, 0, s⟩)
    (hg : g1.vec ⟨0, 0, s⟩ = g2.vec ⟨0, 0, s⟩)
    (hexact : ConicGuard R (-(n1 / n2) ^ 2) ⟨0, 0, s⟩)
    (hmid : (flatSurface m1 g1).propagate r = some mid)
    (h : (conicSurface R (-(n1 / n2) ^ 2) m2 g2).propagate mid = some out)
    (hi0 : r.index = n0) (hi1 : mid.index = n1) (hi2 : out.index = n2) :
    propagateSurfaces [flatSurface m1 g1, conicSurface R (-(n1 / n2) ^ 2) m2 g2] r = some out ∧
    OnLine out.position out.direction (g2.point ⟨0, 0, R / (1 - n1 / n2)⟩) := by
  have hd : mid.direction = r.direction := by
    obtain ⟨u, hu, hsn⟩ := surface_plain hmid rfl
    have hu' : u = ⟨0, 0, -1⟩ := by
      have : some (⟨0, 0, -1⟩ : V3) = some u := hu
      rw [Option.some.injEq] at this; exact this.symm
    have hf : (flatSurface m1 g1).frame = g1 := rfl
    rw [hf, hu', hdir, ← hg, g1.ivec_vec, hi0, hi1, show (flatSurface m1 g1).material.isMirror = false from hm1]
      at hsn
    have : snellsLaw ⟨0, 0, s⟩ n0 n1 false ⟨0, 0, -1⟩ = some ⟨0, 0, s⟩ := by
      rw [snellsLaw_iff false (by norm_num [V3.dot]) h0 h1
        (by rcases hs with rfl | rfl <;> norm_num [V3.dot])]
      refine ⟨⟨?_, ?_⟩, ?_⟩
      · rcases hs with rfl | rfl <;> norm_num [V3.dot]
      · ext <;> simp [V3.tang, V3.dot]
      · rcases hs with rfl | rfl <;> norm_num [SameSide, V3.dot]
    rw [this, Option.some.injEq] at hsn
    have h3 := congrArg g1.vec hsn
    rw [g1.vec_ivec, hg, ← hdir] at h3
    exact h3.symm
  refine ⟨?_, (C82_refraction h1 h2 hne hs hm2 (by rw [hd]; exact hdir) hi1 hexact h hi2).2.2⟩
  rw [propagateSurfaces_cons, hmid, Option.bind_some, propagateSurfaces_cons, h, Option.bind_some,
    propagateSurfaces_nil]

/-- A glass without absorption and reflection. -/
noncomputable def clearGlass (n : ℝ) : Material := ⟨fun _ => some n, fun _ => some 0, fun _ _ => some 1, false⟩

/-- A conic boundary to a clear glass sends every ray on that is not totally reflected. -/
theorem clearConic_exists {R k n2 : ℝ} {g : Rigid} {r : Ray} {q n : V3} (hn2 : n2 ≠ 0) (hi : r.index ≠ 0)
    (hq : conicIntercept R k (g.ipoint r.position) (g.ivec r.direction) = some q)
    (hn : conicNormal R k q = some n)
    (ht : 0 ≤ (n2 / r.index) ^ 2 + ((g.ivec r.direction).dot n) ^ 2
      - (g.ivec r.direction).dot (g.ivec r.direction)) :
    ∃ out, (conicSurface R k (clearGlass n2) g).propagate r = some out ∧ out.index = n2 := by
  obtain ⟨b, hb⟩ : ∃ b, snellsLaw (g.ivec r.direction) r.index n2 false n = some b :=
    ⟨_, snellsLaw_eq_some.2 ⟨hn2, hi, ht, rfl⟩⟩
  refine ⟨Ray.move g { r.unmove g with
      wavelength := r.wavelength / (r.index / n2)
      position := q
      direction := b
      intensity := Real.exp (-r.attenuation * (q - g.ipoint r.position).len) * r.intensity
      attenuation := 0
      index := n2 }, ?_, rfl⟩
  simp [conicSurface, conicSag, Surface.propagate, Surface.propagateLocal, Sag.propagate, Ray.unmove,
    hq, Surface.interact, hn, Surface.effectiveRay, clearGlass, hb, hi, hn2,
    Surface.rulingFactor, Surface.clip, div?]

/-- A lens of the index 2 in vacuum, flat at `z = -10` and with the hyperboloid `x² + y² - 3 z² = -6 z` at
the back, sends a ray at the distance 3 from the axis through the focus at `z = 3`. -/
example (r : Ray) (hp : r.position = ⟨3, 0, -20⟩) (hd : r.direction = ⟨0, 0, 1⟩) (hi : r.index = 1) :
    ∃ out, propagateSurfaces [flatSurface (clearGlass 2) (Rigid.translation ⟨0, 0, -10⟩),
        conicSurface (-3) (-(2 / 1) ^ 2) (clearGlass 1) Rigid.id] r = some out ∧
      OnLine out.position out.direction ⟨0, 0, 3⟩ := by
  have hs : snellsLaw ⟨0, 0, 1⟩ 1 2 false ⟨0, 0, -1⟩ = some ⟨0, 0, 1⟩ := by
    rw [snellsLaw_iff false (by norm_num [V3.dot]) one_pos two_pos (by norm_num [V3.dot])]
    refine ⟨⟨?_, ?_⟩, ?_⟩
    · norm_num [V3.dot]
    · ext <;> simp [V3.tang, V3.dot]
    · norm_num [SameSide, V3.dot]
  have hpt : ∀ v, (Rigid.translation ⟨0, 0, -10⟩).point v = v + ⟨0, 0, -10⟩ := by
    intro v
    show M3.one.mulVec v + _ = _
    rw [M3.mulVec_one]
    rfl
  have hiv : ∀ v, (Rigid.translation ⟨0, 0, -10⟩).ivec v = v := fun v => Rigid.id_ivec v
  have hv : ∀ v, (Rigid.translation ⟨0, 0, -10⟩).vec v = v := fun v => Rigid.id_vec v
  have hip : ∀ v, (Rigid.translation ⟨0, 0, -10⟩).ipoint v = v - ⟨0, 0, -10⟩ := by
    intro v
    have h1 := (Rigid.translation ⟨0, 0, -10⟩).ipoint_point (v - ⟨0, 0, -10⟩)
    rw [hpt] at h1
    rw [← h1]
    congr 1
    vring
  obtain ⟨mid, hmid, hmp, hmd, hmi⟩ : ∃ mid, (flatSurface (clearGlass 2)
      (Rigid.translation ⟨0, 0, -10⟩)).propagate r = some mid ∧ mid.position = ⟨3, 0, -10⟩ ∧
      mid.direction = ⟨0, 0, 1⟩ ∧ mid.index = 2 := by
    refine ⟨Ray.move (Rigid.translation ⟨0, 0, -10⟩)
      { r.unmove (Rigid.translation ⟨0, 0, -10⟩) with
        wavelength := r.wavelength / (1 / 2)
        position := ⟨3, 0, 0⟩
        direction := ⟨0, 0, 1⟩
        intensity := Real.exp (-r.attenuation * (⟨3, 0, 0⟩ - (⟨3, 0, -10⟩ : V3)).len) * r.intensity
        attenuation := 0
        index := 2 }, ?_, ?_, ?_, rfl⟩
    · have e1 : (r.unmove (Rigid.translation ⟨0, 0, -10⟩)).position = ⟨3, 0, -10⟩ := by
        show (Rigid.translation ⟨0, 0, -10⟩).ipoint r.position = _
        rw [hip, hp]; ext <;> vsimp <;> norm_num
      have e2 : (r.unmove (Rigid.translation ⟨0, 0, -10⟩)).direction = ⟨0, 0, 1⟩ := by
        show (Rigid.translation ⟨0, 0, -10⟩).ivec r.direction = _
        rw [hiv, hd]
      have e3 : (r.unmove (Rigid.translation ⟨0, 0, -10⟩)).index = 1 := hi
      have e4 : flatIntercept ⟨3, 0, -10⟩ ⟨0, 0, 1⟩ = some ⟨3, 0, 0⟩ := by
        norm_num [flatIntercept, div?]
      have e5 : flatNormal ⟨3, 0, 0⟩ = some ⟨0, 0, -1⟩ := rfl
      simp only [flatSurface, flatSag, Surface.propagate, Surface.propagateLocal, Sag.propagate,
        Surface.interact, Surface.effectiveRay, clearGlass, Surface.rulingFactor, Surface.clip, e1, e2, e3,
        e4, e5, hs, div?_of_ne (two_ne_zero), Option.bind_eq_bind, Option.bind_some, Option.pure_def]
      rw [div?_of_ne (by norm_num)]
      simp [Ray.unmove]
    · show (Rigid.translation ⟨0, 0, -10⟩).point ⟨3, 0, 0⟩ = _
      rw [hpt]; ext <;> vsimp <;> norm_num
    · show (Rigid.translation ⟨0, 0, -10⟩).vec ⟨0, 0, 1⟩ = _
      rw [hv]
  have hguard : ConicGuard (-3) (-(2 / 1) ^ 2) ⟨0, 0, 1⟩ := by right; norm_num
  have hlp : Rigid.id.ipoint mid.position = ⟨3, 0, -10⟩ := by rw [Rigid.id_ipoint, hmp]
  have hld : Rigid.id.ivec mid.direction = ⟨0, 0, 1⟩ := by rw [Rigid.id_ivec, hmd]
  have hline : OnLine (Rigid.id.ipoint mid.position) (Rigid.id.ivec mid.direction) ⟨3, 0, -1⟩ :=
    ⟨9, by rw [hlp, hld]; ext <;> vsimp <;> norm_num⟩
  have hgraph : OnGraph (conicHeight (-3) (-(2 / 1) ^ 2)) ⟨3, 0, -1⟩ := onGraph_conic.2 (by norm_num)
  obtain ⟨q, n, hq, hn⟩ := conicSurface_exists (R := -3) (k := -(2 / 1) ^ 2) (g := Rigid.id) (r := mid)
    (by norm_num) (by rw [hld]; intro h0; have := congrArg V3.z h0; simp at this) (by rw [hld]; exact hguard)
    ⟨_, hline, hgraph⟩ (by
      rintro q ⟨t, rfl⟩ hq
      have : 0 ≤ (Rigid.id.ipoint mid.position + t • Rigid.id.ivec mid.direction).x ^ 2
        + (Rigid.id.ipoint mid.position + t • Rigid.id.ivec mid.direction).y ^ 2 := by positivity
      have h3 : (1 + -((2 : ℝ) / 1) ^ 2) = -3 := by norm_num
      rw [h3]
      linarith)
  have hqg := C08_conic_sound (by rw [hld]; exact hguard)
    (by rw [hld]; intro h0; have := congrArg V3.z h0; simp at this) hq
  obtain ⟨hqg, t, ht, -⟩ := hqg
  obtain ⟨-, hquad, -, hside, κ, -, hnκ, hn1⟩ := conicNormal_eq hqg hn
  obtain ⟨out, hout, hoi⟩ := clearConic_exists (R := -3) (k := -(2 / 1) ^ 2) (n2 := 1) (g := Rigid.id)
    (r := mid) one_ne_zero (by rw [hmi]; norm_num) hq hn (by
      rw [hld, hmi, hnκ]
      rw [hnκ] at hn1
      have hx : q.x = 3 := by rw [ht, hlp, hld]; simp
      have hy : q.y = 0 := by rw [ht, hlp, hld]; simp
      have hzz : q.z = -1 := by
        rw [hx, hy] at hquad
        norm_num at hquad hside
        have : (q.z + 1) * (q.z - 3) = 0 := by linarith
        rcases mul_eq_zero.1 this with h | h
        · linarith
        · exfalso; linarith
      rw [hx, hy, hzz] at hn1 ⊢
      norm_num [V3.dot] at hn1 ⊢
      nlinarith)
  obtain ⟨h1, h2⟩ := C82_lens (R := -3) (n0 := 1) (n1 := 2) (n2 := 1) (s := 1) one_pos two_pos one_pos
    (by norm_num) (Or.inl rfl) rfl rfl (by rw [hd, Rigid.id_vec]) (by rw [hv, Rigid.id_vec]) hguard hmid hout
    hi hmi hoi
  refine ⟨out, h1, ?_⟩
  rw [Rigid.id_point, show (-3 : ℝ) / (1 - 2 / 1) = 3 by norm_num] at h2
  exact h2

/-- A ray from the focus of the same hyperboloid enters the glass and leaves along the axis. -/
example (r : Ray) (hp : r.position = ⟨0, 0, 3⟩) (hd : r.direction = ⟨3 / 5, 0, -4 / 5⟩)
    (hi : r.index = 1) :
    ∃ out, (conicSurface (-3) (-(2 / 1) ^ 2) (clearGlass 2) Rigid.id).propagate r = some out ∧
      (out.direction = ⟨0, 0, 1⟩ ∨ out.direction = ⟨0, 0, -1⟩) := by
  have hlp : Rigid.id.ipoint r.position = ⟨0, 0, 3⟩ := by rw [Rigid.id_ipoint, hp]
  have hld : Rigid.id.ivec r.direction = ⟨3 / 5, 0, -4 / 5⟩ := by rw [Rigid.id_ivec, hd]
  have hunit : r.direction.dot r.direction = 1 := by rw [hd]; norm_num [V3.dot]
  have hu0 : Rigid.id.ivec r.direction ≠ 0 := by
    rw [hld]; intro h0; have := congrArg V3.x h0; norm_num at this
  have hguard : ConicGuard (-3) (-(2 / 1) ^ 2) (Rigid.id.ivec r.direction) := by
    rw [hld]; right; norm_num [abs_of_pos]
  have hline : OnLine (Rigid.id.ipoint r.position) (Rigid.id.ivec r.direction) ⟨3, 0, -1⟩ :=
    ⟨5, by rw [hlp, hld]; ext <;> vsimp <;> norm_num⟩
  have hgraph : OnGraph (conicHeight (-3) (-(2 / 1) ^ 2)) ⟨3, 0, -1⟩ := onGraph_conic.2 (by norm_num)
  obtain ⟨q, n, hq, hn⟩ := conicSurface_exists (R := -3) (k := -(2 / 1) ^ 2) (g := Rigid.id) (r := r)
    (by norm_num) hu0 hguard ⟨_, hline, hgraph⟩ (by
      rintro q ⟨t, rfl⟩ hq
      have : 0 ≤ (Rigid.id.ipoint r.position + t • Rigid.id.ivec r.direction).x ^ 2
        + (Rigid.id.ipoint r.position + t • Rigid.id.ivec r.direction).y ^ 2 := by positivity
      have h3 : (1 + -((2 : ℝ) / 1) ^ 2) = -3 := by norm_num
      rw [h3]
      linarith)
  obtain ⟨out, hout, hoi⟩ := clearConic_exists (R := -3) (k := -(2 / 1) ^ 2) (n2 := 2) (g := Rigid.id)
    (r := r) two_ne_zero (by rw [hi]; norm_num) hq hn (by
      rw [Rigid.ivec_dot_ivec, hunit, hi]
      nlinarith [sq_nonneg ((Rigid.id.ivec r.direction).dot n)])
  refine ⟨out, hout, ?_⟩
  have := (C82_collimation (R := -3) (n1 := 1) (n2 := 2) one_pos two_pos (by norm_num) rfl hunit hi
    ⟨0, by rw [Rigid.id_point, hp, hd]; ext <;> vsimp <;> norm_num⟩ hguard hout hoi).2.2
  rw [Rigid.id_vec, Rigid.id_vec] at this
  exact this

end Optika
