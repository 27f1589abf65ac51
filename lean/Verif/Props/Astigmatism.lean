import Verif.Props.Etendue
import Mathlib.Analysis.Calculus.Deriv.Polynomial

/-!
# C101: the foci of narrow fans of rays, and the circle of Rowland
-/

namespace Optika
open V3 Filter Topology

/-! ## Specification -/

/-- The rays of a narrow fan meet at a point: they miss it by a distance that vanishes to first order. -/
def Meets (f : ℝ → Ray) (S : V3) : Prop :=
  (S - (f 0).position).cross (f 0).direction = 0 ∧
    Moving (fun t => (S - (f t).position).cross (f t).direction) 0

/-- The rays of a narrow fan diverge from a point at the distance `1 / ρ` before the point `Q` of the first ray; for a
negative `ρ` they converge to a point behind it, and for `ρ = 0` they are parallel: their directions change with the
velocity `d = 0`. -/
def Diverges (f : ℝ → Ray) (d Q : V3) (ρ : ℝ) : Prop :=
  if ρ = 0 then d = 0 else Meets f (Q - (1 / ρ) • (f 0).direction)

/-- A sag with curvature `k` in the direction `v`: on the way through the point `q` in this direction, the normal
turns by `k` for every unit of length. -/
def Turns (sag : Sag) (q v : V3) (k : ℝ) : Prop :=
  ∀ c n : ℝ → V3, Moving c v → c 0 = q → (∀ᶠ t in 𝓝 0, OnGraph sag.height (c t)) →
    (∀ᶠ t in 𝓝 0, sag.normal (c t) = some (n t)) → Moving n (k • v)

/-- What the rulings add to the product of index and direction of light of the wavelength `l`, in the coordinates of
the surface; `δ` is their spacing, `g` the normal of the ruling planes and `σ` is `-1` for light that strikes the
surface from the side to which its normal points, `1` for light from the other side. -/
def RuledBy (s : Surface) (l σ : ℝ) (G : V3 → V3) : Prop :=
  (s.rulings = none ∧ ∀ q, G q = 0) ∨
    ∃ (ru : RulingProfile) (δ : V3 → ℝ) (g : V3), s.rulings = some ru ∧ g.dot g = 1 ∧
      (∀ q u, ru.spacing q u = some (δ q • g)) ∧ (∀ q, δ q ≠ 0 → G q = (σ * (ru.order * l / δ q)) • g)

/-- A narrow fan of rays of one wavelength, which strikes a surface, with normal `N` there, from the side `σ`;
`p` and `d` are the velocities of positions and directions before, `P` and `D` those behind the surface. -/
structure Fan (s : Surface) (l σ : ℝ) (f g : ℝ → Ray) (p d P D N : V3) : Prop where
  before : Sweep f p d
  behind : Sweep g P D
  passes : Passes s f g
  color : ∀ᶠ t in 𝓝 0, (f t).wavelength = l
  normal : s.sag.normal (s.frame.ipoint (g 0).position) = some N
  side : sgn ((s.frame.ivec (f 0).direction).dot N) = σ
  leaves : (s.frame.ivec (g 0).direction).dot N ≠ 0
  wide : P ≠ 0

/-- The power of the surface for the fan: what it adds along its normal. -/
noncomputable def Fan.power (s : Surface) (f g : ℝ → Ray) (N G : V3) : ℝ :=
  (g 0).index * (s.frame.ivec (g 0).direction).dot N - (f 0).index * (s.frame.ivec (f 0).direction).dot N - G.dot N

/-! ## Proofs -/

theorem snell_along {k u b : V3} {n1 n2 : ℝ} {m : Bool} (h2 : n2 ≠ 0) (h : snellsLaw k n1 n2 m u = some b) :
    ∃ c : ℝ, n2 • b = n1 • k + c • u := by
  unfold snellsLaw at h
  simp only [Option.bind_eq_bind, Option.bind_eq_some_iff, Option.pure_def, Option.some.injEq] at h
  obtain ⟨r, hr, q, hq, s, hs, rfl⟩ := h
  obtain ⟨-, rfl⟩ := div?_eq_some.1 hr
  refine ⟨n1 * (-(k.x * u.x + k.y * u.y + k.z * u.z)
    + -copysign1 (k.x * u.x + k.y * u.y + k.z * u.z) * (2 * (if m then 1 else 0) - 1) * s), ?_⟩
  apply V3.ext <;> simp only [add_x, add_y, add_z, smul_x, smul_y, smul_z] <;> field_simp

/-- What a surface adds to the product of index and direction is along its normal, but for the rulings. -/
theorem bend_along {s : Surface} {r out : Ray} {l σ : ℝ} {G : V3 → V3} (hG : RuledBy s l σ G)
    (h : s.propagate r = some out) (hl : r.wavelength = l) {u : V3}
    (hu : s.sag.normal (s.frame.ipoint out.position) = some u)
    (h1 : 0 < r.index) (h2 : 0 < out.index) (ha : sgn ((s.frame.ivec r.direction).dot u) = σ) :
    ∃ c : ℝ, out.index • s.frame.ivec out.direction - r.index • s.frame.ivec r.direction
      - G (s.frame.ipoint out.position) = c • u := by
  rcases hG with ⟨hn, hG⟩ | ⟨ru, δ, g, hr, hg1, hsp, hG⟩
  · obtain ⟨u', hu', hs⟩ := surface_plain h hn
    rw [hu, Option.some.injEq] at hu'
    subst hu'
    obtain ⟨c, hc⟩ := snell_along h2.ne' hs
    refine ⟨c, ?_⟩
    rw [hc, hG]
    vring
  · obtain ⟨u', hu', hs⟩ := surface_ruled h hr
    rw [hu, Option.some.injEq] at hu'
    subst hu'
    rw [hsp] at hs
    rw [Option.bind_eq_some_iff] at hs
    obtain ⟨k, hk, hs⟩ := hs
    obtain ⟨c, hc⟩ := snell_along h2.ne' hs
    refine ⟨c, ?_⟩
    rw [rulingsIncidentEffective_some] at hk
    obtain ⟨hlen, h10, rfl⟩ := hk
    have hδ : δ (s.frame.ipoint out.position) ≠ 0 := by
      intro h0
      apply hlen
      rw [h0]
      simp [V3.len, V3.dot]
    have hdd : (δ (s.frame.ipoint out.position) • g).dot (δ (s.frame.ipoint out.position) • g)
        = δ (s.frame.ipoint out.position) ^ 2 := by rw [smul_dot, dot_smul, hg1]; ring
    rw [hc, hG _ hδ, hdd, ha, hl]
    apply V3.ext <;> vsimp <;> field_simp <;> ring

theorem triple_sq (d e N : V3) : (d.dot (e.cross N)) ^ 2 = d.dot d * e.dot e * N.dot N
    + 2 * (d.dot e) * (e.dot N) * (N.dot d) - d.dot d * (e.dot N) ^ 2 - e.dot e * (N.dot d) ^ 2
    - N.dot N * (d.dot e) ^ 2 := by
  simp only [V3.dot, V3.cross]; ring

/-- A vector perpendicular to two others. -/
theorem perp_two {x e N : V3} (h1 : x.dot e = 0) (h2 : x.dot N = 0) (he : e.dot e = 1) (hN : N.dot N = 1)
    (hx : e.dot N = 0) : x = (x.dot (e.cross N)) • e.cross N := by
  have hω : (e.cross N).dot (e.cross N) = 1 := by
    have : (e.cross N).dot (e.cross N) = e.dot e * N.dot N - (e.dot N) ^ 2 := by
      simp only [V3.dot, V3.cross]; ring
    rw [this, he, hN, hx]; norm_num
  have h3 := triple_sq x e N
  rw [h1, dot_comm N x, h2, he, hN, hx] at h3
  have hw : (x - (x.dot (e.cross N)) • e.cross N).dot (x - (x.dot (e.cross N)) • e.cross N) = 0 := by
    simp only [sub_dot, dot_sub, smul_dot, dot_smul, hω, dot_comm (e.cross N) x]
    linear_combination -h3
  generalize (x.dot (e.cross N)) • e.cross N = y at hw ⊢
  simp only [V3.dot, sub_x, sub_y, sub_z] at hw
  have a1 : x.x - y.x = 0 := by nlinarith [sq_nonneg (x.x - y.x), sq_nonneg (x.y - y.y), sq_nonneg (x.z - y.z)]
  have a2 : x.y - y.y = 0 := by nlinarith [sq_nonneg (x.x - y.x), sq_nonneg (x.y - y.y), sq_nonneg (x.z - y.z)]
  have a3 : x.z - y.z = 0 := by nlinarith [sq_nonneg (x.x - y.x), sq_nonneg (x.y - y.y), sq_nonneg (x.z - y.z)]
  apply V3.ext <;> linarith

/-- The algebra of a fan in the plane of incidence. -/
theorem tangential_algebra {a b N v dl Dl G' e : V3} {n1 n2 ρ ρ' γ c : ℝ} (hn2 : n2 ≠ 0) (ha : a.dot a = 1)
    (hb : b.dot b = 1) (hN : N.dot N = 1) (hv : N.dot v = 0) (hv0 : v.dot v ≠ 0) (hbD : b.dot Dl = 0)
    (hd : dl = ρ • (v - (v.dot a) • a)) (hD : n2 • Dl - n1 • dl - G' = c • N + γ • v)
    (he : e.dot e = 1) (heN : e.dot N = 0) (hea : e.dot a = 0) (heb : e.dot b = 0) (hev : e.dot v = 0)
    (heG : e.dot G' = 0) (hNb : N.dot b ≠ 0) :
    Dl = ρ' • (v - (v.dot b) • b) ↔
      n1 * ρ * (N.dot a) ^ 2 + γ + G'.dot v / v.dot v = n2 * ρ' * (N.dot b) ^ 2 := by
  have heD : e.dot Dl = 0 := by
    have h := congrArg (fun x => e.dot x) hD
    simp only [dot_sub, dot_add, dot_smul, hd, hev, hea, heG, heN] at h
    have : n2 * e.dot Dl = 0 := by linarith
    exact (mul_eq_zero.1 this).resolve_left hn2
  have e1 : v = (v.dot (e.cross N)) • e.cross N := perp_two (by rw [dot_comm, hev]) (by rw [dot_comm, hv]) he hN heN
  have cosq : ∀ x : V3, x.dot x = 1 → e.dot x = 0 → v.dot v - (v.dot x) ^ 2 = v.dot v * (N.dot x) ^ 2 := by
    intro x hx hex
    have t := triple_sq x e N
    have t2 := triple_sq v e N
    rw [dot_comm x e, hex, hx, he, hN, heN] at t
    rw [dot_comm v e, hev, he, hN, heN, hv] at t2
    have vx : v.dot x = (v.dot (e.cross N)) * x.dot (e.cross N) := by
      conv_lhs => rw [e1]
      rw [smul_dot, dot_comm x]
    rw [vx, mul_pow, t, t2]; ring
  set m := v - (v.dot b) • b with hm
  have hmb : m.dot b = 0 := by rw [hm, sub_dot, smul_dot, hb]; ring
  have hme : m.dot e = 0 := by rw [hm, sub_dot, smul_dot, dot_comm v e, hev, dot_comm b e, heb]; ring
  have p1 : Dl = (Dl.dot (e.cross b)) • e.cross b :=
    perp_two (by rw [dot_comm, heD]) (by rw [dot_comm, hbD]) he hb heb
  have p2 : m = (m.dot (e.cross b)) • e.cross b := perp_two hme hmb he hb heb
  have hmm : m.dot m = v.dot v * (N.dot b) ^ 2 := by
    rw [← cosq b hb heb, hm]
    simp only [sub_dot, dot_sub, smul_dot, dot_smul, hb, dot_comm b v]; ring
  have hmm0 : m.dot m ≠ 0 := by rw [hmm]; exact mul_ne_zero hv0 (pow_ne_zero 2 hNb)
  have hDm : Dl.dot m = Dl.dot v := by
    rw [hm, dot_sub, dot_smul, dot_comm Dl b, hbD]; ring
  have iff1 : Dl = ρ' • m ↔ Dl.dot v = ρ' * m.dot m := by
    constructor
    · intro h
      rw [← hDm, h, smul_dot]
    · intro h
      rw [← hDm] at h
      have hp : Dl.dot m * m.dot (e.cross b) = Dl.dot (e.cross b) * m.dot m := by
        conv_lhs => rw [p1, smul_dot]
        conv_rhs => rw [p2]
        simp only [smul_dot, dot_smul]
        rw [dot_comm (e.cross b) m]
        have hω : (e.cross b).dot (e.cross b) = 1 := by
          have : (e.cross b).dot (e.cross b) = e.dot e * b.dot b - (e.dot b) ^ 2 := by
            simp only [V3.dot, V3.cross]; ring
          rw [this, he, hb, heb]; norm_num
        rw [hω]; ring
      rw [h] at hp
      have : Dl.dot (e.cross b) = ρ' * m.dot (e.cross b) := by
        have : (Dl.dot (e.cross b) - ρ' * m.dot (e.cross b)) * m.dot m = 0 := by linear_combination -hp
        linarith [(mul_eq_zero.1 this).resolve_right hmm0]
      rw [p1, this]
      conv_rhs => rw [p2]
      vring
  rw [iff1, hmm]
  have hDv : n2 * Dl.dot v = n1 * ρ * (v.dot v * (N.dot a) ^ 2) + G'.dot v + γ * v.dot v := by
    have h := congrArg (fun x => x.dot v) hD
    simp only [sub_dot, add_dot, smul_dot, hd, hv] at h
    rw [← cosq a ha hea]
    rw [dot_comm a v] at h
    linear_combination h
  have : n1 * ρ * (N.dot a) ^ 2 + γ + G'.dot v / v.dot v = n2 * Dl.dot v / v.dot v := by
    rw [hDv]; field_simp; ring
  rw [this, div_eq_iff hv0]
  constructor
  · intro h; rw [h]; ring
  · intro h
    have : n2 * (Dl.dot v - ρ' * (v.dot v * (N.dot b) ^ 2)) = 0 := by linear_combination h
    linarith [(mul_eq_zero.1 this).resolve_left hn2]

/-- The algebra of a fan perpendicular to the plane of incidence. -/
theorem sagittal_algebra {a b N v dl Dl : V3} {n1 n2 ρ ρ' γ c : ℝ} (hn2 : n2 ≠ 0)
    (hv0 : v.dot v ≠ 0) (hbD : b.dot Dl = 0)
    (hd : dl = ρ • (v - (v.dot a) • a)) (hD : n2 • Dl - n1 • dl = c • N + γ • v)
    (hva : v.dot a = 0) (hvb : v.dot b = 0) (hNb : N.dot b ≠ 0) :
    Dl = ρ' • (v - (v.dot b) • b) ↔ n1 * ρ + γ = n2 * ρ' := by
  have hd' : dl = ρ • v := by rw [hd, hva]; vring
  have hc : c = 0 := by
    have h := congrArg (fun x => x.dot b) hD
    simp only [sub_dot, add_dot, smul_dot, hd', hvb, dot_comm Dl b, hbD] at h
    have : c * N.dot b = 0 := by linarith
    exact (mul_eq_zero.1 this).resolve_right hNb
  have hD' : n2 • Dl = (n1 * ρ + γ) • v := by
    rw [hc, hd'] at hD
    have ex := congrArg V3.x hD
    have ey := congrArg V3.y hD
    have ez := congrArg V3.z hD
    simp only [sub_x, sub_y, sub_z, add_x, add_y, add_z, smul_x, smul_y, smul_z] at ex ey ez
    apply V3.ext <;> simp only [smul_x, smul_y, smul_z] <;> linarith
  rw [hvb]
  have e : v - (0 : ℝ) • b = v := by vring
  rw [e]
  constructor
  · intro h
    rw [h] at hD'
    have := congrArg (fun x => x.dot v) hD'
    simp only [smul_dot] at this
    have : (n1 * ρ + γ - n2 * ρ') * v.dot v = 0 := by linear_combination -this
    linarith [(mul_eq_zero.1 this).resolve_right hv0]
  · intro h
    rw [h] at hD'
    have ex := congrArg V3.x hD'
    have ey := congrArg V3.y hD'
    have ez := congrArg V3.z hD'
    simp only [smul_x, smul_y, smul_z, mul_assoc] at ex ey ez
    apply V3.ext <;> simp only [smul_x, smul_y, smul_z] <;> exact mul_left_cancel₀ hn2 (by assumption)

theorem dot_self_ne_zero {v : V3} (h : v ≠ 0) : v.dot v ≠ 0 := by
  intro h0
  apply h
  simp only [V3.dot] at h0
  have a1 : v.x = 0 := by nlinarith [sq_nonneg v.x, sq_nonneg v.y, sq_nonneg v.z]
  have a2 : v.y = 0 := by nlinarith [sq_nonneg v.x, sq_nonneg v.y, sq_nonneg v.z]
  have a3 : v.z = 0 := by nlinarith [sq_nonneg v.x, sq_nonneg v.y, sq_nonneg v.z]
  exact V3.ext a1 a2 a3

/-- How the directions of a fan change. -/
theorem fan_bend {s : Surface} {l σ : ℝ} {f g : ℝ → Ray} {p d P D N : V3} (h : Fan s l σ f g p d P D N)
    (sm : SmoothNormal s.sag) {G : V3 → V3} (hG : RuledBy s l σ G) {G' : V3}
    (mG : Moving (fun t => G (s.frame.ipoint (g t).position)) G') {k : ℝ}
    (hk : Turns s.sag (s.frame.ipoint (g 0).position) (s.frame.ivec P) k) :
    N.dot N = 1 ∧ N.dot (s.frame.ivec P) = 0 ∧
    (∃ c : ℝ, (g 0).index • s.frame.ivec (g 0).direction - (f 0).index • s.frame.ivec (f 0).direction
      - G (s.frame.ipoint (g 0).position) = c • N) ∧
    ∃ c : ℝ, (g 0).index • s.frame.ivec D - (f 0).index • s.frame.ivec d - G'
      = c • N + (Fan.power s f g N (G (s.frame.ipoint (g 0).position)) * k) • s.frame.ivec P := by
  obtain ⟨n, hn⟩ : ∃ n : ℝ → V3, ∀ᶠ t in 𝓝 0, s.sag.normal (s.frame.ipoint (g t).position) = some (n t) := by
    refine ⟨fun t => (s.sag.normal (s.frame.ipoint (g t).position)).getD 0, ?_⟩
    filter_upwards [h.passes.traced] with t ht
    rcases hr : s.rulings with _ | ru
    · obtain ⟨u, hu, -⟩ := surface_plain ht hr
      rw [hu]; rfl
    · obtain ⟨u, hu, -⟩ := surface_ruled ht hr
      rw [hu]; rfl
  have hn0 : n 0 = N := by
    have := hn.self_of_nhds
    rw [h.normal, Option.some.injEq] at this
    exact this.symm
  have mq := h.behind.position.ipoint s.frame
  obtain ⟨un, -, tn, -, w, -, mn, -, -⟩ := sm _ _ n n _ _ mq mq rfl h.passes.lands h.passes.lands hn hn
  have hw : w = k • s.frame.ivec P := mn.unique (hk _ _ mq rfl h.passes.lands hn)
  have ma := h.before.direction.ivec s.frame
  have hside : ∀ᶠ t in 𝓝 0, sgn ((s.frame.ivec (f t).direction).dot (n t)) = σ := by
    have := ma.tendsto_dot mn
    rw [hn0] at this
    rw [← h.side]
    rcases lt_or_gt_of_ne (h.passes.aslant N h.normal) with hneg | hpos
    · filter_upwards [this.eventually (gt_mem_nhds hneg)] with t ht
      unfold sgn; rw [if_pos ht, if_pos hneg]
    · filter_upwards [this.eventually (lt_mem_nhds hpos)] with t ht
      rw [sgn_of_pos ht, sgn_of_pos hpos]
  have mX := (((h.behind.direction.ivec s.frame).const_smul (g 0).index).sub (ma.const_smul (f 0).index)).sub mG
  have along : ∀ᶠ t in 𝓝 0, ∃ c : ℝ, (g 0).index • s.frame.ivec (g t).direction
      - (f 0).index • s.frame.ivec (f t).direction - G (s.frame.ipoint (g t).position) = c • n t := by
    filter_upwards [h.passes.traced, hn, hside, h.before.index, h.behind.index, h.color] with t a1 a2 a3 a4 a5 a6
    have := bend_along hG a1 a6 a2 (by rw [a4]; exact h.before.pos) (by rw [a5]; exact h.behind.pos) a3
    rwa [a4, a5] at this
  have along' : ∀ᶠ t in 𝓝 0, (g 0).index • s.frame.ivec (g t).direction
      - (f 0).index • s.frame.ivec (f t).direction - G (s.frame.ipoint (g t).position)
      = (((g 0).index • s.frame.ivec (g t).direction
      - (f 0).index • s.frame.ivec (f t).direction - G (s.frame.ipoint (g t).position)).dot (n t)) • n t := by
    filter_upwards [along, un] with t ⟨c, hc⟩ hu
    rw [hc, smul_dot, hu, mul_one]
  refine ⟨by rw [← hn0]; exact un.self_of_nhds, by rw [← hn0]; exact tn, ?_, ?_⟩
  · have := along.self_of_nhds
    rwa [hn0] at this
  · have e := mX.unique ((Moving.smul (mX.dot mn) mn).congr along')
    rw [hn0, hw] at e
    generalize ((g 0).index • s.frame.ivec D - (f 0).index • s.frame.ivec d - G').dot N
      + ((g 0).index • s.frame.ivec (g 0).direction - (f 0).index • s.frame.ivec (f 0).direction
        - G (s.frame.ipoint (g 0).position)).dot (k • s.frame.ivec P) = c at e
    refine ⟨c, e.trans ?_⟩
    unfold Fan.power
    simp only [sub_dot, smul_dot]
    vring

theorem Moving.cross {p q : ℝ → V3} {v w : V3} (hp : Moving p v) (hq : Moving q w) :
    Moving (fun t => (p t).cross (q t)) (v.cross (q 0) + (p 0).cross w) := by
  constructor
  · refine ((hp.y.mul hq.z).sub (hp.z.mul hq.y)).congr_deriv ?_
    vsimp; ring
  · refine ((hp.z.mul hq.x).sub (hp.x.mul hq.z)).congr_deriv ?_
    vsimp; ring
  · refine ((hp.x.mul hq.y).sub (hp.y.mul hq.x)).congr_deriv ?_
    vsimp; ring

/-- A vector along a unit vector. -/
theorem cross_eq_zero_iff {x u : V3} (hu : u.dot u = 1) : u.cross x = 0 ↔ x = (x.dot u) • u := by
  constructor
  · intro h
    have ex := congrArg V3.x h
    have ey := congrArg V3.y h
    have ez := congrArg V3.z h
    simp only [V3.dot] at hu
    simp only [cross_x, cross_y, cross_z, zero_x, zero_y, zero_z] at ex ey ez
    apply V3.ext <;> simp only [V3.dot, smul_x, smul_y, smul_z]
    · linear_combination (-x.x) * hu + u.z * ey - u.y * ez
    · linear_combination (-x.y) * hu + u.x * ez - u.z * ex
    · linear_combination (-x.z) * hu + u.y * ex - u.x * ey
  · intro h
    rw [h]
    apply V3.ext <;> simp only [cross_x, cross_y, cross_z, smul_x, smul_y, smul_z, zero_x, zero_y, zero_z] <;> ring

/-- A fan in front of a surface, at the surface. -/
theorem sweep_run {f g : ℝ → Ray} {p d P : V3} (hs : Sweep f p d) (hm : Moving (fun t => (g t).position) P)
    (hl : ∀ᶠ t in 𝓝 0, ∃ c : ℝ, (g t).position = (f t).position + c • (f t).direction) :
    ∃ c c' : ℝ, (g 0).position = (f 0).position + c • (f 0).direction ∧
      P = p + c' • (f 0).direction + c • d := by
  have hc := (hm.sub hs.position).dot hs.direction
  have hm' := hs.position.add (Moving.smul hc hs.direction)
  have : ∀ᶠ t in 𝓝 0, (g t).position = (f t).position
      + (((g t).position - (f t).position).dot (f t).direction) • (f t).direction := by
    filter_upwards [hl, hs.unit] with t ⟨c, hc⟩ hu
    have e : ((g t).position - (f t).position).dot (f t).direction = c := by
      rw [hc]
      have : (f t).position + c • (f t).direction - (f t).position = c • (f t).direction := by vring
      rw [this, smul_dot, hu, mul_one]
    rw [e, ← hc]
  have e := hm.unique (hm'.congr this)
  refine ⟨((g 0).position - (f 0).position).dot (f 0).direction,
    (P - p).dot (f 0).direction + ((g 0).position - (f 0).position).dot d, this.self_of_nhds, e.trans ?_⟩
  generalize (P - p).dot (f 0).direction + ((g 0).position - (f 0).position).dot d = c'
  generalize ((g 0).position - (f 0).position).dot (f 0).direction = c
  vring

/-- How the rays of a fan diverge. -/
theorem diverges_iff {f : ℝ → Ray} {p d P Q : V3} (h : Sweep f p d) {c c' : ℝ}
    (hQ : Q = (f 0).position + c • (f 0).direction) (hP : P = p + c' • (f 0).direction + c • d) (ρ : ℝ) :
    Diverges f d Q ρ ↔ d = ρ • (P - (P.dot (f 0).direction) • (f 0).direction) := by
  unfold Diverges
  split_ifs with hρ
  · rw [hρ]
    have : (0 : ℝ) • (P - (P.dot (f 0).direction) • (f 0).direction) = 0 := by vring
    rw [this]
  have hu := h.unit.self_of_nhds
  have hud := h.direction.unit_perp h.unit
  have m := ((Moving.const (Q - (1 / ρ) • (f 0).direction)).sub h.position).cross h.direction
  have ev : ((0 : V3) - p).cross (f 0).direction + (Q - (1 / ρ) • (f 0).direction - (f 0).position).cross d
      = (f 0).direction.cross (P - (1 / ρ) • d) := by
    rw [hP, hQ]
    apply V3.ext <;> vsimp <;> ring
  rw [ev] at m
  have e3 : (P - (1 / ρ) • d).dot (f 0).direction = P.dot (f 0).direction := by
    rw [sub_dot, smul_dot, dot_comm d, hud]; ring
  have iff1 : Meets f (Q - (1 / ρ) • (f 0).direction) ↔ (f 0).direction.cross (P - (1 / ρ) • d) = 0 := by
    constructor
    · intro hm
      exact m.unique hm.2
    · intro e
      rw [e] at m
      exact ⟨by rw [hQ]; apply V3.ext <;> vsimp <;> ring, m⟩
  rw [iff1, cross_eq_zero_iff hu, e3]
  constructor
  · intro e2
    have ex := congrArg V3.x e2
    have ey := congrArg V3.y e2
    have ez := congrArg V3.z e2
    simp only [sub_x, sub_y, sub_z, smul_x, smul_y, smul_z] at ex ey ez
    apply V3.ext <;> simp only [sub_x, sub_y, sub_z, smul_x, smul_y, smul_z]
    · rw [← ex]; field_simp; ring
    · rw [← ey]; field_simp; ring
    · rw [← ez]; field_simp; ring
  · intro e2
    have ex := congrArg V3.x e2
    have ey := congrArg V3.y e2
    have ez := congrArg V3.z e2
    simp only [sub_x, sub_y, sub_z, smul_x, smul_y, smul_z] at ex ey ez
    apply V3.ext <;> simp only [sub_x, sub_y, sub_z, smul_x, smul_y, smul_z]
    · rw [ex]; field_simp; ring
    · rw [ey]; field_simp; ring
    · rw [ez]; field_simp; ring

theorem diverges_before {s : Surface} {l σ : ℝ} {f g : ℝ → Ray} {p d P D N : V3} (h : Fan s l σ f g p d P D N)
    {ρ : ℝ} : Diverges f d (g 0).position ρ ↔ d = ρ • (P - (P.dot (f 0).direction) • (f 0).direction) := by
  obtain ⟨c, c', hc, hP⟩ := sweep_run h.before h.behind.position h.passes.line
  exact diverges_iff h.before hc hP ρ

theorem diverges_behind {s : Surface} {l σ : ℝ} {f g : ℝ → Ray} {p d P D N : V3} (h : Fan s l σ f g p d P D N)
    {ρ : ℝ} : Diverges g D (g 0).position ρ ↔ D = ρ • (P - (P.dot (g 0).direction) • (g 0).direction) :=
  diverges_iff h.behind (c := 0) (c' := 0) (by vring) (by vring) ρ

theorem ivec_inj (F : Rigid) {x y : V3} (h : F.ivec x = F.ivec y) : x = y := by
  have := congrArg F.vec h
  rwa [Rigid.vec_ivec, Rigid.vec_ivec] at this

theorem ivec_transverse (F : Rigid) (c : ℝ) (x u : V3) :
    F.ivec (c • (x - (x.dot u) • u)) = c • (F.ivec x - ((F.ivec x).dot (F.ivec u)) • F.ivec u) := by
  rw [Rigid.ivec_dot_ivec]
  simp only [Rigid.ivec]
  apply V3.ext <;> simp only [M3.mulVec, dot, sub_x, sub_y, sub_z, smul_x, smul_y, smul_z] <;> ring

/-! ## The foci -/

/-- **C101**: the focus of a narrow fan of rays in the plane of incidence. -/
theorem C101_tangential_varied {s : Surface} {l σ : ℝ} {f g : ℝ → Ray} {p d P D N : V3} (h : Fan s l σ f g p d P D N)
    (sm : SmoothNormal s.sag) {G : V3 → V3} (hG : RuledBy s l σ G) {G' : V3}
    (mG : Moving (fun t => G (s.frame.ipoint (g t).position)) G') {k : ℝ}
    (hk : Turns s.sag (s.frame.ipoint (g 0).position) (s.frame.ivec P) k) {e : V3} (he : e.dot e = 1)
    (heN : e.dot N = 0) (hea : e.dot (s.frame.ivec (f 0).direction) = 0) (hev : e.dot (s.frame.ivec P) = 0)
    (heG : e.dot (G (s.frame.ipoint (g 0).position)) = 0) (heG' : e.dot G' = 0) {ρ ρ' : ℝ}
    (source : Diverges f d (g 0).position ρ) :
    Diverges g D (g 0).position ρ' ↔
      (g 0).index * (N.dot (s.frame.ivec (g 0).direction)) ^ 2 * ρ'
        = (f 0).index * (N.dot (s.frame.ivec (f 0).direction)) ^ 2 * ρ
          + Fan.power s f g N (G (s.frame.ipoint (g 0).position)) * k
          + G'.dot (s.frame.ivec P) / P.dot P := by
  obtain ⟨hN, hNv, ⟨c0, hc0⟩, c, hc⟩ := fan_bend h sm hG mG hk
  rw [diverges_behind h]
  have hn2 : (g 0).index ≠ 0 := h.behind.pos.ne'
  have heb : e.dot (s.frame.ivec (g 0).direction) = 0 := by
    have := congrArg (fun x => e.dot x) hc0
    simp only [dot_sub, dot_smul, hea, heG, heN] at this
    have : (g 0).index * e.dot (s.frame.ivec (g 0).direction) = 0 := by linarith
    exact (mul_eq_zero.1 this).resolve_left hn2
  have key := tangential_algebra (ρ := ρ) (ρ' := ρ') hn2
    (by rw [Rigid.ivec_dot_ivec]; exact h.before.unit.self_of_nhds)
    (by rw [Rigid.ivec_dot_ivec]; exact h.behind.unit.self_of_nhds) hN hNv
    (by rw [Rigid.ivec_dot_ivec]; exact dot_self_ne_zero h.wide)
    (by rw [Rigid.ivec_dot_ivec]; exact h.behind.direction.unit_perp h.behind.unit)
    (by rw [← ivec_transverse, ← (diverges_before h).1 source]) hc he heN hea heb hev heG'
    (by rw [dot_comm]; exact h.leaves)
  rw [← ivec_transverse, Rigid.ivec_dot_ivec s.frame P P] at key
  refine (Iff.trans ⟨fun e => by rw [e], fun e => ivec_inj _ e⟩ key).trans ?_
  constructor
  · intro e; linear_combination -e
  · intro e; linear_combination -e

/-- **C101**: the focus of a narrow fan of rays perpendicular to the plane of incidence. -/
theorem C101_sagittal {s : Surface} {l σ : ℝ} {f g : ℝ → Ray} {p d P D N : V3} (h : Fan s l σ f g p d P D N)
    (sm : SmoothNormal s.sag) {G : V3 → V3} (hG : RuledBy s l σ G)
    (mG : Moving (fun t => G (s.frame.ipoint (g t).position)) 0) {k : ℝ}
    (hk : Turns s.sag (s.frame.ipoint (g 0).position) (s.frame.ivec P) k)
    (hPa : P.dot (f 0).direction = 0) (hPG : (s.frame.ivec P).dot (G (s.frame.ipoint (g 0).position)) = 0)
    {ρ ρ' : ℝ} (source : Diverges f d (g 0).position ρ) :
    Diverges g D (g 0).position ρ' ↔
      (g 0).index * ρ' = (f 0).index * ρ + Fan.power s f g N (G (s.frame.ipoint (g 0).position)) * k := by
  obtain ⟨hN, hNv, ⟨c0, hc0⟩, c, hc⟩ := fan_bend h sm hG mG hk
  rw [diverges_behind h]
  have hn2 : (g 0).index ≠ 0 := h.behind.pos.ne'
  have hva : (s.frame.ivec P).dot (s.frame.ivec (f 0).direction) = 0 := by rw [Rigid.ivec_dot_ivec, hPa]
  have hvb : (s.frame.ivec P).dot (s.frame.ivec (g 0).direction) = 0 := by
    have := congrArg (fun x => (s.frame.ivec P).dot x) hc0
    simp only [dot_sub, dot_smul, hva, hPG, dot_comm (s.frame.ivec P) N, hNv] at this
    have : (g 0).index * (s.frame.ivec P).dot (s.frame.ivec (g 0).direction) = 0 := by linarith
    exact (mul_eq_zero.1 this).resolve_left hn2
  have hc' : (g 0).index • s.frame.ivec D - (f 0).index • s.frame.ivec d
      = c • N + (Fan.power s f g N (G (s.frame.ipoint (g 0).position)) * k) • s.frame.ivec P := by
    rw [← hc]; vring
  have key := sagittal_algebra (ρ := ρ) (ρ' := ρ') hn2
    (by rw [Rigid.ivec_dot_ivec]; exact dot_self_ne_zero h.wide)
    (by rw [Rigid.ivec_dot_ivec]; exact h.behind.direction.unit_perp h.behind.unit)
    (by rw [← ivec_transverse, ← (diverges_before h).1 source]) hc' hva hvb (by rw [dot_comm]; exact h.leaves)
  rw [← ivec_transverse] at key
  refine (Iff.trans ⟨fun e => by rw [e], fun e => ivec_inj _ e⟩ key).trans ?_
  constructor
  · intro e; linear_combination -e
  · intro e; linear_combination -e

/-- **C101**: the focus of a narrow fan of rays in the plane of incidence, for a surface without rulings and for
straight equidistant rulings. -/
theorem C101_tangential {s : Surface} {l σ : ℝ} {f g : ℝ → Ray} {p d P D N : V3} (h : Fan s l σ f g p d P D N)
    (sm : SmoothNormal s.sag) {G : V3} (hG : RuledBy s l σ fun _ => G) {k : ℝ}
    (hk : Turns s.sag (s.frame.ipoint (g 0).position) (s.frame.ivec P) k) {e : V3} (he : e.dot e = 1)
    (heN : e.dot N = 0) (hea : e.dot (s.frame.ivec (f 0).direction) = 0) (hev : e.dot (s.frame.ivec P) = 0)
    (heG : e.dot G = 0) {ρ ρ' : ℝ} (source : Diverges f d (g 0).position ρ) :
    Diverges g D (g 0).position ρ' ↔
      (g 0).index * (N.dot (s.frame.ivec (g 0).direction)) ^ 2 * ρ'
        = (f 0).index * (N.dot (s.frame.ivec (f 0).direction)) ^ 2 * ρ + Fan.power s f g N G * k := by
  rw [C101_tangential_varied h sm hG (Moving.const _) hk he heN hea hev heG (by simp [dot]) source]
  have : (0 : V3).dot (s.frame.ivec P) = 0 := by simp [dot]
  rw [this, zero_div, add_zero]

/-- The direction of rays behind a mirror. -/
theorem mirror_bend {s : Surface} (plain : s.rulings = none) (hm : s.material.isMirror = true) {r out : Ray}
    (h : s.propagate r = some out) {N : V3} (hN : s.sag.normal (s.frame.ipoint out.position) = some N)
    (hn : out.index = r.index) (h0 : 0 < r.index) (hu : r.direction.dot r.direction = 1) :
    s.frame.ivec out.direction = s.frame.ivec r.direction - (2 * (s.frame.ivec r.direction).dot N) • N := by
  obtain ⟨u, hu', hs⟩ := surface_plain h plain
  rw [hN, Option.some.injEq] at hu'
  subst hu'
  rw [hm, hn, C02_reflection (by rw [Rigid.ivec_dot_ivec, hu]) h0.ne', Option.some.injEq] at hs
  exact hs.symm

theorem mirror_power {s : Surface} (plain : s.rulings = none) (hm : s.material.isMirror = true) {l σ : ℝ}
    {f g : ℝ → Ray} {p d P D N : V3} (h : Fan s l σ f g p d P D N) (hn : (g 0).index = (f 0).index)
    (hN : N.dot N = 1) : N.dot (s.frame.ivec (g 0).direction) = -N.dot (s.frame.ivec (f 0).direction) ∧
    Fan.power s f g N 0 = (f 0).index * (-2 * N.dot (s.frame.ivec (f 0).direction)) := by
  have hb := mirror_bend plain hm h.passes.traced.self_of_nhds h.normal hn h.before.pos h.before.unit.self_of_nhds
  have hNb : N.dot (s.frame.ivec (g 0).direction) = -N.dot (s.frame.ivec (f 0).direction) := by
    rw [hb, dot_sub, dot_smul, hN, dot_comm N]; ring
  refine ⟨hNb, ?_⟩
  unfold Fan.power
  have : (0 : V3).dot N = 0 := by simp [dot]
  rw [this, hn, dot_comm _ N, hNb, dot_comm _ N]; ring

/-- **C101**: mirrors are astigmatic: a fan in the plane of incidence gains the curvature divided by the cosine of
the angle of incidence, twice. -/
theorem C101_mirror_tangential {s : Surface} (plain : s.rulings = none) (hm : s.material.isMirror = true) {l σ : ℝ}
    {f g : ℝ → Ray} {p d P D N : V3} (h : Fan s l σ f g p d P D N) (hn : (g 0).index = (f 0).index)
    (sm : SmoothNormal s.sag) {k : ℝ} (hk : Turns s.sag (s.frame.ipoint (g 0).position) (s.frame.ivec P) k)
    {e : V3} (he : e.dot e = 1) (heN : e.dot N = 0) (hea : e.dot (s.frame.ivec (f 0).direction) = 0)
    (hev : e.dot (s.frame.ivec P) = 0) {ρ ρ' : ℝ} (source : Diverges f d (g 0).position ρ) :
    Diverges g D (g 0).position ρ' ↔ ρ' = ρ - 2 * k / N.dot (s.frame.ivec (f 0).direction) := by
  have hN := (fan_bend h sm (.inl ⟨plain, fun _ => rfl⟩) (Moving.const (0 : V3)) hk).1
  obtain ⟨e1, e2⟩ := mirror_power plain hm h hn hN
  rw [C101_tangential h sm (.inl ⟨plain, fun _ => rfl⟩) hk he heN hea hev (by simp [dot]) source, e1, e2, hn]
  have h0 : N.dot (s.frame.ivec (f 0).direction) ≠ 0 := by rw [dot_comm]; exact h.passes.aslant N h.normal
  have hi := h.before.pos.ne'
  generalize N.dot (s.frame.ivec (f 0).direction) = c at *
  generalize (f 0).index = n at *
  constructor
  · intro e
    have : (n * c) * (c * (ρ' - ρ) + 2 * k) = 0 := by linear_combination e
    have := (mul_eq_zero.1 this).resolve_left (mul_ne_zero hi h0)
    field_simp; linarith
  · intro e; rw [e]; field_simp; ring

/-- **C101**: mirrors are astigmatic: a fan perpendicular to the plane of incidence gains the curvature times the
cosine of the angle of incidence, twice. -/
theorem C101_mirror_sagittal {s : Surface} (plain : s.rulings = none) (hm : s.material.isMirror = true) {l σ : ℝ}
    {f g : ℝ → Ray} {p d P D N : V3} (h : Fan s l σ f g p d P D N) (hn : (g 0).index = (f 0).index)
    (sm : SmoothNormal s.sag) {k : ℝ} (hk : Turns s.sag (s.frame.ipoint (g 0).position) (s.frame.ivec P) k)
    (hPa : P.dot (f 0).direction = 0) {ρ ρ' : ℝ} (source : Diverges f d (g 0).position ρ) :
    Diverges g D (g 0).position ρ' ↔ ρ' = ρ - 2 * k * N.dot (s.frame.ivec (f 0).direction) := by
  have hN := (fan_bend h sm (.inl ⟨plain, fun _ => rfl⟩) (Moving.const (0 : V3)) hk).1
  obtain ⟨e1, e2⟩ := mirror_power plain hm h hn hN
  rw [C101_sagittal h sm (G := fun _ => 0) (.inl ⟨plain, fun _ => rfl⟩) (Moving.const _) hk hPa (by simp [dot]) source,
    e2, hn]
  have hi := h.before.pos.ne'
  generalize N.dot (s.frame.ivec (f 0).direction) = c at *
  generalize (f 0).index = n at *
  constructor
  · intro e
    have : n * (ρ' - (ρ - 2 * k * c)) = 0 := by linear_combination e
    linarith [(mul_eq_zero.1 this).resolve_left hi]
  · intro e; rw [e]; ring

/-! ## Rulings -/

/-- **C101**: what `Rulings` with a plain number as spacing add, in the direction of `x`. -/
theorem C101_ideal_rulings {s : Surface} {δ m : ℝ} (hs : s.rulings = some (idealRulings δ m)) (l σ : ℝ) :
    RuledBy s l σ fun _ => ⟨σ * (m * l / δ), 0, 0⟩ := by
  refine .inr ⟨_, fun _ => δ, ⟨1, 0, 0⟩, hs, by simp [dot], fun q u => rfl, fun q _ => ?_⟩
  apply V3.ext <;> simp [idealRulings]

/-- **C06**: rulings with a plain number as spacing are perpendicular to `x`: a ray behind the surface obeys the
grating equation with this number and this direction. -/
theorem C06_ideal_rulings {s : Surface} {r out : Ray} (h : s.propagate r = some out) {δ m : ℝ} (hδ : δ ≠ 0)
    (hs : s.rulings = some (idealRulings δ m)) {u : V3}
    (hu : s.sag.normal (s.frame.ipoint out.position) = some u) (hx : u.x = 0) (hu1 : u.dot u = 1)
    (h1 : 0 < r.index) (h2 : 0 < out.index) (hau : (s.frame.ivec r.direction).dot u ≠ 0) :
    PhaseMatched (s.frame.ivec r.direction) (s.frame.ivec out.direction) r.index out.index u
      ⟨(if (s.frame.ivec r.direction).dot u < 0 then -1 else 1) * (m * r.wavelength / δ), 0, 0⟩ := by
  have := (C06_surface h hs (g := ⟨1, 0, 0⟩) (d := δ) hu rfl hδ (by simp [dot, hx]) (by simp [dot]) hu1 h1 h2 hau).1
  generalize (if (s.frame.ivec r.direction).dot u < 0 then (-1 : ℝ) else 1) = c at this ⊢
  convert this using 1
  apply V3.ext <;> simp [idealRulings]

/-- **C101**: the focus of a narrow fan in the plane of incidence behind a grating with varied line spacing: besides
the spacing at the ray, its slope counts. -/
theorem C101_varied_line_spacing {s : Surface} {ru : RulingProfile} {coefficients : List (ℕ × ℝ)} {γ : V3}
    (hγ : γ.dot γ = 1) (hr : s.rulings = some ru) (hsp : ru.spacing = polynomialSpacing coefficients γ none)
    {l σ : ℝ} {f g : ℝ → Ray} {p d P D N : V3} (h : Fan s l σ f g p d P D N)
    (sm : SmoothNormal s.sag) {δ δ' : ℝ}
    (hδ : δ = (spacingPolynomial coefficients).eval ((s.frame.ipoint (g 0).position).dot γ)) (hδ0 : δ ≠ 0)
    (hδ' : δ' = (spacingPolynomial coefficients).derivative.eval ((s.frame.ipoint (g 0).position).dot γ)) {k : ℝ}
    (hk : Turns s.sag (s.frame.ipoint (g 0).position) (s.frame.ivec P) k) {e : V3} (he : e.dot e = 1)
    (heN : e.dot N = 0) (hea : e.dot (s.frame.ivec (f 0).direction) = 0) (hev : e.dot (s.frame.ivec P) = 0)
    (heγ : e.dot γ = 0) {ρ ρ' : ℝ} (source : Diverges f d (g 0).position ρ) :
    Diverges g D (g 0).position ρ' ↔
      (g 0).index * (N.dot (s.frame.ivec (g 0).direction)) ^ 2 * ρ'
        = (f 0).index * (N.dot (s.frame.ivec (f 0).direction)) ^ 2 * ρ
          + Fan.power s f g N ((σ * (ru.order * l / δ)) • γ) * k
          - σ * ru.order * l * δ' / δ ^ 2 * (γ.dot (s.frame.ivec P) ^ 2 / P.dot P) := by
  set F : V3 → ℝ := fun q => (spacingPolynomial coefficients).eval (q.dot γ) with hF
  have hG : RuledBy s l σ fun q => (σ * (ru.order * l / F q)) • γ := by
    refine .inr ⟨ru, F, γ, hr, hγ, fun q u => ?_, fun q _ => rfl⟩
    rw [hsp, hF]
    unfold polynomialSpacing
    simp only [polyEval_eq]
  have mq := h.behind.position.ipoint s.frame
  have mx : HasDerivAt (fun t => (s.frame.ipoint (g t).position).dot γ) ((s.frame.ivec P).dot γ) 0 := by
    refine (mq.dot (Moving.const γ)).congr_deriv ?_
    simp [dot]
  have mF : HasDerivAt (fun t => F (s.frame.ipoint (g t).position)) (δ' * (s.frame.ivec P).dot γ) 0 := by
    rw [hδ']
    exact ((spacingPolynomial coefficients).hasDerivAt _).comp (0 : ℝ) mx
  have hF0 : F (s.frame.ipoint (g 0).position) = δ := hδ.symm
  have mG : Moving (fun t => (σ * (ru.order * l / F (s.frame.ipoint (g t).position))) • γ)
      ((-(σ * ru.order * l * δ' / δ ^ 2 * (s.frame.ivec P).dot γ)) • γ) := by
    have m1 := (mF.inv (by rw [hF0]; exact hδ0)).const_mul (σ * ru.order * l)
    rw [hF0] at m1
    have := Moving.smul (p := fun _ => γ) m1 (Moving.const γ)
    have e : (σ * ru.order * l * (-(δ' * (s.frame.ivec P).dot γ) / δ ^ 2)) • γ
        + ((σ * ru.order * l) * (F (s.frame.ipoint (g 0).position))⁻¹) • (0 : V3)
        = (-(σ * ru.order * l * δ' / δ ^ 2 * (s.frame.ivec P).dot γ)) • γ := by
      apply V3.ext <;> vsimp <;> ring
    refine (e ▸ this).congr (Eventually.of_forall fun t => ?_)
    simp only [Pi.inv_apply]
    congr 1
    ring
  have key := C101_tangential_varied h sm hG mG hk he heN hea hev (by rw [dot_smul, heγ, mul_zero])
    (by rw [dot_smul, heγ, mul_zero]) (ρ' := ρ') source
  rw [hF0] at key
  rw [key, smul_dot, dot_comm γ]
  have : -(σ * ru.order * l * δ' / δ ^ 2 * (s.frame.ivec P).dot γ) * (s.frame.ivec P).dot γ / P.dot P
      = -(σ * ru.order * l * δ' / δ ^ 2 * ((s.frame.ivec P).dot γ ^ 2 / P.dot P)) := by ring
  rw [this, ← sub_eq_add_neg]

/-! ## Curvatures of the sags -/

theorem turns_of_gradient {sag : Sag} {G : V3 → V3} {M : V3 → V3 → V3} (hg : HasGradient sag G M)
    {q v : V3} {μ c : ℝ} (hμ : (G q).dot v = 0 → M q v = μ • v + c • G q) :
    Turns sag q v (μ / Real.sqrt ((G q).dot (G q))) := by
  intro x n mx h0 hon hnn
  obtain ⟨h1, hnv, hGv, c', hm⟩ := normal_of_gradient hg x n v mx hon hnn
  rw [h0] at hm hGv
  have hμ := hμ hGv
  obtain ⟨u1, κ, hκ, he⟩ := hg.along _ _ hon.self_of_nhds hnn.self_of_nhds
  rw [h0] at he
  have hperp := hm.unit_perp h1
  have hGG : (G q).dot (G q) ≠ 0 := by
    intro h
    rw [he, smul_dot, dot_smul, h] at u1
    simp at u1
  have hc : c' + c / Real.sqrt ((G q).dot (G q)) = 0 := by
    rw [he, hμ] at hperp
    simp only [smul_dot, dot_add, dot_smul, hGv] at hperp
    have : (κ * (G q).dot (G q)) * (c' + c / Real.sqrt ((G q).dot (G q))) = 0 := by
      linear_combination hperp
    exact (mul_eq_zero.1 this).resolve_left (mul_ne_zero hκ.ne' hGG)
  have : c' • G q + (1 / Real.sqrt ((G q).dot (G q))) • M q v = (μ / Real.sqrt ((G q).dot (G q))) • v := by
    have hc' : c' = -(c / Real.sqrt ((G q).dot (G q))) := by linarith
    rw [hμ, hc']
    apply V3.ext <;> vsimp <;> ring
  rw [this] at hm
  exact hm

/-- **C101**: a plane is flat. -/
theorem C101_flat (q v : V3) : Turns flatSag q v 0 := by
  intro x n mx h0 hon hnn
  have : ∀ᶠ t in 𝓝 0, n t = (⟨0, 0, -1⟩ : V3) := by
    filter_upwards [hnn] with t ht
    have ht : some (⟨0, 0, -1⟩ : V3) = some (n t) := ht
    rw [Option.some.injEq] at ht
    exact ht.symm
  have m := (Moving.const (⟨0, 0, -1⟩ : V3)).congr this
  rwa [show (0 : ℝ) • v = 0 by vring]

/-- **C101**: the curvature of a sphere is the inverse of its radius, in all directions. -/
theorem C101_sphere (R : ℝ) (q v : V3) : Turns (sphereSag R) q v (1 / R) := by
  intro x n mx h0 hon hnn
  have : ∀ᶠ t in 𝓝 0, n t = (1 / R) • (x t - ⟨0, 0, R⟩) := by
    filter_upwards [hon, hnn] with t ho ht
    exact (sphereNormal_eq ho ht).2.1
  have m := ((mx.sub (Moving.const ⟨0, 0, R⟩)).const_smul (1 / R)).congr this
  rwa [show v - 0 = v by vring] at m

/-- The curvatures of surfaces whose normal is along `⟨x, y, (1 + K) z - R⟩`. -/
theorem conic_turns {sag : Sag} {R K : ℝ} (hg : HasGradient sag (fun q => (1 / R) • ⟨q.x, q.y, (1 + K) * q.z - R⟩)
      (fun _ v => (1 / R) • ⟨v.x, v.y, (1 + K) * v.z⟩)) {q v : V3}
    (hq : q.x ^ 2 + q.y ^ 2 + (1 + K) * q.z ^ 2 = 2 * R * q.z) {L : ℝ} (hL : 0 < L * R)
    (hL2 : L ^ 2 = R ^ 2 - K * (q.x ^ 2 + q.y ^ 2)) :
    (v.z = 0 → Turns sag q v (1 / L)) ∧ (v.x * q.y = v.y * q.x → Turns sag q v (R ^ 2 / L ^ 3)) := by
  have hR : R ≠ 0 := by rintro rfl; simp at hL
  have hL0 : L ≠ 0 := by rintro rfl; simp at hL
  have hG : q.x ^ 2 + q.y ^ 2 + ((1 + K) * q.z - R) ^ 2 = L ^ 2 := by
    rw [hL2]; linear_combination (1 + K) * hq
  have hs : Real.sqrt (((1 / R) • (⟨q.x, q.y, (1 + K) * q.z - R⟩ : V3)).dot
      ((1 / R) • ⟨q.x, q.y, (1 + K) * q.z - R⟩)) = L / R := by
    have e : ((1 / R) • (⟨q.x, q.y, (1 + K) * q.z - R⟩ : V3)).dot
        ((1 / R) • ⟨q.x, q.y, (1 + K) * q.z - R⟩) = (L / R) ^ 2 := by
      simp only [dot, smul_x, smul_y, smul_z]
      rw [div_pow, ← hG]; field_simp
    rw [e, Real.sqrt_sq]
    have : L / R = L * R / R ^ 2 := by field_simp
    rw [this]; positivity
  constructor
  · intro hv
    have := turns_of_gradient hg (q := q) (v := v) (μ := 1 / R) (c := 0) (fun _ => by
      apply V3.ext <;> vsimp <;> first | ring1 | (rw [hv]; ring1))
    rw [hs] at this
    convert this using 1
    field_simp
  · intro hv
    have := turns_of_gradient hg (q := q) (v := v) (μ := R / L ^ 2) (c := K * v.z * ((1 + K) * q.z - R) / L ^ 2) (by
      intro ht
      simp only [dot, smul_x, smul_y, smul_z] at ht
      have ht : q.x * v.x + q.y * v.y + ((1 + K) * q.z - R) * v.z = 0 := by
        field_simp at ht
        linarith
      apply V3.ext <;> vsimp <;> field_simp
      · rw [hL2]; linear_combination (-K * q.x) * ht - K * q.y * hv
      · rw [hL2]; linear_combination (-K * q.y) * ht + K * q.x * hv
      · rw [hL2]; rw [hL2] at hG
        linear_combination (-K * v.z) * hG)
    rw [hs] at this
    convert this using 1
    field_simp

/-- **C101**: the curvatures of a conic, around and along its meridians. -/
theorem C101_conic {R K : ℝ} {q v : V3} (hq : OnGraph (conicHeight R K) q) {L : ℝ} (hL : 0 < L * R)
    (hL2 : L ^ 2 = R ^ 2 - K * (q.x ^ 2 + q.y ^ 2)) :
    (v.z = 0 → Turns (conicSag R K) q v (1 / L)) ∧
      (v.x * q.y = v.y * q.x → Turns (conicSag R K) q v (R ^ 2 / L ^ 3)) := by
  refine conic_turns (conic_gradient R K) ?_ hL hL2
  obtain ⟨hR, h, -⟩ := onGraph_conic.1 hq
  field_simp at h
  linarith

/-- **C101**: the curvatures of a paraboloid, around and along its meridians. -/
theorem C101_parabola {f : ℝ} {q v : V3} (hq : OnGraph (parabolaHeight f) q) {L : ℝ} (hL : 0 < L * f)
    (hL2 : L ^ 2 = 4 * f ^ 2 + (q.x ^ 2 + q.y ^ 2)) :
    (v.z = 0 → Turns (parabolaSag f) q v (1 / L)) ∧
      (v.x * q.y = v.y * q.x → Turns (parabolaSag f) q v (4 * f ^ 2 / L ^ 3)) := by
  have hg := parabola_gradient f
  have e1 : (fun q : V3 => (1 / (2 * f)) • (⟨q.x, q.y, -(2 * f)⟩ : V3))
      = fun q => (1 / (2 * f)) • ⟨q.x, q.y, (1 + -1) * q.z - 2 * f⟩ := by
    funext q; congr 2; ring
  have e2 : (fun _ v : V3 => (1 / (2 * f)) • (⟨v.x, v.y, 0⟩ : V3))
      = fun _ v => (1 / (2 * f)) • ⟨v.x, v.y, (1 + -1) * v.z⟩ := by
    funext q v; congr 2; ring
  rw [e1, e2] at hg
  have := conic_turns hg (q := q) (v := v) (L := L) (by linear_combination (onGraph_parabola.1 hq).2)
    (by linarith) (by rw [hL2]; ring)
  rwa [mul_pow, show (2 : ℝ) ^ 2 = 4 by norm_num] at this

/-- **C101**: a cylinder is curved across its axis and straight along it. -/
theorem C101_cylinder {R : ℝ} {q v : V3} (hq : OnGraph (cylinderHeight R) q) :
    (v.y = 0 → Turns (cylinderSag R) q v (1 / R)) ∧ (v.x = 0 → v.z = 0 → Turns (cylinderSag R) q v 0) := by
  obtain ⟨hR, h, -⟩ := onGraph_cylinder.1 hq
  have hs : Real.sqrt (((1 / R) • (⟨q.x, 0, q.z - R⟩ : V3)).dot ((1 / R) • ⟨q.x, 0, q.z - R⟩)) = 1 := by
    have : ((1 / R) • (⟨q.x, 0, q.z - R⟩ : V3)).dot ((1 / R) • ⟨q.x, 0, q.z - R⟩) = 1 := by
      simp only [dot, smul_x, smul_y, smul_z]; field_simp; linarith
    rw [this, Real.sqrt_one]
  constructor
  · intro hv
    have := turns_of_gradient (cylinder_gradient R) (q := q) (v := v) (μ := 1 / R) (c := 0) (fun _ => by
      apply V3.ext <;> vsimp <;> first | ring1 | (rw [hv]; ring1))
    rwa [hs, div_one] at this
  · intro hx hz
    have := turns_of_gradient (cylinder_gradient R) (q := q) (v := v) (μ := 0) (c := 0) (fun _ => by
      apply V3.ext <;> vsimp <;> first | ring1 | (rw [hx]; ring1) | (rw [hz]; ring1))
    rwa [hs, div_one] at this

/-- **C101**: on its circle in the plane `y = 0` a torus has the inverse radii as curvatures. -/
theorem C101_torus {R r : ℝ} (hr : 0 < r) {S : Sag} (hh : S.height = torusHeight R r)
    (hn : S.normal = torusNormal R r) {q v : V3} (hq : OnGraph S.height q) (hy : q.y = 0) :
    (v.y = 0 → Turns S q v (1 / r)) ∧ (v.x = 0 → v.z = 0 → Turns S q v (1 / R)) := by
  rw [hh] at hq
  unfold OnGraph torusHeight at hq
  simp only [Option.bind_eq_bind, Option.bind_eq_some_iff, div?_eq_some, sqrt?_eq_some,
    Option.pure_def, Option.some.injEq] at hq
  obtain ⟨_, ⟨hR, rfl⟩, _, ⟨h0, rfl⟩, _, ⟨h1, rfl⟩, _, ⟨h2, rfl⟩, h3⟩ := hq
  have hsl : torusSlope R r q.y = 0 := by rw [hy]; unfold torusSlope; simp
  have hs : Real.sqrt ((⟨q.x, torusSlope R r q.y, -(r - q.z)⟩ : V3).dot
      ⟨q.x, torusSlope R r q.y, -(r - q.z)⟩) = r := by
    rw [hsl]
    rw [hy] at h2 h3
    have e : (r - q.z) ^ 2 = r ^ 2 - q.x ^ 2 := by
      rw [← h3, sub_sub_cancel, Real.sq_sqrt h2]; ring
    have : (⟨q.x, 0, -(r - q.z)⟩ : V3).dot ⟨q.x, 0, -(r - q.z)⟩ = r ^ 2 := by
      simp only [dot]; linear_combination e
    rw [this, Real.sqrt_sq hr.le]
  have hd : HasDerivAt (torusSlope R r) (r / R) 0 := by
    have hg : HasDerivAt (fun y : ℝ => Real.sqrt (1 - (1 / R) ^ 2 * y ^ 2)) 0 0 := by
      have := (((hasDerivAt_id (0 : ℝ)).pow 2).const_mul ((1 / R) ^ 2)).const_sub 1
      refine (this.sqrt (by simp)).congr_deriv (by simp)
    have hz := (((hasDerivAt_id (0 : ℝ)).pow 2).const_mul (1 / R)).div (hg.const_add 1) (by simp)
    have := (hz.const_sub r).mul (((hasDerivAt_id (0 : ℝ)).const_mul (1 / R)).div hg (by simp))
    refine (this.congr_deriv ?_)
    simp
    field_simp
  have tg := torus_gradient R r S hh hn
  constructor
  · intro hv
    have := turns_of_gradient tg (q := q) (v := v) (μ := 1) (c := 0) (fun _ => by
      apply V3.ext <;> vsimp <;> first | ring1 | (rw [hv]; ring1))
    rwa [hs] at this
  · intro hx hz
    have := turns_of_gradient tg (q := q) (v := v) (μ := r / R) (c := 0) (fun _ => by
      rw [hy, hd.deriv]
      apply V3.ext <;> vsimp <;> first | ring1 | (rw [hx]; ring1) | (rw [hz]; ring1))
    rw [hs] at this
    convert this using 1
    field_simp

/-! ## The circle of Rowland -/

/-- Two points on a ray, of which one is seen from the other and from `C` at a right angle. -/
theorem thales {Q C F u : V3} {x : ℝ} (hF : F = Q + x • u) (hu : u.dot u = 1) (hne : F ≠ Q)
    (h : (F - Q).dot (F - C) = 0) : x = (C - Q).dot u ∧ x ≠ 0 := by
  have hx : x ≠ 0 := by
    rintro rfl
    apply hne
    rw [hF]; vring
  refine ⟨?_, hx⟩
  have e : (F - Q).dot (F - C) = x * (x * u.dot u - (C - Q).dot u) := by
    rw [hF]; simp only [dot, add_x, add_y, add_z, sub_x, sub_y, sub_z, smul_x, smul_y, smul_z]; ring
  rw [e, hu] at h
  linarith [(mul_eq_zero.1 h).resolve_left hx]

theorem diverges_meets {f : ℝ → Ray} {d Q F : V3} {x : ℝ} (hx : x ≠ 0) (hF : F = Q + x • (f 0).direction) :
    Diverges f d Q (-(1 / x)) ↔ Meets f F := by
  unfold Diverges
  rw [if_neg (by simpa using hx)]
  have : Q - (1 / -(1 / x)) • (f 0).direction = F := by
    rw [hF]
    apply V3.ext <;> vsimp <;> field_simp <;> ring
  rw [this]

/-- **C101**: the circle of Rowland. The circle over the segment from a point `Q` of a spherical surface to its centre
of curvature `C`, in the plane of incidence, is imaged to itself by a narrow fan in this plane: light from a point of
the circle meets at a point of the circle, whatever the order, the wavelength and the indices of refraction; rulings
are straight and equidistant, and perpendicular to the normal at `Q`. -/
theorem C101_rowland {s : Surface} {R : ℝ} (hs : s.sag = sphereSag R) {l σ : ℝ} {f g : ℝ → Ray} {p d P D N : V3}
    (h : Fan s l σ f g p d P D N) {G : V3} (hG : RuledBy s l σ fun _ => G) (hGN : G.dot N = 0)
    {e : V3} (he : e.dot e = 1) (heN : e.dot N = 0) (hea : e.dot (s.frame.ivec (f 0).direction) = 0)
    (hev : e.dot (s.frame.ivec P) = 0) (heG : e.dot G = 0)
    {C : V3} (hC : C = s.frame.point ⟨0, 0, R⟩)
    {S : V3} {x : ℝ} (hS : S = (g 0).position + x • (f 0).direction) (hSQ : S ≠ (g 0).position)
    (circle : (S - (g 0).position).dot (S - C) = 0) (source : Meets f S)
    {F : V3} {y : ℝ} (hF : F = (g 0).position + y • (g 0).direction) (hFQ : F ≠ (g 0).position)
    (circle' : (F - (g 0).position).dot (F - C) = 0) : Meets g F := by
  obtain ⟨hx, hx0⟩ := thales hS h.before.unit.self_of_nhds hSQ circle
  obtain ⟨hy, hy0⟩ := thales hF h.behind.unit.self_of_nhds hFQ circle'
  have hland : OnGraph (sphereHeight R) (s.frame.ipoint (g 0).position) := by
    have := h.passes.lands.self_of_nhds
    unfold Surface.Contains at this
    rwa [hs] at this
  have hnormal : sphereNormal R (s.frame.ipoint (g 0).position) = some N := by
    have := h.normal
    rwa [hs] at this
  obtain ⟨hR, hN, -, -⟩ := sphereNormal_eq hland hnormal
  have key : ∀ u, (C - (g 0).position).dot u = -(R * N.dot (s.frame.ivec u)) := by
    intro u
    rw [← Rigid.ivec_dot_ivec s.frame, hN, smul_dot]
    have : s.frame.ivec (C - (g 0).position) = -(s.frame.ipoint (g 0).position - ⟨0, 0, R⟩) := by
      have e1 : s.frame.ivec (C - (g 0).position) = s.frame.ipoint C - s.frame.ipoint (g 0).position := by
        simp only [Rigid.ivec, Rigid.ipoint]
        apply V3.ext <;> simp only [M3.mulVec, dot, sub_x, sub_y, sub_z] <;> ring
      rw [e1, hC, Rigid.ipoint_point]; vring
    rw [this]
    have : ∀ a b : V3, (-a).dot b = -(a.dot b) := fun a b => by simp only [dot, neg_x, neg_y, neg_z]; ring
    rw [this]
    field_simp
  rw [key] at hx hy
  have sm : SmoothNormal s.sag := by rw [hs]; exact C100_sphere R
  have ht : Turns s.sag (s.frame.ipoint (g 0).position) (s.frame.ivec P) (1 / R) := by
    rw [hs]; exact C101_sphere R _ _
  rw [← diverges_meets (d := d) hx0 hS] at source
  rw [← diverges_meets (d := D) hy0 hF, C101_tangential h sm hG ht he heN hea hev heG source]
  unfold Fan.power
  rw [hGN, dot_comm _ N, dot_comm _ N, hx, hy]
  rw [hx] at hx0
  rw [hy] at hy0
  have ha : N.dot (s.frame.ivec (f 0).direction) ≠ 0 := by rintro h; rw [h] at hx0; simp at hx0
  have hb : N.dot (s.frame.ivec (g 0).direction) ≠ 0 := by rintro h; rw [h] at hy0; simp at hy0
  field_simp
  ring

/-! ## Examples -/

/-- A ray from the centre of curvature of a concave mirror. -/
noncomputable def centreRay (t : ℝ) : Ray := ⟨1, ⟨0, 0, -1⟩, ⟨Real.sin t, 0, Real.cos t⟩, 1, 0, 1, true⟩

/-- The ray, reflected by the mirror. -/
noncomputable def centreReflected (t : ℝ) : Ray :=
  ⟨1, ⟨Real.sin t, 0, Real.cos t - 1⟩, ⟨-Real.sin t, 0, -Real.cos t⟩, 1, 0, 1, true⟩

theorem centre_on {t : ℝ} (h : 0 < Real.cos t) :
    OnGraph (sphereHeight (-1)) ⟨Real.sin t, 0, Real.cos t - 1⟩ :=
  onGraph_sphere.2 ⟨by norm_num, by nlinarith [Real.sin_sq_add_cos_sq t], by nlinarith⟩

theorem centre_normal {t : ℝ} (h : 0 < Real.cos t) :
    sphereNormal (-1) ⟨Real.sin t, 0, Real.cos t - 1⟩ = some ⟨-Real.sin t, 0, -Real.cos t⟩ := by
  have e : 1 - Real.sin t ^ 2 = Real.cos t ^ 2 := by linarith [Real.sin_sq_add_cos_sq t]
  simp only [sphereNormal, div?_of_ne (show (-1 : ℝ) ≠ 0 by norm_num), Option.bind_eq_bind, Option.bind_some]
  have e2 : 1 - (1 / (-1) * Real.sin t) ^ 2 - (1 / (-1) * 0) ^ 2 = Real.cos t ^ 2 := by rw [← e]; ring
  rw [e2]
  simp only [sqrt?]
  rw [if_neg (by nlinarith), Real.sqrt_sq h.le]
  simp

theorem centre_traced {t : ℝ} (h : 0 < Real.cos t) :
    (⟨sphereSag (-1), mirror, none, none, none⟩ : Surface).propagate (centreRay t) = some (centreReflected t) := by
  have e : Real.sin t ^ 2 + Real.cos t ^ 2 = 1 := Real.sin_sq_add_cos_sq t
  have hs : snellsLaw ⟨Real.sin t, 0, Real.cos t⟩ 1 1 true ⟨-Real.sin t, 0, -Real.cos t⟩
      = some ⟨-Real.sin t, 0, -Real.cos t⟩ := by
    rw [C02_reflection (by simp only [dot]; linarith) one_ne_zero, Option.some.injEq]
    have : (⟨Real.sin t, 0, Real.cos t⟩ : V3).dot ⟨-Real.sin t, 0, -Real.cos t⟩ = -1 := by
      simp only [dot]; linarith
    rw [this]
    apply V3.ext <;> vsimp <;> ring
  have hi : sphereIntercept (-1) ⟨0, 0, -1⟩ ⟨Real.sin t, 0, Real.cos t⟩
      = some ⟨Real.sin t, 0, Real.cos t - 1⟩ := by
    have : sgn (-1 * Real.cos t) = -1 := by unfold sgn; rw [if_pos (by linarith)]
    have h1 : sqrt? 1 = some 1 := by simp [sqrt?]
    simp only [sphereIntercept, this]
    simp
    rw [h1]
    simp
    ring
  have hn := centre_normal h
  simp [Surface.propagate, Surface.propagateLocal, Sag.propagate, sphereSag, hi, Surface.interact, div?,
    Surface.effectiveRay, hn, mirror, Surface.rulingFactor, Surface.clip, centreRay, centreReflected, hs]

/-- A fan from the centre of curvature of a concave mirror, with which the theorems on fans in the plane of incidence
and on the circle of Rowland start. -/
example :
    let s : Surface := ⟨sphereSag (-1), mirror, none, none, none⟩
    Fan s 1 (-1) centreRay centreReflected 0 ⟨1, 0, 0⟩ ⟨1, 0, 0⟩ ⟨-1, 0, 0⟩ ⟨0, 0, -1⟩ ∧
    RuledBy s 1 (-1) (fun _ => 0) ∧ Meets centreRay ⟨0, 0, -1⟩ ∧
    Diverges centreRay ⟨1, 0, 0⟩ (centreReflected 0).position 1 ∧
    (⟨0, 1, 0⟩ : V3).dot (s.frame.ivec (centreRay 0).direction) = 0 ∧
    (⟨0, 1, 0⟩ : V3).dot (s.frame.ivec ⟨1, 0, 0⟩) = 0 ∧
    s.frame.point ⟨0, 0, -1⟩ = ⟨0, 0, -1⟩ ∧ (⟨0, 0, -1⟩ : V3) ≠ (centreReflected 0).position ∧
    ((⟨0, 0, -1⟩ : V3) - (centreReflected 0).position).dot (⟨0, 0, -1⟩ - ⟨0, 0, -1⟩) = 0 ∧
    Meets centreReflected ⟨0, 0, -1⟩ := by
  intro s
  have hivec : ∀ v, s.frame.ivec v = v := fun v => by
    apply V3.ext <;> simp [s, dot, Surface.frame, Rigid.ivec, Rigid.id, M3.one, M3.mulVec, M3.transpose]
  have hipoint : ∀ v, s.frame.ipoint v = v := fun v => by
    apply V3.ext <;> simp [s, dot, Surface.frame, Rigid.ipoint, Rigid.id, M3.one, M3.mulVec, M3.transpose]
  have hpoint : ∀ v, s.frame.point v = v := fun v => by
    apply V3.ext <;> simp [s, dot, Surface.frame, Rigid.point, Rigid.id, M3.one, M3.mulVec]
  have hcos : ∀ᶠ t in 𝓝 (0 : ℝ), 0 < Real.cos t :=
    (Real.hasDerivAt_cos 0).continuousAt.eventually (lt_mem_nhds (by simp))
  have hsin : HasDerivAt Real.sin 1 0 := by simpa using Real.hasDerivAt_sin 0
  have hc : HasDerivAt Real.cos 0 0 := by simpa using Real.hasDerivAt_cos 0
  have e : ∀ t, Real.sin t ^ 2 + Real.cos t ^ 2 = 1 := Real.sin_sq_add_cos_sq
  have b : Sweep centreRay 0 ⟨1, 0, 0⟩ := ⟨Moving.const _, ⟨hsin, hasDerivAt_const _ _, hc⟩,
    Eventually.of_forall fun t => by simp only [centreRay, dot]; linarith [e t],
    Eventually.of_forall fun _ => rfl, one_pos⟩
  have g : Sweep centreReflected ⟨1, 0, 0⟩ ⟨-1, 0, 0⟩ := ⟨⟨hsin, hasDerivAt_const _ _, hc.sub_const 1⟩,
    ⟨hsin.neg, hasDerivAt_const _ _, hc.neg.congr_deriv (by simp)⟩,
    Eventually.of_forall fun t => by simp only [centreReflected, dot]; linarith [e t],
    Eventually.of_forall fun _ => rfl, one_pos⟩
  have m1 : Meets centreRay ⟨0, 0, -1⟩ := ⟨by apply V3.ext <;> simp [centreRay, cross], by
    refine (Moving.const (0 : V3)).congr (Eventually.of_forall fun t => ?_)
    apply V3.ext <;> simp [centreRay, cross]⟩
  have m2 : Meets centreReflected ⟨0, 0, -1⟩ := ⟨by apply V3.ext <;> simp [centreReflected, cross], by
    refine (Moving.const (0 : V3)).congr (Eventually.of_forall fun t => ?_)
    apply V3.ext <;> simp [centreReflected, cross]; ring⟩
  refine ⟨⟨b, g, ⟨?_, ?_, ?_, ?_⟩, Eventually.of_forall fun _ => rfl, ?_, ?_, ?_, ?_⟩, .inl ⟨rfl, fun _ => rfl⟩, m1,
    ?_, ?_, ?_, hpoint _, ?_, ?_, m2⟩
  · filter_upwards [hcos] with t ht using centre_traced ht
  · exact Eventually.of_forall fun t => ⟨1, by apply V3.ext <;> simp [centreRay, centreReflected]; ring⟩
  · filter_upwards [hcos] with t ht
    unfold Surface.Contains
    rw [hipoint]
    exact centre_on ht
  · intro n hn
    rw [hipoint] at hn
    have := (centre_normal (t := 0) (by simp)).symm.trans hn
    rw [Option.some.injEq] at this
    rw [← this, hivec]
    simp [centreRay, dot]
  · rw [hipoint]
    have := centre_normal (t := 0) (by simp)
    show sphereNormal (-1) (centreReflected 0).position = _
    simpa [centreReflected] using this
  · rw [hivec]
    simp [centreRay, dot, sgn]
  · rw [hivec]; simp [centreReflected, dot]
  · intro h; have := congrArg V3.x h; simp at this
  · unfold Diverges
    rw [if_neg one_ne_zero]
    have : (centreReflected 0).position - (1 / 1 : ℝ) • (centreRay 0).direction = ⟨0, 0, -1⟩ := by
      apply V3.ext <;> simp [centreReflected, centreRay]
    rwa [this]
  · rw [hivec]; simp [centreRay, dot]
  · rw [hivec]; simp [dot]
  · intro h; have := congrArg V3.z h; simp [centreReflected] at this
  · simp [dot]

/-- Parallel light. -/
noncomputable def parallelRay (t : ℝ) : Ray := ⟨1, ⟨t, 0, -1⟩, ⟨0, 0, 1⟩, 1, 0, 1, true⟩

/-- Parallel light, diffracted by a plane grating. -/
noncomputable def parallelDiffracted (t : ℝ) : Ray :=
  ⟨1, ⟨t, 0, 0⟩, ⟨-(3 / 5), 0, -(4 / 5)⟩, 1, 0, 1, true⟩

theorem parallel_traced (t : ℝ) :
    (⟨flatSag, mirror, none, some (idealRulings 5 3), none⟩ : Surface).propagate (parallelRay t)
      = some (parallelDiffracted t) := by
  have hk : rulingsIncidentEffective (some ⟨5, 0, 0⟩) 3 1 ⟨0, 0, 1⟩ 1 ⟨0, 0, -1⟩ = some ⟨-(3 / 5), 0, 1⟩ := by
    rw [rulingsIncidentEffective_some]
    have hl : V3.len ⟨5, 0, 0⟩ = 5 := by
      simp only [V3.len, dot]
      rw [show (5 : ℝ) * 5 + 0 * 0 + 0 * 0 = 5 ^ 2 by norm_num, Real.sqrt_sq (by norm_num)]
    refine ⟨by rw [hl]; norm_num, one_ne_zero, ?_⟩
    apply V3.ext <;> simp [dot, sgn] <;> norm_num
  have hs : snellsLaw ⟨-(3 / 5), 0, 1⟩ 1 1 true ⟨0, 0, -1⟩ = some ⟨-(3 / 5), 0, -(4 / 5)⟩ := by
    rw [snellsLaw_iff true (by simp [dot]) one_pos one_pos (by simp [dot])]
    refine ⟨⟨by norm_num [dot], by apply V3.ext <;> simp [tang, dot]⟩, by norm_num [OppositeSide, dot]⟩
  have hi : flatIntercept ⟨t, 0, -1⟩ ⟨0, 0, 1⟩ = some ⟨t, 0, 0⟩ := by
    unfold flatIntercept
    rw [div?_of_ne (by simp)]
    simp
  have h5 : (5 : ℝ) • (⟨1, 0, 0⟩ : V3) = ⟨5, 0, 0⟩ := by apply V3.ext <;> simp
  simp [Surface.propagate, Surface.propagateLocal, Sag.propagate, flatSag, hi, Surface.interact, div?,
    Surface.effectiveRay, flatNormal, mirror, Surface.rulingFactor, Surface.clip, parallelRay, parallelDiffracted, hs,
    idealRulings, constantSpacing, h5, hk]

/-- Parallel light on a plane grating, with which the theorems on rulings start. -/
example :
    let s : Surface := ⟨flatSag, mirror, none, some (idealRulings 5 3), none⟩
    Fan s 1 (-1) parallelRay parallelDiffracted ⟨1, 0, 0⟩ 0 ⟨1, 0, 0⟩ 0 ⟨0, 0, -1⟩ ∧
    RuledBy s 1 (-1) (fun _ => ⟨-1 * (3 * 1 / 5), 0, 0⟩) ∧
    Diverges parallelRay 0 (parallelDiffracted 0).position 0 ∧
    (⟨0, 1, 0⟩ : V3).dot (s.frame.ivec (parallelRay 0).direction) = 0 ∧
    (⟨0, 1, 0⟩ : V3).dot (s.frame.ivec ⟨1, 0, 0⟩) = 0 := by
  intro s
  have hivec : ∀ v, s.frame.ivec v = v := fun v => by
    apply V3.ext <;> simp [s, dot, Surface.frame, Rigid.ivec, Rigid.id, M3.one, M3.mulVec, M3.transpose]
  have hipoint : ∀ v, s.frame.ipoint v = v := fun v => by
    apply V3.ext <;> simp [s, dot, Surface.frame, Rigid.ipoint, Rigid.id, M3.one, M3.mulVec, M3.transpose]
  refine ⟨⟨⟨⟨hasDerivAt_id 0, hasDerivAt_const _ _, hasDerivAt_const _ _⟩, Moving.const _,
      Eventually.of_forall fun t => by simp [parallelRay, dot], Eventually.of_forall fun _ => rfl, one_pos⟩,
    ⟨⟨hasDerivAt_id 0, hasDerivAt_const _ _, hasDerivAt_const _ _⟩, Moving.const _,
      Eventually.of_forall fun t => by norm_num [parallelDiffracted, dot], Eventually.of_forall fun _ => rfl, one_pos⟩,
    ⟨Eventually.of_forall parallel_traced, ?_, ?_, ?_⟩, Eventually.of_forall fun _ => rfl, rfl, ?_, ?_, ?_⟩,
    C101_ideal_rulings rfl _ _, by simp [Diverges], ?_, ?_⟩
  · exact Eventually.of_forall fun t => ⟨1, by apply V3.ext <;> simp [parallelRay, parallelDiffracted]⟩
  · refine Eventually.of_forall fun t => ?_
    unfold Surface.Contains
    rw [hipoint]
    rfl
  · intro n hn
    have hn : some (⟨0, 0, -1⟩ : V3) = some n := hn
    rw [Option.some.injEq] at hn
    rw [← hn, hivec]
    simp [parallelRay, dot]
  · rw [hivec]
    simp [parallelRay, dot, sgn]
  · rw [hivec]; norm_num [parallelDiffracted, dot]
  · intro h; have := congrArg V3.x h; simp at this
  · rw [hivec]; simp [parallelRay, dot]
  · rw [hivec]; simp [dot]

end Optika
