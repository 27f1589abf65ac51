import Verif.Props.Etendue
import Verif.Props.ReverseCurved
import Verif.Model.Glass

/-!
# C104: rays close to a ray are traced close to it
-/

namespace Optika
open V3 Filter Topology

/-! ## Specification -/

/-- A point that moves smoothly at the time zero. -/
def Smooth (p : ℝ → V3) : Prop := ∃ v, Moving p v

/-- A sag is smooth at a ray: the rays of all curves through it meet the sag on their lines, in a point that moves
smoothly and whose unit normal turns smoothly. -/
def Sag.SmoothAt (sag : Sag) (o u : V3) : Prop :=
  ∀ p d : ℝ → V3, Smooth p → Smooth d → p 0 = o → d 0 = u → (∀ᶠ t in 𝓝 0, (d t).dot (d t) = 1) →
    ∃ q n : ℝ → V3, Smooth q ∧ Smooth n ∧ ∀ᶠ t in 𝓝 0, sag.intercept (p t) (d t) = some (q t) ∧
      sag.normal (q t) = some (n t) ∧ OnGraph sag.height (q t) ∧ (n t).dot (n t) = 1 ∧ OnLine (p t) (d t) (q t)

/-- A material whose index and attenuation depend on the wavelength, the index and the attenuation of the ray only,
and that has an efficiency for all rays. -/
structure Material.Steady (m : Material) : Prop where
  index : ∀ r r' : Ray, r'.wavelength = r.wavelength → r'.index = r.index → r'.attenuation = r.attenuation →
    m.index r' = m.index r
  attenuation : ∀ r r' : Ray, r'.wavelength = r.wavelength → r'.index = r.index → r'.attenuation = r.attenuation →
    m.attenuation r' = m.attenuation r
  efficiency : ∀ r n, ∃ e, m.efficiency r n = some e

/-- Rulings whose spacing changes smoothly along the surface. -/
structure RulingProfile.Steady (ru : RulingProfile) : Prop where
  spacing : ∀ q n : ℝ → V3, Smooth q → Smooth n → ∃ k : ℝ → V3, Smooth k ∧
    ∀ᶠ t in 𝓝 0, ru.spacing (q t) (n t) = some (k t)
  efficiency : ∀ r n, ∃ e, ru.efficiency r n = some e

/-- A curve of rays of a single wavelength in a single medium. -/
structure Monochromatic (f : ℝ → Ray) : Prop where
  position : Smooth fun t => (f t).position
  direction : Smooth fun t => (f t).direction
  unit : ∀ᶠ t in 𝓝 0, (f t).direction.dot (f t).direction = 1
  medium : ∀ᶠ t in 𝓝 0, (f t).wavelength = (f 0).wavelength ∧ (f t).index = (f 0).index ∧
    (f t).attenuation = (f 0).attenuation

/-- A ray passes a surface at an angle: it is not incident, diffracted or refracted along it. -/
def Surface.Aslant (s : Surface) (r out : Ray) : Prop :=
  ∃ n, s.sag.normal (s.frame.ipoint out.position) = some n ∧
    (s.frame.ivec r.direction).dot n ≠ 0 ∧ (s.frame.ivec out.direction).dot n ≠ 0 ∧
    ∀ ru, s.rulings = some ru → ∀ k, ru.spacing (s.frame.ipoint out.position) n = some k →
      (s.frame.ivec r.direction + (sgn ((s.frame.ivec r.direction).dot n) * ru.order * r.wavelength /
        (r.index * k.dot k)) • k).dot n ≠ 0

/-- A surface that passes the rays close to a ray in the same way. -/
structure Surface.Regular (s : Surface) (r out : Ray) : Prop where
  traced : s.propagate r = some out
  sag : s.sag.SmoothAt (s.frame.ipoint r.position) (s.frame.ivec r.direction)
  material : s.material.Steady
  rulings : ∀ ru, s.rulings = some ru → ru.Steady
  aslant : s.Aslant r out

/-- A ray that passes a sequence of surfaces that are all regular. -/
inductive Clear : List Surface → Ray → Ray → Prop
  | nil (r : Ray) : Clear [] r r
  | cons {s : Surface} {ss : List Surface} {r r' out : Ray} (first : s.Regular r r') (rest : Clear ss r' out) :
      Clear (s :: ss) r out

/-! ## Calculus -/

theorem smooth_iff {p : ℝ → V3} : Smooth p ↔ DifferentiableAt ℝ (fun t => (p t).x) 0 ∧
    DifferentiableAt ℝ (fun t => (p t).y) 0 ∧ DifferentiableAt ℝ (fun t => (p t).z) 0 := by
  constructor
  · rintro ⟨v, h⟩
    exact ⟨h.x.differentiableAt, h.y.differentiableAt, h.z.differentiableAt⟩
  · rintro ⟨h1, h2, h3⟩
    exact ⟨⟨_, _, _⟩, h1.hasDerivAt, h2.hasDerivAt, h3.hasDerivAt⟩

theorem Smooth.congr {p q : ℝ → V3} (hp : Smooth p) (h : ∀ᶠ t in 𝓝 0, q t = p t) : Smooth q := by
  obtain ⟨v, hv⟩ := hp
  exact ⟨v, hv.congr h⟩

theorem Smooth.add {p q : ℝ → V3} (hp : Smooth p) (hq : Smooth q) : Smooth fun t => p t + q t := by
  obtain ⟨v, hv⟩ := hp
  obtain ⟨w, hw⟩ := hq
  exact ⟨_, hv.add hw⟩

theorem Smooth.smul {c : ℝ → ℝ} {p : ℝ → V3} (hc : DifferentiableAt ℝ c 0) (hp : Smooth p) :
    Smooth fun t => c t • p t := by
  obtain ⟨v, hv⟩ := hp
  exact ⟨_, Moving.smul hc.hasDerivAt hv⟩

theorem Smooth.dot {p q : ℝ → V3} (hp : Smooth p) (hq : Smooth q) :
    DifferentiableAt ℝ (fun t => (p t).dot (q t)) 0 := by
  obtain ⟨v, hv⟩ := hp
  obtain ⟨w, hw⟩ := hq
  exact (hv.dot hw).differentiableAt

theorem Smooth.ivec (g : Rigid) {p : ℝ → V3} (hp : Smooth p) : Smooth fun t => g.ivec (p t) := by
  obtain ⟨v, hv⟩ := hp
  exact ⟨_, hv.ivec g⟩

theorem Smooth.ipoint (g : Rigid) {p : ℝ → V3} (hp : Smooth p) : Smooth fun t => g.ipoint (p t) := by
  obtain ⟨v, hv⟩ := hp
  exact ⟨_, hv.ipoint g⟩

theorem Smooth.vec (g : Rigid) {p : ℝ → V3} (hp : Smooth p) : Smooth fun t => g.vec (p t) := by
  obtain ⟨h1, h2, h3⟩ := smooth_iff.1 hp
  rw [smooth_iff]
  refine ⟨?_, ?_, ?_⟩
  · exact ((h1.const_mul g.rot.r1.x).add (h2.const_mul g.rot.r1.y)).add (h3.const_mul g.rot.r1.z)
  · exact ((h1.const_mul g.rot.r2.x).add (h2.const_mul g.rot.r2.y)).add (h3.const_mul g.rot.r2.z)
  · exact ((h1.const_mul g.rot.r3.x).add (h2.const_mul g.rot.r3.y)).add (h3.const_mul g.rot.r3.z)

theorem Smooth.point (g : Rigid) {p : ℝ → V3} (hp : Smooth p) : Smooth fun t => g.point (p t) := by
  have h := hp.vec g
  have h2 : Smooth fun t => g.vec (p t) + g.shift := h.add ⟨_, Moving.const g.shift⟩
  exact h2

theorem sgn_steady {f : ℝ → ℝ} (hf : ContinuousAt f 0) (h : f 0 ≠ 0) : ∀ᶠ t in 𝓝 0, sgn (f t) = sgn (f 0) := by
  rcases lt_or_gt_of_ne h with h | h
  · filter_upwards [hf.eventually_lt_const h] with t ht
    rw [sgn_of_neg ht, sgn_of_neg h]
  · filter_upwards [hf.eventually_const_lt h] with t ht
    rw [sgn_of_pos ht, sgn_of_pos h]

theorem copysign1_steady {f : ℝ → ℝ} (hf : ContinuousAt f 0) (h : f 0 ≠ 0) :
    ∀ᶠ t in 𝓝 0, copysign1 (f t) = copysign1 (f 0) := by
  unfold copysign1
  rcases lt_or_gt_of_ne h with h | h
  · filter_upwards [hf.eventually_lt_const h] with t ht
    rw [if_pos ht, if_pos h]
  · filter_upwards [hf.eventually_const_lt h] with t ht
    rw [if_neg (not_lt.2 ht.le), if_neg (not_lt.2 h.le)]

/-- Snell's law is smooth away from grazing rays and from the critical angle. -/
theorem snell_smooth {a u : ℝ → V3} {n1 n2 : ℝ} {m : Bool} {b : V3} (ha : Smooth a) (hu : Smooth u)
    (h : snellsLaw (a 0) n1 n2 m (u 0) = some b) (hu1 : (u 0).dot (u 0) = 1)
    (h1 : (a 0).dot (u 0) ≠ 0) (h2 : b.dot (u 0) ≠ 0) :
    ∃ c : ℝ → V3, Smooth c ∧ c 0 = b ∧ ∀ᶠ t in 𝓝 0, snellsLaw (a t) n1 n2 m (u t) = some (c t) := by
  rw [snellsLaw_eq_some] at h
  obtain ⟨hn2, hn1, hd, hb⟩ := h
  have hau := ha.dot hu
  have haa := ha.dot ha
  have hD : DifferentiableAt ℝ (fun t => (n2 / n1) ^ 2 + ((a t).dot (u t)) ^ 2 - (a t).dot (a t)) 0 :=
    ((hau.pow 2).const_add _).sub haa
  have hpos : 0 < (n2 / n1) ^ 2 + ((a 0).dot (u 0)) ^ 2 - (a 0).dot (a 0) := by
    refine lt_of_le_of_ne hd fun h0 => h2 ?_
    rw [hb, ← h0]
    simp only [Real.sqrt_zero, mul_zero]
    simp only [V3.dot, smul_x, smul_y, smul_z, add_x, add_y, add_z] at hu1 ⊢
    linear_combination (n1 / n2) * (-(a 0).x * (u 0).x - (a 0).y * (u 0).y - (a 0).z * (u 0).z) * hu1
  refine ⟨fun t => (n1 / n2) • (a t + (-((a t).dot (u t)) + (if m then -1 else 1) * copysign1 ((a 0).dot (u 0)) *
        Real.sqrt ((n2 / n1) ^ 2 + ((a t).dot (u t)) ^ 2 - (a t).dot (a t))) • u t), ?_, hb.symm, ?_⟩
  · refine Smooth.smul (differentiableAt_const _) (ha.add (Smooth.smul ?_ hu))
    exact hau.neg.add ((hD.sqrt hpos.ne').const_mul _)
  · filter_upwards [copysign1_steady hau.continuousAt h1, hD.continuousAt.eventually_const_lt hpos] with t e1 e2
    rw [snellsLaw_eq_some]
    exact ⟨hn2, hn1, e2.le, by rw [e1]⟩

/-- Rulings are smooth away from grazing rays. -/
theorem rulings_smooth {a k u : ℝ → V3} {m w n : ℝ} {b : V3} (ha : Smooth a) (hk : Smooth k) (hu : Smooth u)
    (h : rulingsIncidentEffective (some (k 0)) m w (a 0) n (u 0) = some b) (h1 : (a 0).dot (u 0) ≠ 0) :
    ∃ c : ℝ → V3, Smooth c ∧ c 0 = b ∧
      ∀ᶠ t in 𝓝 0, rulingsIncidentEffective (some (k t)) m w (a t) n (u t) = some (c t) := by
  rw [rulingsIncidentEffective_some] at h
  obtain ⟨hk0, hn, hb⟩ := h
  have hkk := hk.dot hk
  have hk2 : (k 0).dot (k 0) ≠ 0 := fun h0 => hk0 (by
    have : (k 0).len = Real.sqrt ((k 0).dot (k 0)) := rfl
    rw [this, h0, Real.sqrt_zero])
  refine ⟨fun t => a t + (sgn ((a 0).dot (u 0)) * m * w / (n * (k t).dot (k t))) • k t, ?_, hb.symm, ?_⟩
  · refine ha.add (Smooth.smul ?_ hk)
    exact (differentiableAt_const _).div (hkk.const_mul n) (mul_ne_zero hn hk2)
  · filter_upwards [sgn_steady (ha.dot hu).continuousAt h1, hkk.continuousAt.eventually_ne hk2] with t e1 e2
    rw [rulingsIncidentEffective_some]
    refine ⟨fun h0 => e2 ?_, hn, by rw [e1]⟩
    have : (k t).len ^ 2 = (k t).dot (k t) := by
      have h3 : 0 ≤ (k t).dot (k t) := by
        simp only [V3.dot]; nlinarith [sq_nonneg (k t).x, sq_nonneg (k t).y, sq_nonneg (k t).z]
      exact Real.sq_sqrt h3
    rw [← this, h0]; ring

/-- The direction behind a surface is a unit vector. -/
theorem snell_unit {a u b : V3} {n1 n2 : ℝ} {m : Bool} (h : snellsLaw a n1 n2 m u = some b) (hu : u.dot u = 1) :
    b.dot b = 1 := by
  rw [snellsLaw_eq_some] at h
  obtain ⟨hn2, hn1, hd, rfl⟩ := h
  set D := (n2 / n1) ^ 2 + (a.dot u) ^ 2 - a.dot a with hD
  set k : ℝ := (if m then -1 else 1) * copysign1 (a.dot u) with hk
  have hk2 : k ^ 2 = 1 := by
    rw [hk, mul_pow, sq (copysign1 _), copysign1_sq]
    split <;> norm_num
  have hs := Real.sq_sqrt hd
  have e : (a + (-(a.dot u) + k * Real.sqrt D) • u).dot (a + (-(a.dot u) + k * Real.sqrt D) • u) = (n2 / n1) ^ 2 := by
    have e1 : (a + (-(a.dot u) + k * Real.sqrt D) • u).dot (a + (-(a.dot u) + k * Real.sqrt D) • u)
        = a.dot a + 2 * (-(a.dot u) + k * Real.sqrt D) * a.dot u + (-(a.dot u) + k * Real.sqrt D) ^ 2 * u.dot u := by
      simp only [V3.dot, smul_x, smul_y, smul_z, add_x, add_y, add_z]; ring
    rw [e1, hu]
    linear_combination (Real.sqrt D) ^ 2 * hk2 + hs + hD
  rw [smul_dot, dot_comm, smul_dot, e]
  field_simp

/-- The effective directions of a curve of rays at the surface. -/
theorem effective_smooth {s : Surface} {f : ℝ → Ray} {n : ℝ → V3} {r1 : Ray}
    (hru : ∀ ru, s.rulings = some ru → ru.Steady) (hp : Smooth fun t => (f t).position)
    (hd : Smooth fun t => (f t).direction) (hn : Smooth n)
    (hw : ∀ᶠ t in 𝓝 0, (f t).wavelength = (f 0).wavelength) (hi : ∀ᶠ t in 𝓝 0, (f t).index = (f 0).index)
    (h : s.effectiveRay (f 0) (n 0) = some r1) (h1 : (f 0).direction.dot (n 0) ≠ 0) :
    ∃ a : ℝ → V3, Smooth a ∧ a 0 = r1.direction ∧
      ∀ᶠ t in 𝓝 0, s.effectiveRay (f t) (n t) = some { f t with direction := a t } := by
  unfold Surface.effectiveRay at h ⊢
  cases hr : s.rulings with
  | none =>
    rw [hr] at h
    simp only [Option.some.injEq] at h
    exact ⟨_, hd, by rw [h], Eventually.of_forall fun t => rfl⟩
  | some ru =>
    rw [hr] at h
    simp only [Option.map_eq_some_iff] at h ⊢
    obtain ⟨b, hb, rfl⟩ := h
    obtain ⟨k, hk, hks⟩ := (hru ru hr).spacing _ n hp hn
    rw [hks.self_of_nhds] at hb
    obtain ⟨c, hc, hc0, hct⟩ := rulings_smooth hd hk hn hb h1
    refine ⟨c, hc, hc0, ?_⟩
    filter_upwards [hks, hct, hw, hi] with t e1 e2 e3 e4
    exact ⟨c t, by rw [e1, e3, e4, e2], rfl⟩

/-- What one surface does to a ray, from its parts. -/
theorem propagateLocal_of {s : Surface} {r : Ray} {q normal a b : V3} {n2 att : ℝ}
    (hq : s.sag.intercept r.position r.direction = some q) (hn : s.sag.normal q = some normal)
    (ha : s.effectiveRay { r with
        position := q
        intensity := Real.exp (-r.attenuation * (q - r.position).len) * r.intensity } normal
      = some { r with
        position := q
        intensity := Real.exp (-r.attenuation * (q - r.position).len) * r.intensity
        direction := a })
    (hi : ∀ r' : Ray, r'.wavelength = r.wavelength → r'.index = r.index → r'.attenuation = r.attenuation →
      s.material.index r' = some n2 ∧ s.material.attenuation r' = some att)
    (h2 : n2 ≠ 0) (h1 : r.index ≠ 0) (hb : snellsLaw a r.index n2 s.material.isMirror normal = some b)
    (he : ∀ r', ∃ e, s.material.efficiency r' normal = some e) (hr : ∀ r', ∃ e, s.rulingFactor r' normal = some e)
    (hc : ∀ r', ∃ o, s.clip r' = some o) :
    ∃ out, s.propagateLocal r = some out ∧ out.position = q ∧ out.direction = b ∧ out.index = n2 ∧
      out.attenuation = att ∧ out.wavelength = r.wavelength * n2 / r.index := by
  have key : ∃ out, s.propagateLocal r = some out := by
    unfold Surface.propagateLocal Sag.propagate Surface.interact
    simp only [Option.bind_eq_bind, Option.bind_eq_some_iff, Option.pure_def, Option.some.injEq]
    obtain ⟨x1, hx1⟩ := he { r with
        position := q
        intensity := Real.exp (-r.attenuation * (q - r.position).len) * r.intensity
        direction := a }
    obtain ⟨x2, hx2⟩ := hr { r with
        position := q
        intensity := Real.exp (-r.attenuation * (q - r.position).len) * r.intensity
        direction := a }
    obtain ⟨o, ho⟩ := hc { r with
        position := q
        intensity := Real.exp (-r.attenuation * (q - r.position).len) * r.intensity * (x1 * x2)
        direction := b
        wavelength := r.wavelength / (r.index / n2)
        attenuation := att
        index := n2 }
    exact ⟨o, _, ⟨q, hq, rfl⟩, _, ⟨normal, hn, _, ha, n2, (hi { r with
        position := q
        intensity := Real.exp (-r.attenuation * (q - r.position).len) * r.intensity
        direction := a } rfl rfl rfl).1, _, div?_of_ne h2, _,
      div?_of_ne (div_ne_zero h1 h2), b, hb, x1, hx1, x2, hx2, att, (hi { r with
        position := q
        intensity := Real.exp (-r.attenuation * (q - r.position).len) * r.intensity
        direction := a } rfl rfl rfl).2, rfl⟩, ho⟩
  obtain ⟨out, ho⟩ := key
  obtain ⟨q', normal', r1', n2', b', e1', e2', att', hq', hn', heff', hp', hw', hi', ha', hv', hI', hn2', -, hr0', hb',
    he1', he2', hatt', ow, op, od, oI, oa, oi, -⟩ := propagateLocal_eq_some ho
  rw [hq, Option.some.injEq] at hq'
  subst hq'
  rw [hn, Option.some.injEq] at hn'
  subst hn'
  rw [ha, Option.some.injEq] at heff'
  subst heff'
  obtain ⟨m1, m2⟩ := hi _ hw' hi' ha'
  rw [m1, Option.some.injEq] at hn2'
  rw [m2, Option.some.injEq] at hatt'
  subst hn2' hatt'
  simp only at hb'
  rw [hb, Option.some.injEq] at hb'
  exact ⟨out, ho, op, od.trans hb'.symm, oi, oa, ow⟩

/-- **C104**: the rays close to a ray that passes a regular surface pass it, and the points where they meet it and
their directions behind it depend smoothly on the rays. -/
theorem C104_surface {s : Surface} {r out : Ray} (h : s.Regular r out) {f : ℝ → Ray} (hf : Monochromatic f)
    (h0 : f 0 = r) :
    ∃ g : ℝ → Ray, (∀ᶠ t in 𝓝 0, s.propagate (f t) = some (g t)) ∧ g 0 = out ∧ Monochromatic g ∧
      (∀ᶠ t in 𝓝 0, s.Contains (g t).position) ∧
      ∀ᶠ t in 𝓝 0, OnLine (f t).position (f t).direction (g t).position := by
  subst h0
  obtain ⟨nn, hnn, a1, a2, a3⟩ := h.aslant
  obtain ⟨q, n, hq, hn, hsag⟩ := h.sag _ _ (hf.position.ipoint s.frame) (hf.direction.ivec s.frame) rfl rfl
    (by filter_upwards [hf.unit] with t ht; rw [Rigid.ivec_dot_ivec]; exact ht)
  have htr := h.traced
  rw [Surface.propagate_eq, Option.map_eq_some_iff] at htr
  obtain ⟨o, ho, rfl⟩ := htr
  obtain ⟨q0, n0, r1, n2, b, e1, e2, att, hq0, hn0, heff, hp, hw, hi, ha, hv, hI, hn2, hn20, hr0, hb,
    he1, he2, hatt, ow, op, od, oI, oa, oi, hclip⟩ := propagateLocal_eq_some ho
  have hs0 := hsag.self_of_nhds
  have eq0 : q0 = q 0 := by
    have := hs0.1
    change s.sag.intercept (s.frame.ipoint (f 0).position) (s.frame.ivec (f 0).direction) = some q0 at hq0
    rw [hq0, Option.some.injEq] at this
    exact this
  subst eq0
  have en0 : n0 = n 0 := by
    have := hs0.2.1
    rw [hn0, Option.some.injEq] at this
    exact this
  subst en0
  have hpos : s.frame.ipoint (Ray.move s.frame o).position = q 0 := by
    show s.frame.ipoint (s.frame.point o.position) = _
    rw [Rigid.ipoint_point, op]
  have hdir : s.frame.ivec (Ray.move s.frame o).direction = b := by
    show s.frame.ivec (s.frame.vec o.direction) = _
    rw [Rigid.ivec_vec, od]
  rw [hpos] at hnn a3
  rw [hdir] at a2
  have en : nn = n 0 := by
    rw [hn0, Option.some.injEq] at hnn
    exact hnn.symm
  subst en
  -- the rays on the surface
  let F : ℝ → Ray := fun t => { (f t).unmove s.frame with
      position := q t
      intensity := Real.exp (-(f t).attenuation * (q t - s.frame.ipoint (f t).position).len) * (f t).intensity }
  obtain ⟨a, ha', ha0, hat⟩ := effective_smooth (s := s) (f := F) (n := n) h.rulings hq (hf.direction.ivec s.frame) hn
    (hf.medium.mono fun t e => e.1) (hf.medium.mono fun t e => e.2.1) heff a1
  have hr1 : r1.direction.dot (n 0) ≠ 0 := by
    have heff' := heff
    unfold Surface.effectiveRay at heff'
    cases hru : s.rulings with
    | none => rw [hru] at heff'; simp only [Option.some.injEq] at heff'; rw [← heff']; exact a1
    | some ru =>
      rw [hru] at heff'
      simp only [Option.map_eq_some_iff] at heff'
      obtain ⟨d, hd, rfl⟩ := heff'
      change rulingsIncidentEffective (ru.spacing (q 0) (n 0)) _ _ _ _ _ = _ at hd
      cases hk : ru.spacing (q 0) (n 0) with
      | none => rw [hk] at hd; simp [rulingsIncidentEffective] at hd
      | some k =>
        rw [hk, rulingsIncidentEffective_some] at hd
        have := a3 ru hru k hk
        rw [show d = _ from hd.2.2]
        exact this
  rw [← ha0] at hr1 hb
  rw [hi] at hb
  obtain ⟨c, hc, hc0, hct⟩ := snell_smooth ha' hn hb hs0.2.2.2.1 hr1 a2
  have hclip' : ∀ r', ∃ o, s.clip r' = some o := by
    intro r'
    unfold Surface.clip at hclip ⊢
    cases hap : s.aperture with
    | none => exact ⟨r', rfl⟩
    | some ap =>
      rw [hap] at hclip
      simp only [Aperture.clip] at hclip ⊢
      cases hu : ap.unit with
      | other => rw [hu] at hclip; simp at hclip
      | length => exact ⟨_, rfl⟩
      | dimensionless => exact ⟨_, rfl⟩
  have hrule : ∀ nrm r', ∃ e, s.rulingFactor r' nrm = some e := by
    intro nrm r'
    unfold Surface.rulingFactor
    cases hru : s.rulings with
    | none => exact ⟨1, rfl⟩
    | some ru => exact (h.rulings ru hru).efficiency r' nrm
  have key : ∀ᶠ t in 𝓝 0, ∃ out, s.propagateLocal ((f t).unmove s.frame) = some out ∧ out.position = q t ∧
      out.direction = c t ∧ out.index = n2 ∧ out.attenuation = att ∧
      out.wavelength = (f 0).wavelength * n2 / (f 0).index := by
    filter_upwards [hsag, hat, hct, hf.medium] with t ⟨t1, t2, t3, t4, t5⟩ k2 k3 ⟨k4, k5, k6⟩
    obtain ⟨out, g1, g2, g3, g4, g5, g6⟩ := propagateLocal_of (s := s) (r := (f t).unmove s.frame) (q := q t)
      (normal := n t) (a := a t) (b := c t) (n2 := n2) (att := att) t1 t2 k2 (fun r' m1 m2 m3 => by
        have m1 : r'.wavelength = r1.wavelength := m1.trans (k4.trans hw.symm)
        have m2 : r'.index = r1.index := m2.trans (k5.trans hi.symm)
        have m3 : r'.attenuation = r1.attenuation := m3.trans (k6.trans ha.symm)
        rw [h.material.index _ _ m1 m2 m3, h.material.attenuation _ _ m1 m2 m3]
        exact ⟨hn2, hatt⟩) hn20 (by show (f t).index ≠ 0; rw [k5]; exact hr0)
      (by show snellsLaw _ (f t).index _ _ _ = _; rw [k5]; exact k3)
      (fun r' => h.material.efficiency r' _) (hrule _) hclip'
    refine ⟨out, g1, g2, g3, g4, g5, ?_⟩
    rw [g6]
    show (f t).wavelength * n2 / (f t).index = _
    rw [k4, k5]
  have hg : ∀ᶠ t in 𝓝 0, ∃ out, s.propagate (f t) = some out ∧ out.position = s.frame.point (q t) ∧
      out.direction = s.frame.vec (c t) ∧ out.index = n2 ∧ out.attenuation = att ∧
      out.wavelength = (f 0).wavelength * n2 / (f 0).index := by
    filter_upwards [key] with t ⟨out, g1, g2, g3, g4, g5, g6⟩
    refine ⟨out.move s.frame, by rw [Surface.propagate_eq, g1]; rfl, ?_, ?_, g4, g5, g6⟩
    · show s.frame.point out.position = _
      rw [g2]
    · show s.frame.vec out.direction = _
      rw [g3]
  let g : ℝ → Ray := fun t => (s.propagate (f t)).getD (f t)
  have hg' : ∀ᶠ t in 𝓝 0, s.propagate (f t) = some (g t) ∧ (g t).position = s.frame.point (q t) ∧
      (g t).direction = s.frame.vec (c t) ∧ (g t).index = n2 ∧ (g t).attenuation = att ∧
      (g t).wavelength = (f 0).wavelength * n2 / (f 0).index := by
    filter_upwards [hg] with t ⟨out, g1, g2⟩
    have : g t = out := by simp only [g, g1, Option.getD_some]
    rw [this]
    exact ⟨g1, g2⟩
  have hg0 : g 0 = Ray.move s.frame o := by
    have := hg'.self_of_nhds.1
    rw [h.traced, Option.some.injEq] at this
    exact this.symm
  have hgg := hg'.self_of_nhds
  refine ⟨g, hg'.mono fun t e => e.1, hg0, ⟨?_, ?_, ?_, ?_⟩, ?_, ?_⟩
  · exact (hq.point s.frame).congr (hg'.mono fun t e => e.2.1)
  · exact (hc.vec s.frame).congr (hg'.mono fun t e => e.2.2.1)
  · filter_upwards [hg', hct, hsag] with t e1 e2 e3
    rw [e1.2.2.1, Rigid.vec_dot_vec]
    exact snell_unit e2 e3.2.2.2.1
  · filter_upwards [hg'] with t e
    rw [e.2.2.2.1, e.2.2.2.2.1, e.2.2.2.2.2, hgg.2.2.2.1, hgg.2.2.2.2.1, hgg.2.2.2.2.2]
    exact ⟨rfl, rfl, rfl⟩
  · filter_upwards [hg', hsag] with t e1 e2
    show OnGraph s.sag.height (s.frame.ipoint (g t).position)
    rw [e1.2.1, Rigid.ipoint_point]
    exact e2.2.2.1
  · filter_upwards [hg', hsag] with t e1 e2
    obtain ⟨l, hl⟩ := e2.2.2.2.2
    refine ⟨l, ?_⟩
    rw [e1.2.1, hl, Rigid.point_add_smul, Rigid.point_ipoint, Rigid.vec_ivec]

/-- **C104**: the rays close to a ray that passes a sequence of regular surfaces pass it, and the points where they end
and their directions depend smoothly on the rays. -/
theorem C104_system {ss : List Surface} {r out : Ray} (h : Clear ss r out) {f : ℝ → Ray} (hf : Monochromatic f)
    (h0 : f 0 = r) :
    ∃ g : ℝ → Ray, (∀ᶠ t in 𝓝 0, propagateSurfaces ss (f t) = some (g t)) ∧ g 0 = out ∧ Monochromatic g := by
  induction h generalizing f with
  | nil r => exact ⟨f, Eventually.of_forall fun t => propagateSurfaces_nil _, h0, hf⟩
  | cons first rest ih =>
    obtain ⟨g, g1, g2, g3, -⟩ := C104_surface first hf h0
    obtain ⟨k, k1, k2, k3⟩ := ih g3 g2
    refine ⟨k, ?_, k2, k3⟩
    filter_upwards [g1, k1] with t e1 e2
    rw [propagateSurfaces_cons, e1]
    exact e2

/-- **C104**: a small change of the ray going in changes the ray coming out by little. -/
theorem C104_continuous {ss : List Surface} {r out : Ray} (h : Clear ss r out) {f g : ℝ → Ray} (hf : Monochromatic f)
    (h0 : f 0 = r) (hg : ∀ t, propagateSurfaces ss (f t) = some (g t)) :
    Tendsto (fun t => (g t).position.x) (𝓝 0) (𝓝 out.position.x) ∧
    Tendsto (fun t => (g t).position.y) (𝓝 0) (𝓝 out.position.y) ∧
    Tendsto (fun t => (g t).position.z) (𝓝 0) (𝓝 out.position.z) ∧
    Tendsto (fun t => (g t).direction.x) (𝓝 0) (𝓝 out.direction.x) ∧
    Tendsto (fun t => (g t).direction.y) (𝓝 0) (𝓝 out.direction.y) ∧
    Tendsto (fun t => (g t).direction.z) (𝓝 0) (𝓝 out.direction.z) := by
  obtain ⟨k, k1, k2, k3⟩ := C104_system h hf h0
  have e : ∀ᶠ t in 𝓝 0, g t = k t := by
    filter_upwards [k1] with t e
    rw [hg t, Option.some.injEq] at e
    exact e
  have e0 : g 0 = out := by rw [e.self_of_nhds, k2]
  obtain ⟨p1, p2, p3⟩ := smooth_iff.1 (k3.position.congr (e.mono fun t e => by rw [e]) : Smooth fun t => (g t).position)
  obtain ⟨d1, d2, d3⟩ := smooth_iff.1 (k3.direction.congr (e.mono fun t e => by rw [e]) : Smooth fun t => (g t).direction)
  rw [← e0]
  exact ⟨p1.continuousAt, p2.continuousAt, p3.continuousAt, d1.continuousAt, d2.continuousAt, d3.continuousAt⟩

theorem Monochromatic.sweep {f : ℝ → Ray} (h : Monochromatic f) (hi : 0 < (f 0).index) : ∃ p d, Sweep f p d := by
  obtain ⟨p, hp⟩ := h.position
  obtain ⟨d, hd⟩ := h.direction
  exact ⟨p, d, hp, hd, h.unit, h.medium.mono fun t e => e.2.1, hi⟩

/-- **C104**: a clear ray without rulings, all of whose media have a positive index, is passed smoothly in the sense
of C100. -/
theorem clear_swept {ss : List Surface} {r out : Ray} (h : Clear ss r out) (hr : ∀ s ∈ ss, s.rulings = none)
    (hm : ∀ s ∈ ss, ∀ r n, s.material.index r = some n → 0 < n) {f : ℝ → Ray} (hf : Monochromatic f)
    (hi : 0 < (f 0).index) (h0 : f 0 = r) :
    ∃ g : ℝ → Ray, Swept ss f g ∧ (∀ᶠ t in 𝓝 0, propagateSurfaces ss (f t) = some (g t)) ∧ g 0 = out ∧
      ∃ P D, Sweep g P D := by
  induction h generalizing f with
  | nil r => exact ⟨f, .nil f, Eventually.of_forall fun t => propagateSurfaces_nil _, h0, hf.sweep hi⟩
  | @cons s ss r r' out first rest ih =>
    obtain ⟨g, g1, g2, g3, g4, g5⟩ := C104_surface first hf h0
    have hgi : 0 < (g 0).index := by
      rw [g2]
      have h1 := first.traced
      rw [Surface.propagate_eq, Option.map_eq_some_iff] at h1
      obtain ⟨o, ho, rfl⟩ := h1
      obtain ⟨q0, n0, r1, n2, b, e1, e2, att, hq0, hn0, heff, hp, hw, hi, ha, hv, hI, hn2, hn20, hr0, hb,
        he1, he2, hatt, ow, op, od, oI, oa, oi, hclip⟩ := propagateLocal_eq_some ho
      show 0 < o.index
      rw [oi]
      exact hm s (by simp) _ _ hn2
    obtain ⟨k, k1, k2, k3, k4⟩ := ih (fun s hs => hr s (by simp [hs])) (fun s hs => hm s (by simp [hs])) g3 hgi g2
    obtain ⟨p, d, hpd⟩ := g3.sweep hgi
    refine ⟨k, .cons ⟨g1, g5, g4, ?_⟩ hpd k1, ?_, k3, k4⟩
    · intro n hn
      obtain ⟨n', a0, a1, -⟩ := first.aslant
      rw [g2, a0, Option.some.injEq] at hn
      rw [h0, ← hn]
      exact a1
    · filter_upwards [g1, k2] with t e1 e2
      rw [propagateSurfaces_cons, e1]
      exact e2

/-- **C100**, for all curves of rays through a clear ray: the etendue that two of them span is kept by the system. -/
theorem C100_clear {ss : List Surface} {r out : Ray} (h : Clear ss r out)
    (hs : ∀ s ∈ ss, s.rulings = none ∧ SmoothNormal s.sag ∧ ∀ r n, s.material.index r = some n → 0 < n)
    (hi : 0 < r.index) {f1 f2 : ℝ → Ray} (m1 : Monochromatic f1) (m2 : Monochromatic f2) (z1 : f1 0 = r) (z2 : f2 0 = r)
    {p1 d1 p2 d2 : V3} (hp1 : Moving (fun t => (f1 t).position) p1) (hd1 : Moving (fun t => (f1 t).direction) d1)
    (hp2 : Moving (fun t => (f2 t).position) p2) (hd2 : Moving (fun t => (f2 t).direction) d2) :
    ∃ (g1 g2 : ℝ → Ray) (P1 D1 P2 D2 : V3),
      (∀ᶠ t in 𝓝 0, propagateSurfaces ss (f1 t) = some (g1 t)) ∧
      (∀ᶠ t in 𝓝 0, propagateSurfaces ss (f2 t) = some (g2 t)) ∧
      Moving (fun t => (g1 t).position) P1 ∧ Moving (fun t => (g1 t).direction) D1 ∧
      Moving (fun t => (g2 t).position) P2 ∧ Moving (fun t => (g2 t).direction) D2 ∧
      etendue out.index P1 D1 P2 D2 = etendue r.index p1 d1 p2 d2 := by
  obtain ⟨g1, a1, a2, a3, P1, D1, a4⟩ := clear_swept h (fun s h => (hs s h).1) (fun s h => (hs s h).2.2) m1
    (by rw [z1]; exact hi) z1
  obtain ⟨g2, b1, b2, b3, P2, D2, b4⟩ := clear_swept h (fun s h => (hs s h).1) (fun s h => (hs s h).2.2) m2
    (by rw [z2]; exact hi) z2
  refine ⟨g1, g2, P1, D1, P2, D2, a2, b2, a4.position, a4.direction, b4.position, b4.direction, ?_⟩
  have := C100_system (fun s h => ⟨(hs s h).1, (hs s h).2.1⟩) a1 b1 (z1.trans z2.symm)
    ⟨hp1, hd1, m1.unit, m1.medium.mono fun t e => e.2.1, by rw [z1]; exact hi⟩
    ⟨hp2, hd2, m2.unit, m2.medium.mono fun t e => e.2.1, by rw [z2]; exact hi⟩ a4 b4
  rw [a3, z1] at this
  exact this

/-! ## Sags, materials and rulings -/

/-- **C104**: plane surfaces are smooth at all rays that are not parallel to them. -/
theorem C104_flat {o u : V3} (hz : u.z ≠ 0) : flatSag.SmoothAt o u := by
  intro p d hp hd p0 d0 _
  obtain ⟨p1, p2, p3⟩ := smooth_iff.1 hp
  obtain ⟨d1, d2, d3⟩ := smooth_iff.1 hd
  have hz' : (d 0).z ≠ 0 := by rw [d0]; exact hz
  refine ⟨fun t => p t + (-(p t).z / (d t).z) • d t, fun _ => ⟨0, 0, -1⟩,
    hp.add (Smooth.smul (p3.neg.div d3 hz') hd), ⟨_, Moving.const _⟩, ?_⟩
  filter_upwards [d3.continuousAt.eventually_ne hz'] with t ht
  refine ⟨?_, rfl, ?_, by simp [V3.dot], ⟨_, rfl⟩⟩
  · show flatIntercept _ _ = _
    unfold flatIntercept
    rw [div?_of_ne ht]
    simp only [Option.bind_eq_bind, Option.bind_some, Option.pure_def, Option.some.injEq]
    ext <;> vsimp <;> ring
  · show some (0 : ℝ) = some _
    congr 1
    simp only [add_z, smul_z]
    field_simp
    ring

/-- **C104**: spheres are smooth at all rays that meet them at an angle inside of the rim. -/
theorem C104_sphere {R : ℝ} {o u q n : V3} (hu : u.dot u = 1) (hq : (sphereSag R).intercept o u = some q)
    (hon : OnGraph (sphereSag R).height q) (hn : (sphereSag R).normal q = some n) (hz : n.z ≠ 0)
    (ha : u.dot n ≠ 0) : (sphereSag R).SmoothAt o u := by
  obtain ⟨hR, hon1, hon2⟩ := onGraph_sphere.1 hon
  -- the normal
  have hn' : sphereNormal R q = some n := hn
  unfold sphereNormal at hn'
  simp only [Option.bind_eq_bind, Option.bind_eq_some_iff, div?_eq_some, sqrt?_eq_some, Option.pure_def,
    Option.some.injEq] at hn'
  obtain ⟨c, ⟨-, rfl⟩, s, ⟨hs0, rfl⟩, rfl⟩ := hn'
  have hs1 : 0 < 1 - (1 / R * q.x) ^ 2 - (1 / R * q.y) ^ 2 :=
    lt_of_le_of_ne hs0 fun h0 => hz (by show -Real.sqrt _ = 0; rw [← h0]; simp)
  have hs2 := Real.sq_sqrt hs0
  set S := Real.sqrt (1 - (1 / R * q.x) ^ 2 - (1 / R * q.y) ^ 2) with hS
  have hR2 : 0 < R ^ 2 := by positivity
  have hqz : R * q.z < R ^ 2 := by
    refine lt_of_le_of_ne hon2 fun h0 => ?_
    have h1 : q.z = R := by
      have : R * (q.z - R) = 0 := by linarith
      rcases mul_eq_zero.1 this with h | h
      · exact absurd h hR
      · linarith
    rw [h1] at hon1
    have : 1 - (1 / R * q.x) ^ 2 - (1 / R * q.y) ^ 2 = 0 := by
      field_simp; linarith
    linarith
  have hSz : S = (R - q.z) / R := by
    have h1 : 0 ≤ (R - q.z) / R := by
      rw [show (R - q.z) / R = (R ^ 2 - R * q.z) / R ^ 2 by field_simp]
      exact div_nonneg (by linarith) hR2.le
    rw [hS, show 1 - (1 / R * q.x) ^ 2 - (1 / R * q.y) ^ 2 = ((R - q.z) / R) ^ 2 by field_simp; linarith]
    exact Real.sqrt_sq h1
  -- the intercept
  have hq' : sphereIntercept R o u = some q := hq
  unfold sphereIntercept at hq'
  simp only [Option.bind_eq_bind, Option.bind_eq_some_iff, sqrt?_eq_some, Option.pure_def, Option.some.injEq] at hq'
  obtain ⟨w, ⟨hD0, rfl⟩, hqq⟩ := hq'
  set B := u.x * o.x + u.y * o.y + u.z * (o.z - R) with hB
  set D := B ^ 2 - (o.x ^ 2 + o.y ^ 2 + (o.z - R) ^ 2 - R ^ 2) with hD
  have qx := congrArg V3.x hqq
  have qy := congrArg V3.y hqq
  have qz := congrArg V3.z hqq
  simp only at qx qy qz
  have hun : R * u.dot ⟨1 / R * q.x, 1 / R * q.y, -S⟩ = -(sgn (R * u.z) * Real.sqrt D) := by
    rw [hSz]
    simp only [V3.dot] at hu ⊢
    have : R * (u.x * (1 / R * q.x) + u.y * (1 / R * q.y) + u.z * -((R - q.z) / R))
        = u.x * q.x + u.y * q.y + u.z * (q.z - R) := by field_simp; ring
    rw [this, ← qx, ← qy, ← qz]
    linear_combination (-B - sgn (R * u.z) * Real.sqrt D) * hu + hB
  have hD1 : 0 < D := by
    refine lt_of_le_of_ne hD0 fun h0 => ?_
    rw [← h0] at hun
    simp only [Real.sqrt_zero, mul_zero, neg_zero] at hun
    rcases mul_eq_zero.1 hun with h | h
    · exact hR h
    · exact ha h
  have huz : R * u.z ≠ 0 := by
    intro h0
    rw [h0, sgn_zero] at hun
    simp only [zero_mul, neg_zero] at hun
    rcases mul_eq_zero.1 hun with h | h
    · exact hR h
    · exact ha h
  intro p d hp hd p0 d0 hdd
  obtain ⟨p1, p2, p3⟩ := smooth_iff.1 hp
  obtain ⟨d1, d2, d3⟩ := smooth_iff.1 hd
  have hBt : DifferentiableAt ℝ (fun t => (d t).x * (p t).x + (d t).y * (p t).y + (d t).z * ((p t).z - R)) 0 :=
    ((d1.mul p1).add (d2.mul p2)).add (d3.mul (p3.sub_const R))
  have hDt : DifferentiableAt ℝ (fun t => ((d t).x * (p t).x + (d t).y * (p t).y + (d t).z * ((p t).z - R)) ^ 2
      - ((p t).x ^ 2 + (p t).y ^ 2 + ((p t).z - R) ^ 2 - R ^ 2)) 0 :=
    (hBt.pow 2).sub ((((p1.pow 2).add (p2.pow 2)).add ((p3.sub_const R).pow 2)).sub_const _)
  have hDp : 0 < ((d 0).x * (p 0).x + (d 0).y * (p 0).y + (d 0).z * ((p 0).z - R)) ^ 2
      - ((p 0).x ^ 2 + (p 0).y ^ 2 + ((p 0).z - R) ^ 2 - R ^ 2) := by rw [p0, d0]; exact hD1
  let Q : ℝ → V3 := fun t => p t + (-((d t).x * (p t).x + (d t).y * (p t).y + (d t).z * ((p t).z - R))
      - sgn (R * u.z) * Real.sqrt (((d t).x * (p t).x + (d t).y * (p t).y + (d t).z * ((p t).z - R)) ^ 2
      - ((p t).x ^ 2 + (p t).y ^ 2 + ((p t).z - R) ^ 2 - R ^ 2))) • d t
  have hQ : Smooth Q := hp.add (Smooth.smul (hBt.neg.sub ((hDt.sqrt hDp.ne').const_mul _)) hd)
  have hQ0 : Q 0 = q := by
    rw [← hqq]
    simp only [Q, p0, d0]
    ext <;> vsimp <;> ring
  obtain ⟨Q1, Q2, Q3⟩ := smooth_iff.1 hQ
  have hSt : DifferentiableAt ℝ (fun t => 1 - (1 / R * (Q t).x) ^ 2 - (1 / R * (Q t).y) ^ 2) 0 :=
    ((((Q1.const_mul _).pow 2).const_sub 1).sub ((Q2.const_mul _).pow 2))
  have hSp : 0 < 1 - (1 / R * (Q 0).x) ^ 2 - (1 / R * (Q 0).y) ^ 2 := by rw [hQ0]; exact hs1
  refine ⟨Q, fun t => ⟨1 / R * (Q t).x, 1 / R * (Q t).y,
    -Real.sqrt (1 - (1 / R * (Q t).x) ^ 2 - (1 / R * (Q t).y) ^ 2)⟩, hQ,
    smooth_iff.2 ⟨Q1.const_mul _, Q2.const_mul _, (hSt.sqrt hSp.ne').neg⟩, ?_⟩
  have hsg := sgn_steady (f := fun t => R * (d t).z) (d3.const_mul R).continuousAt (by rw [d0]; exact huz)
  have hrim : ∀ᶠ t in 𝓝 0, R * (Q t).z < R ^ 2 :=
    (Q3.const_mul R).continuousAt.eventually_lt_const (by show R * (Q 0).z < _; rw [hQ0]; exact hqz)
  filter_upwards [hdd, hDt.continuousAt.eventually_const_lt hDp, hSt.continuousAt.eventually_const_lt hSp, hsg, hrim]
    with t ht hDt' hSt' hsg' hrim'
  rw [d0] at hsg'
  refine ⟨?_, ?_, ?_, ?_, ⟨_, rfl⟩⟩
  · show sphereIntercept R _ _ = _
    unfold sphereIntercept
    simp only [Option.bind_eq_bind, Option.bind_eq_some_iff, sqrt?_eq_some, Option.pure_def, Option.some.injEq]
    refine ⟨_, ⟨hDt'.le, rfl⟩, ?_⟩
    rw [hsg']
    ext <;> simp only [Q] <;> vsimp <;> ring
  · show sphereNormal R _ = _
    unfold sphereNormal
    simp only [Option.bind_eq_bind, Option.bind_eq_some_iff, div?_eq_some, sqrt?_eq_some, Option.pure_def,
      Option.some.injEq]
    exact ⟨_, ⟨hR, rfl⟩, _, ⟨hSt'.le, rfl⟩, rfl⟩
  · refine onGraph_sphere.2 ⟨hR, ?_, hrim'.le⟩
    have hw := Real.sq_sqrt hDt'.le
    have hg2 := sgn_sq huz
    simp only [Q, add_x, add_y, add_z, smul_x, smul_y, smul_z]
    simp only [V3.dot] at ht
    set W := Real.sqrt (((d t).x * (p t).x + (d t).y * (p t).y + (d t).z * ((p t).z - R)) ^ 2
      - ((p t).x ^ 2 + (p t).y ^ 2 + ((p t).z - R) ^ 2 - R ^ 2))
    set b := (d t).x * (p t).x + (d t).y * (p t).y + (d t).z * ((p t).z - R) with hb
    linear_combination (-b - sgn (R * u.z) * W) ^ 2 * ht + W ^ 2 * hg2 + hw - 2 * (-b - sgn (R * u.z) * W) * hb
  · have := Real.sq_sqrt hSt'.le
    simp only [V3.dot]
    linear_combination this

/-- **C104**: paraboloids are smooth at all rays that meet them at an angle and are not taken to be parallel to the
axis. -/
theorem C104_parabola_partial {f : ℝ} {o u q n : V3} (hw : 1e-10 < u.x ^ 2 + u.y ^ 2)
    (hq : (parabolaSag f).intercept o u = some q) (hn : (parabolaSag f).normal q = some n) (ha : u.dot n ≠ 0) :
    (parabolaSag f).SmoothAt o u := by
  have hw0 : u.x ^ 2 + u.y ^ 2 ≠ 0 := by intro h; rw [h] at hw; norm_num at hw
  -- the normal
  have hn' : parabolaNormal f q = some n := hn
  unfold parabolaNormal at hn'
  simp only [Option.bind_eq_bind, Option.bind_eq_some_iff, div?_eq_some, sqrt?_eq_some, Option.pure_def,
    Option.some.injEq] at hn'
  obtain ⟨_, ⟨hf2, rfl⟩, _, ⟨-, rfl⟩, s, ⟨hs0, rfl⟩, _, ⟨-, rfl⟩, _, ⟨-, rfl⟩, _, ⟨-, rfl⟩, rfl⟩ := hn'
  have hf : f ≠ 0 := fun h => hf2 (by rw [h]; ring)
  have hpos : ∀ v : V3, 0 < (v.x / (2 * f)) ^ 2 + (v.y / (2 * f)) ^ 2 + 1 := fun v => by positivity
  have hS0 : Real.sqrt ((q.x / (2 * f)) ^ 2 + (q.y / (2 * f)) ^ 2 + 1) ≠ 0 := (Real.sqrt_pos.2 (hpos q)).ne'
  have hG : u.x * q.x + u.y * q.y - 2 * f * u.z ≠ 0 := by
    intro h0
    apply ha
    simp only [V3.dot]
    rw [show ∀ a b c S : ℝ, u.x * (a / S / (2 * f)) + u.y * (b / S / (2 * f)) + u.z * (c / S / (2 * f))
      = (u.x * a + u.y * b + u.z * c) / S / (2 * f) by intros; ring]
    rw [show u.x * q.x + u.y * q.y + u.z * -(2 * f) = 0 by linarith]
    simp
  -- the intercept
  have hq' : parabolaIntercept f o u = some q := hq
  unfold parabolaIntercept at hq'
  rw [if_pos hw] at hq'
  simp only [Option.bind_eq_bind, Option.bind_eq_some_iff, sqrt?_eq_some, div?_eq_some, Option.pure_def,
    Option.some.injEq] at hq'
  obtain ⟨_, ⟨hD0, rfl⟩, T, ⟨-, hT⟩, hqq⟩ := hq'
  have qx := congrArg V3.x hqq
  have qy := congrArg V3.y hqq
  simp only at qx qy
  set D := -(o.y * u.x) ^ 2 - (o.x * u.y) ^ 2 + 2 * o.y * u.y * (o.x * u.x - 2 * f * u.z)
        + 4 * f * (o.z * (u.x ^ 2 + u.y ^ 2) - o.x * u.x * u.z + f * u.z ^ 2) with hD
  have hTw : T * (u.x ^ 2 + u.y ^ 2) = -o.x * u.x - o.y * u.y + 2 * f * u.z - sgn (f * u.z) * Real.sqrt D := by
    rw [hT]; field_simp
  have hGs : u.x * q.x + u.y * q.y - 2 * f * u.z = -(sgn (f * u.z) * Real.sqrt D) := by
    rw [← qx, ← qy]; linear_combination hTw
  rw [hGs] at hG
  have hD1 : 0 < D := lt_of_le_of_ne hD0 fun h0 => hG (by rw [← h0]; simp)
  have huz : f * u.z ≠ 0 := fun h0 => hG (by rw [h0, sgn_zero]; simp)
  intro p d hp hd p0 d0 _
  obtain ⟨p1, p2, p3⟩ := smooth_iff.1 hp
  obtain ⟨d1, d2, d3⟩ := smooth_iff.1 hd
  let E : ℝ → ℝ := fun t => -((p t).y * (d t).x) ^ 2 - ((p t).x * (d t).y) ^ 2
        + 2 * (p t).y * (d t).y * ((p t).x * (d t).x - 2 * f * (d t).z)
        + 4 * f * ((p t).z * ((d t).x ^ 2 + (d t).y ^ 2) - (p t).x * (d t).x * (d t).z + f * (d t).z ^ 2)
  have hE : DifferentiableAt ℝ E 0 := by fun_prop
  have hE0 : 0 < E 0 := by simp only [E, p0, d0]; exact hD1
  let W : ℝ → ℝ := fun t => (d t).x ^ 2 + (d t).y ^ 2
  have hW : DifferentiableAt ℝ W 0 := by fun_prop
  have hW0 : 1e-10 < W 0 := by simp only [W, d0]; exact hw
  have hW1 : W 0 ≠ 0 := by simp only [W, d0]; exact hw0
  let τ : ℝ → ℝ := fun t => (-(p t).x * (d t).x - (p t).y * (d t).y + 2 * f * (d t).z
    - sgn (f * u.z) * Real.sqrt (E t)) / W t
  have hτ : DifferentiableAt ℝ τ 0 := by
    refine DifferentiableAt.div ?_ hW hW1
    refine DifferentiableAt.sub (by fun_prop) ((hE.sqrt hE0.ne').const_mul _)
  let Q : ℝ → V3 := fun t => p t + τ t • d t
  have hQ : Smooth Q := hp.add (Smooth.smul hτ hd)
  have hQ0 : Q 0 = q := by
    rw [← hqq, hT]
    simp only [Q, τ, E, W, p0, d0]
    ext <;> vsimp <;> ring
  obtain ⟨Q1, Q2, Q3⟩ := smooth_iff.1 hQ
  let S : ℝ → ℝ := fun t => Real.sqrt (((Q t).x / (2 * f)) ^ 2 + ((Q t).y / (2 * f)) ^ 2 + 1)
  have hS : DifferentiableAt ℝ S 0 := by
    refine DifferentiableAt.sqrt ?_ (hpos (Q 0)).ne'
    exact (((Q1.div_const _).pow 2).add ((Q2.div_const _).pow 2)).add_const 1
  have hSp : ∀ t, S t ≠ 0 := fun t => (Real.sqrt_pos.2 (hpos (Q t))).ne'
  refine ⟨Q, fun t => ⟨(Q t).x / S t / (2 * f), (Q t).y / S t / (2 * f), -(2 * f) / S t / (2 * f)⟩, hQ,
    smooth_iff.2 ⟨(Q1.div hS (hSp 0)).div_const _, (Q2.div hS (hSp 0)).div_const _,
      ((differentiableAt_const _).div hS (hSp 0)).div_const _⟩, ?_⟩
  have hsg := sgn_steady (f := fun t => f * (d t).z) (d3.const_mul f).continuousAt (by rw [d0]; exact huz)
  filter_upwards [hE.continuousAt.eventually_const_lt hE0, hW.continuousAt.eventually_const_lt hW0,
    hW.continuousAt.eventually_ne hW1, hsg] with t ht1 ht2 ht3 hsg'
  rw [d0] at hsg'
  refine ⟨?_, ?_, ?_, ?_, ⟨_, rfl⟩⟩
  · show parabolaIntercept f _ _ = _
    unfold parabolaIntercept
    rw [if_pos ht2]
    simp only [Option.bind_eq_bind, Option.bind_eq_some_iff, sqrt?_eq_some, div?_eq_some, Option.pure_def,
      Option.some.injEq]
    refine ⟨_, ⟨ht1.le, rfl⟩, _, ⟨ht3, rfl⟩, ?_⟩
    rw [hsg']
    ext <;> simp only [Q, τ, W, E] <;> vsimp <;> ring
  · show parabolaNormal f _ = _
    unfold parabolaNormal
    simp only [Option.bind_eq_bind, Option.bind_eq_some_iff, div?_eq_some, sqrt?_eq_some, Option.pure_def,
      Option.some.injEq]
    exact ⟨_, ⟨hf2, rfl⟩, _, ⟨hf2, rfl⟩, _, ⟨(hpos (Q t)).le, rfl⟩, _, ⟨hf2, rfl⟩, _, ⟨hf2, rfl⟩, _, ⟨hf2, rfl⟩, rfl⟩
  · refine onGraph_parabola.2 ⟨hf, ?_⟩
    have hw' := Real.sq_sqrt ht1.le
    have hg2 := sgn_sq huz
    have hτt : τ t * W t = -(p t).x * (d t).x - (p t).y * (d t).y + 2 * f * (d t).z
        - sgn (f * u.z) * Real.sqrt (E t) := by simp only [τ]; field_simp
    have key : (τ t * W t + ((p t).x * (d t).x + (p t).y * (d t).y - 2 * f * (d t).z)) ^ 2 = E t := by
      rw [hτt]; linear_combination (Real.sqrt (E t)) ^ 2 * hg2 + hw'
    have : W t * ((Q t).x ^ 2 + (Q t).y ^ 2 - 4 * f * (Q t).z) = 0 := by
      simp only [Q, add_x, add_y, add_z, smul_x, smul_y, smul_z]
      simp only [W, E] at key ⊢
      linear_combination key
    rcases mul_eq_zero.1 this with h | h
    · exact absurd h ht3
    · linarith
  · have h1 := Real.sq_sqrt (hpos (Q t)).le
    have h2 := hSp t
    simp only [V3.dot]
    have h3 : S t ^ 2 * (2 * f) ^ 2 = (Q t).x ^ 2 + (Q t).y ^ 2 + (2 * f) ^ 2 := by
      rw [show S t ^ 2 = _ from h1]; field_simp
    field_simp
    linarith

/-- **C104**: cylinders are smooth at all rays that meet them at an angle inside of the rim. -/
theorem C104_cylinder {R : ℝ} {o u q n : V3} (hq : (cylinderSag R).intercept o u = some q)
    (hon : OnGraph (cylinderSag R).height q) (hn : (cylinderSag R).normal q = some n) (hz : n.z ≠ 0)
    (ha : u.dot n ≠ 0) : (cylinderSag R).SmoothAt o u := by
  obtain ⟨hR, hon1, hon2⟩ := onGraph_cylinder.1 hon
  have hn' : cylinderNormal R q = some n := hn
  unfold cylinderNormal at hn'
  simp only [Option.bind_eq_bind, Option.bind_eq_some_iff, div?_eq_some, sqrt?_eq_some, Option.pure_def,
    Option.some.injEq] at hn'
  obtain ⟨_, ⟨-, rfl⟩, s, ⟨hs0, rfl⟩, rfl⟩ := hn'
  have hs1 : 0 < 1 - (q.x / R) ^ 2 :=
    lt_of_le_of_ne hs0 fun h0 => hz (by show -Real.sqrt _ = 0; rw [← h0]; simp)
  set S := Real.sqrt (1 - (q.x / R) ^ 2) with hS
  have hR2 : 0 < R ^ 2 := by positivity
  have hqz : R * q.z < R ^ 2 := by
    refine lt_of_le_of_ne hon2 fun h0 => ?_
    have h1 : q.z = R := by
      have : R * (q.z - R) = 0 := by linarith
      rcases mul_eq_zero.1 this with h | h
      · exact absurd h hR
      · linarith
    rw [h1] at hon1
    have : 1 - (q.x / R) ^ 2 = 0 := by
      field_simp; linarith
    linarith
  have hSz : S = (R - q.z) / R := by
    have h1 : 0 ≤ (R - q.z) / R := by
      rw [show (R - q.z) / R = (R ^ 2 - R * q.z) / R ^ 2 by field_simp]
      exact div_nonneg (by linarith) hR2.le
    rw [hS, show 1 - (q.x / R) ^ 2 = ((R - q.z) / R) ^ 2 by field_simp; linarith]
    exact Real.sqrt_sq h1
  have hG : u.x * q.x + u.z * (q.z - R) ≠ 0 := by
    intro h0
    apply ha
    rw [hSz]
    simp only [V3.dot]
    rw [show u.x * (q.x / R) + u.y * 0 + u.z * -((R - q.z) / R) = (u.x * q.x + u.z * (q.z - R)) / R by
      field_simp; ring, h0, zero_div]
  -- the intercept
  obtain ⟨T, hT⟩ := cylinderIntercept_onLine (show cylinderIntercept R o u = some q from hq)
  have qx := congrArg V3.x hT
  have qz := congrArg V3.z hT
  simp only [add_x, add_z, smul_x, smul_z] at qx qz
  have hDG : (u.x ^ 2 + u.z ^ 2) * R ^ 2 - ((R - o.z) * u.x + o.x * u.z) ^ 2
      = (u.x * q.x + u.z * (q.z - R)) ^ 2 := by
    rw [← hon1, qx, qz]; ring
  have hD1 : 0 < (u.x ^ 2 + u.z ^ 2) * R ^ 2 - ((R - o.z) * u.x + o.x * u.z) ^ 2 := by rw [hDG]; positivity
  have hA : u.x ^ 2 + u.z ^ 2 ≠ 0 := by
    intro h0
    rw [h0] at hD1
    nlinarith [sq_nonneg ((R - o.z) * u.x + o.x * u.z)]
  have form : ∀ o u : V3, 0 < (u.x ^ 2 + u.z ^ 2) * R ^ 2 - ((R - o.z) * u.x + o.x * u.z) ^ 2 →
      u.x ^ 2 + u.z ^ 2 ≠ 0 → cylinderIntercept R o u = some (o + ((-(o.x * u.x) + (R - o.z) * u.z - sgn (R * u.z) *
        Real.sqrt ((u.x ^ 2 + u.z ^ 2) * R ^ 2 - ((R - o.z) * u.x + o.x * u.z) ^ 2)) / (u.x ^ 2 + u.z ^ 2)) • u) := by
    intro o u h h0
    unfold cylinderIntercept
    simp only
    have e1 : (u.cross ⟨0, 1, 0⟩).dot (u.cross ⟨0, 1, 0⟩) = u.x ^ 2 + u.z ^ 2 := by
      simp only [V3.dot, V3.cross]; ring
    have e2 : ((⟨0, 0, R⟩ : V3) - o).dot (u.cross ⟨0, 1, 0⟩) = (R - o.z) * u.x + o.x * u.z := by
      simp only [V3.dot, V3.cross, sub_x, sub_y, sub_z]; ring
    have e3 : (u.cross ⟨0, 1, 0⟩).dot (((⟨0, 0, R⟩ : V3) - o).cross ⟨0, 1, 0⟩) = -(o.x * u.x) + (R - o.z) * u.z := by
      simp only [V3.dot, V3.cross, sub_x, sub_y, sub_z]; ring
    rw [e1, e2, e3, if_pos h, div?_of_ne h0]
    simp only [Option.bind_eq_bind, Option.bind_some, Option.pure_def, Option.some.injEq]
    rfl
  have hq2 := form o u hD1 hA
  rw [show cylinderIntercept R o u = some q from hq, Option.some.injEq] at hq2
  set D := (u.x ^ 2 + u.z ^ 2) * R ^ 2 - ((R - o.z) * u.x + o.x * u.z) ^ 2 with hD
  have huz : R * u.z ≠ 0 := by
    intro h0
    apply hG
    have qx' := congrArg V3.x hq2
    have qz' := congrArg V3.z hq2
    simp only [add_x, add_z, smul_x, smul_z, h0, sgn_zero, zero_mul, sub_zero] at qx' qz'
    rw [qx', qz']
    field_simp
    ring
  intro p d hp hd p0 d0 _
  obtain ⟨p1, p2, p3⟩ := smooth_iff.1 hp
  obtain ⟨d1, d2, d3⟩ := smooth_iff.1 hd
  let W : ℝ → ℝ := fun t => (d t).x ^ 2 + (d t).z ^ 2
  have hW : DifferentiableAt ℝ W 0 := by fun_prop
  have hW1 : W 0 ≠ 0 := by simp only [W, d0]; exact hA
  let E : ℝ → ℝ := fun t => ((d t).x ^ 2 + (d t).z ^ 2) * R ^ 2 - ((R - (p t).z) * (d t).x + (p t).x * (d t).z) ^ 2
  have hE : DifferentiableAt ℝ E 0 := by fun_prop
  have hE0 : 0 < E 0 := by simp only [E, p0, d0]; exact hD1
  let τ : ℝ → ℝ := fun t => (-((p t).x * (d t).x) + (R - (p t).z) * (d t).z - sgn (R * u.z) * Real.sqrt (E t)) / W t
  have hτ : DifferentiableAt ℝ τ 0 := by
    refine DifferentiableAt.div ?_ hW hW1
    refine DifferentiableAt.sub (by fun_prop) ((hE.sqrt hE0.ne').const_mul _)
  let Q : ℝ → V3 := fun t => p t + τ t • d t
  have hQ : Smooth Q := hp.add (Smooth.smul hτ hd)
  have hQ0 : Q 0 = q := by
    rw [hq2]
    simp only [Q, τ, E, W, p0, d0, hD]
  obtain ⟨Q1, Q2, Q3⟩ := smooth_iff.1 hQ
  have hSt : DifferentiableAt ℝ (fun t => 1 - ((Q t).x / R) ^ 2) 0 := ((Q1.div_const _).pow 2).const_sub 1
  have hSp : 0 < 1 - ((Q 0).x / R) ^ 2 := by rw [hQ0]; exact hs1
  refine ⟨Q, fun t => ⟨(Q t).x / R, 0, -Real.sqrt (1 - ((Q t).x / R) ^ 2)⟩, hQ,
    smooth_iff.2 ⟨Q1.div_const _, differentiableAt_const _, (hSt.sqrt hSp.ne').neg⟩, ?_⟩
  have hsg := sgn_steady (f := fun t => R * (d t).z) (d3.const_mul R).continuousAt (by rw [d0]; exact huz)
  have hrim : ∀ᶠ t in 𝓝 0, R * (Q t).z < R ^ 2 :=
    (Q3.const_mul R).continuousAt.eventually_lt_const (by show R * (Q 0).z < _; rw [hQ0]; exact hqz)
  filter_upwards [hE.continuousAt.eventually_const_lt hE0, hW.continuousAt.eventually_ne hW1,
    hSt.continuousAt.eventually_const_lt hSp, hsg, hrim] with t ht1 ht3 hSt' hsg' hrim'
  rw [d0] at hsg'
  refine ⟨?_, ?_, ?_, ?_, ⟨_, rfl⟩⟩
  · show cylinderIntercept R _ _ = _
    rw [form _ _ ht1 ht3, hsg']
  · show cylinderNormal R _ = _
    unfold cylinderNormal
    simp only [Option.bind_eq_bind, Option.bind_eq_some_iff, div?_eq_some, sqrt?_eq_some, Option.pure_def,
      Option.some.injEq]
    exact ⟨_, ⟨hR, rfl⟩, _, ⟨hSt'.le, rfl⟩, rfl⟩
  · refine onGraph_cylinder.2 ⟨hR, ?_, hrim'.le⟩
    have hw' := Real.sq_sqrt ht1.le
    have hg2 := sgn_sq huz
    have hτt : τ t * W t = -((p t).x * (d t).x) + (R - (p t).z) * (d t).z
        - sgn (R * u.z) * Real.sqrt (E t) := by simp only [τ]; field_simp
    have key : (τ t * W t + ((p t).x * (d t).x - (R - (p t).z) * (d t).z)) ^ 2 = E t := by
      rw [hτt]; linear_combination (Real.sqrt (E t)) ^ 2 * hg2 + hw'
    have : W t * ((Q t).x ^ 2 + ((Q t).z - R) ^ 2 - R ^ 2) = 0 := by
      simp only [Q, add_x, add_z, smul_x, smul_z]
      simp only [W, E] at key ⊢
      linear_combination key
    rcases mul_eq_zero.1 this with h | h
    · exact absurd h ht3
    · linarith
  · have := Real.sq_sqrt hSt'.le
    simp only [V3.dot]
    linear_combination this

/-- The candidate roots of a conic surface along lines that are not close to an asymptote. -/
theorem conicRoot_far {c kp1 : ℝ} {o u : V3} {sign : ℝ}
    (ha : 1e-12 < |c * (u.x ^ 2 + u.y ^ 2 + kp1 * u.z ^ 2)|)
    (hD : 0 ≤ (2 * (c * (o.x * u.x + o.y * u.y + kp1 * o.z * u.z) - u.z)) ^ 2
      - 4 * (c * (u.x ^ 2 + u.y ^ 2 + kp1 * u.z ^ 2)) * (c * (o.x ^ 2 + o.y ^ 2 + kp1 * o.z ^ 2) - 2 * o.z))
    (hs : sign ^ 2 = 1) {t : ℝ}
    (ht : t = (-(2 * (c * (o.x * u.x + o.y * u.y + kp1 * o.z * u.z) - u.z)) + sign * Real.sqrt
      ((2 * (c * (o.x * u.x + o.y * u.y + kp1 * o.z * u.z) - u.z)) ^ 2
      - 4 * (c * (u.x ^ 2 + u.y ^ 2 + kp1 * u.z ^ 2)) * (c * (o.x ^ 2 + o.y ^ 2 + kp1 * o.z ^ 2) - 2 * o.z)))
      / (2 * (c * (u.x ^ 2 + u.y ^ 2 + kp1 * u.z ^ 2)))) :
    (c * ((o.x + u.x * t) ^ 2 + (o.y + u.y * t) ^ 2 + kp1 * (o.z + u.z * t) ^ 2) - 2 * (o.z + u.z * t) = 0) ∧
    (0 < 1 - c * kp1 * (o.z + u.z * t) → conicRoot c kp1 o u sign = some t) ∧
    (1 - c * kp1 * (o.z + u.z * t) < 0 → conicRoot c kp1 o u sign = none) := by
  have ha0 : c * (u.x ^ 2 + u.y ^ 2 + kp1 * u.z ^ 2) ≠ 0 := by
    intro h; rw [h] at ha; norm_num at ha
  have hquad : c * ((o.x + u.x * t) ^ 2 + (o.y + u.y * t) ^ 2 + kp1 * (o.z + u.z * t) ^ 2) - 2 * (o.z + u.z * t) = 0 := by
    have hS := Real.sq_sqrt hD
    set A := c * (u.x ^ 2 + u.y ^ 2 + kp1 * u.z ^ 2) with hA
    set B := 2 * (c * (o.x * u.x + o.y * u.y + kp1 * o.z * u.z) - u.z) with hB
    set C := c * (o.x ^ 2 + o.y ^ 2 + kp1 * o.z ^ 2) - 2 * o.z with hC
    set S := Real.sqrt (B ^ 2 - 4 * A * C)
    have e : 2 * A * t + B = sign * S := by rw [ht]; field_simp; ring
    have e2 : (2 * A * t + B) ^ 2 = B ^ 2 - 4 * A * C := by
      rw [e]; linear_combination S ^ 2 * hs + hS
    have e3 : 4 * A * (A * t ^ 2 + B * t + C) = 0 := by linear_combination e2
    have e4 : A * t ^ 2 + B * t + C = 0 := by
      rcases mul_eq_zero.1 e3 with h | h
      · exact absurd h (mul_ne_zero (by norm_num) ha0)
      · exact h
    rw [hA, hB, hC] at e4
    linear_combination e4
  have hval : (o.z + u.z * t) * (c * ((o.x + u.x * t) ^ 2 + (o.y + u.y * t) ^ 2) - (o.z + u.z * t))
      = (o.z + u.z * t) ^ 2 * (1 - c * kp1 * (o.z + u.z * t)) := by
    linear_combination (o.z + u.z * t) * hquad
  have hform : conicRoot c kp1 o u sign = if (o.z + u.z * t) * (c * ((o.x + u.x * t) ^ 2 + (o.y + u.y * t) ^ 2) -
      (o.z + u.z * t)) ≥ 0 then some t else none := by
    unfold conicRoot
    simp only
    rw [if_neg (not_lt.2 hD), if_neg (not_lt.2 ha.le), div?_of_ne (mul_ne_zero two_ne_zero ha0), ← ht]
    simp only [Option.bind_eq_bind, Option.bind_some]
  refine ⟨hquad, fun h => ?_, fun h => ?_⟩
  · rw [hform, if_pos]
    rw [hval]
    exact mul_nonneg (sq_nonneg _) h.le
  · rw [hform, if_neg]
    rw [hval, not_le]
    refine mul_neg_of_pos_of_neg (lt_of_le_of_ne (sq_nonneg _) fun h0 => ?_) h
    have : o.z + u.z * t = 0 := by
      have := h0.symm; exact pow_eq_zero_iff (two_ne_zero) |>.1 this
    rw [this] at h
    norm_num at h

theorem conicPath_chosen {c kp1 : ℝ} {o u : V3} {t : ℝ} (h : conicPath c kp1 o u = some t) :
    ∃ σ : ℝ, (σ = 1 ∨ σ = -1) ∧ conicRoot c kp1 o u σ = some t ∧ ∀ b, conicRoot c kp1 o u (-σ) = some b → |t| ≤ |b| := by
  unfold conicPath at h
  split at h
  · simp at h
  · rename_i ta h1 h2
    rw [Option.some.injEq] at h; subst h
    exact ⟨-1, .inr rfl, h1, fun b hb => by rw [neg_neg, h2] at hb; simp at hb⟩
  · rename_i tb h1 h2
    rw [Option.some.injEq] at h; subst h
    exact ⟨1, .inl rfl, h2, fun b hb => by rw [h1] at hb; simp at hb⟩
  · rename_i ta tb h1 h2
    split at h <;> rw [Option.some.injEq] at h <;> subst h
    · refine ⟨-1, .inr rfl, h1, fun b hb => ?_⟩
      rw [neg_neg, h2, Option.some.injEq] at hb; subst hb; assumption
    · refine ⟨1, .inl rfl, h2, fun b hb => ?_⟩
      rw [h1, Option.some.injEq] at hb; subst hb
      rename_i h3
      exact (not_le.1 h3).le

theorem conicPath_of {c kp1 : ℝ} {o u : V3} {t σ : ℝ} (hσ : σ = 1 ∨ σ = -1) (h : conicRoot c kp1 o u σ = some t)
    (h2 : conicRoot c kp1 o u (-σ) = none ∨ ∃ b, conicRoot c kp1 o u (-σ) = some b ∧ |t| < |b|) :
    conicPath c kp1 o u = some t := by
  unfold conicPath
  rcases hσ with rfl | rfl
  · rcases h2 with h2 | ⟨b, h2, h3⟩
    · rw [h, h2]
    · rw [h, h2]
      exact if_neg (not_le.2 h3)
  · rw [neg_neg] at h2
    rcases h2 with h2 | ⟨b, h2, h3⟩
    · rw [h, h2]
    · rw [h, h2]
      exact if_pos h3.le

set_option maxHeartbeats 1000000 in
/-- **C104**: conic surfaces are smooth at the rays that meet them at an angle, in the case where the other point of the
line on the whole quadric is not as far away and not on the rim. -/
theorem C104_conic_partial {R k : ℝ} {o u q n : V3} {T : ℝ}
    (hfar : 1e-12 < |(1 / R) * (u.x ^ 2 + u.y ^ 2 + (1 + k) * u.z ^ 2)|)
    (hq : (conicSag R k).intercept o u = some q) (hT : q = o + T • u) (hn : (conicSag R k).normal q = some n)
    (ha : u.dot n ≠ 0)
    (hother : ∀ t, t ≠ T → (o + t • u).x ^ 2 + (o + t • u).y ^ 2 + (1 + k) * (o + t • u).z ^ 2 = 2 * R * (o + t • u).z →
      |t| ≠ |T| ∧ (1 + k) * (o + t • u).z ≠ R) :
    (conicSag R k).SmoothAt o u := by
  -- the normal
  have hn' : conicNormal R k q = some n := hn
  unfold conicNormal at hn'
  simp only [Option.bind_eq_bind, Option.bind_eq_some_iff, div?_eq_some, sqrt?_eq_some, Option.pure_def,
    Option.some.injEq] at hn'
  obtain ⟨c, ⟨hR, hc⟩, g, ⟨hg0, hg⟩, dx, ⟨hgne, hdx⟩, dy, ⟨-, hdy⟩, nx, ⟨-, hnx⟩, ny, ⟨-, hny⟩, nz, ⟨-, hnz⟩, rfl⟩ := hn'
  have hc0 : c ≠ 0 := by rw [hc]; exact one_div_ne_zero hR
  rw [← hc] at hfar
  have hA0 : c * (u.x ^ 2 + u.y ^ 2 + (1 + k) * u.z ^ 2) ≠ 0 := by intro h; rw [h] at hfar; norm_num at hfar
  have hu0 : u ≠ 0 := by
    rintro rfl
    apply hA0
    simp
  have hg2 : 0 < 1 - (1 + k) * c ^ 2 * (q.x ^ 2 + q.y ^ 2) :=
    lt_of_le_of_ne hg0 fun h0 => hgne (by rw [hg, ← h0, Real.sqrt_zero])
  have hgs : g ^ 2 = 1 - (1 + k) * c ^ 2 * (q.x ^ 2 + q.y ^ 2) := by rw [hg]; exact Real.sq_sqrt hg0
  have hgpos : 0 < g := by rw [hg]; exact Real.sqrt_pos.2 hg2
  -- the chosen root
  have hq' : conicIntercept R k o u = some q := hq
  unfold conicIntercept at hq'
  simp only [Option.bind_eq_bind, Option.bind_eq_some_iff, div?_eq_some, Option.pure_def, Option.some.injEq] at hq'
  obtain ⟨c', ⟨-, hc'⟩, T', hpath, hqq⟩ := hq'
  rw [← hc] at hc'
  subst hc'
  have hTT : T' = T := by
    have e : (T' - T) • u = 0 := by
      have : (⟨o.x + u.x * T', o.y + u.y * T', o.z + u.z * T'⟩ : V3) = o + T • u := hqq.trans hT
      have ex := congrArg V3.x this
      have ey := congrArg V3.y this
      have ez := congrArg V3.z this
      simp only [add_x, add_y, add_z, smul_x, smul_y, smul_z] at ex ey ez
      apply V3.ext
      · simp only [smul_x, V3.zero_x]; linarith
      · simp only [smul_y, V3.zero_y]; linarith
      · simp only [smul_z, V3.zero_z]; linarith
    by_contra hne
    have hne' : T' - T ≠ 0 := sub_ne_zero.2 hne
    apply hu0
    have ex := congrArg V3.x e
    have ey := congrArg V3.y e
    have ez := congrArg V3.z e
    simp only [smul_x, smul_y, smul_z, V3.zero_x, V3.zero_y, V3.zero_z, mul_eq_zero, hne', false_or] at ex ey ez
    exact V3.ext ex ey ez
  subst hTT
  let A : V3 → V3 → ℝ := fun o u => c' * (u.x ^ 2 + u.y ^ 2 + (1 + k) * u.z ^ 2)
  let B : V3 → V3 → ℝ := fun o u => 2 * (c' * (o.x * u.x + o.y * u.y + (1 + k) * o.z * u.z) - u.z)
  let C : V3 → V3 → ℝ := fun o u => c' * (o.x ^ 2 + o.y ^ 2 + (1 + k) * o.z ^ 2) - 2 * o.z
  let D : V3 → V3 → ℝ := fun o u => B o u ^ 2 - 4 * A o u * C o u
  let ρ : ℝ → V3 → V3 → ℝ := fun σ o u => (-B o u + σ * Real.sqrt (D o u)) / (2 * A o u)
  obtain ⟨σ, hσ, hroot, hnear⟩ := conicPath_chosen hpath
  have hσ2 : σ ^ 2 = 1 := by rcases hσ with rfl | rfl <;> norm_num
  have hσ2' : (-σ) ^ 2 = 1 := by rw [neg_sq]; exact hσ2
  obtain ⟨hD0, hTρ⟩ : 0 ≤ D o u ∧ T' = ρ σ o u := by
    have h := hroot
    unfold conicRoot at h
    simp only at h
    split at h
    · simp at h
    · rename_i hD
      rw [if_neg (not_lt.2 hfar.le), div?_of_ne (mul_ne_zero two_ne_zero hA0)] at h
      simp only [Option.bind_eq_bind, Option.bind_some] at h
      split at h
      · rw [Option.some.injEq] at h
        exact ⟨not_lt.1 hD, h.symm⟩
      · simp at h
  obtain ⟨hquad, -, hbad⟩ := conicRoot_far (sign := σ) hfar hD0 hσ2 hTρ
  have qx := congrArg V3.x hqq
  have qy := congrArg V3.y hqq
  have qz := congrArg V3.z hqq
  simp only at qx qy qz
  rw [qx, qy, qz] at hquad
  rw [qz] at hbad
  have he0 : (1 - c' * (1 + k) * q.z) ^ 2 = g ^ 2 := by
    rw [hgs]; linear_combination c' * (1 + k) * hquad
  have hepos : 0 ≤ 1 - c' * (1 + k) * q.z := by
    by_contra h
    rw [hbad (not_le.1 h)] at hroot
    simp at hroot
  have heg : 1 - c' * (1 + k) * q.z = g := by
    rcases sq_eq_sq_iff_eq_or_eq_neg.1 he0 with h | h
    · exact h
    · rw [h] at hepos; linarith
  have hG : 2 * A o u * T' + B o u ≠ 0 := by
    intro h0
    apply ha
    have e : c' * (u.x * q.x) + c' * (u.y * q.y) - g * u.z = 0 := by
      rw [← heg, ← qx, ← qy, ← qz]
      simp only [A, B] at h0
      linear_combination h0 / 2
    simp only [V3.dot, hnx, hny, hnz, hdx, hdy]
    rw [show ∀ l : ℝ, u.x * (c' * q.x / g / l) + u.y * (c' * q.y / g / l) + u.z * (-1 / l)
      = (c' * (u.x * q.x) + c' * (u.y * q.y) - g * u.z) / g / l by intro l; field_simp; ring, e]
    simp
  have hAne : A o u ≠ 0 := hA0
  have hσD : ∀ τ : ℝ, 2 * A o u * ρ τ o u + B o u = τ * Real.sqrt (D o u) := by
    intro τ; simp only [ρ]; field_simp; ring
  have hD1 : 0 < D o u := by
    refine lt_of_le_of_ne hD0 fun h0 => hG ?_
    rw [hTρ, hσD, ← h0, Real.sqrt_zero, mul_zero]
  have hT2 : ρ (-σ) o u ≠ T' := by
    intro h
    have h1 := hσD (-σ)
    have h2 := hσD σ
    rw [h] at h1
    rw [← hTρ] at h2
    have h3 : σ * Real.sqrt (D o u) = 0 := by linarith
    rcases mul_eq_zero.1 h3 with h4 | h4
    · rw [h4] at hσ2; norm_num at hσ2
    · exact (Real.sqrt_pos.2 hD1).ne' h4
  obtain ⟨hquad2, hgood2, hbad2⟩ := conicRoot_far (sign := -σ) (t := ρ (-σ) o u) hfar hD0 hσ2' rfl
  obtain ⟨hlen, hrim⟩ := hother _ hT2 (by
    simp only [add_x, add_y, add_z, smul_x, smul_y, smul_z]
    rw [hc] at hquad2
    field_simp at hquad2
    linear_combination hquad2)
  have he2 : 1 - c' * (1 + k) * (o.z + u.z * ρ (-σ) o u) ≠ 0 := by
    intro h0
    apply hrim
    simp only [add_z, smul_z]
    rw [hc] at h0
    field_simp at h0
    linear_combination -h0
  intro p d hp hd p0 d0 _
  obtain ⟨p1, p2, p3⟩ := smooth_iff.1 hp
  obtain ⟨d1, d2, d3⟩ := smooth_iff.1 hd
  have hAt : DifferentiableAt ℝ (fun t => A (p t) (d t)) 0 := by simp only [A]; fun_prop
  have hBt : DifferentiableAt ℝ (fun t => B (p t) (d t)) 0 := by simp only [B]; fun_prop
  have hCt : DifferentiableAt ℝ (fun t => C (p t) (d t)) 0 := by simp only [C]; fun_prop
  have hDt : DifferentiableAt ℝ (fun t => D (p t) (d t)) 0 := (hBt.pow 2).sub ((hAt.const_mul 4).mul hCt)
  have hDp : 0 < D (p 0) (d 0) := by rw [p0, d0]; exact hD1
  have hρt : ∀ τ : ℝ, DifferentiableAt ℝ (fun t => ρ τ (p t) (d t)) 0 := fun τ =>
    (hBt.neg.add ((hDt.sqrt hDp.ne').const_mul τ)).div (hAt.const_mul 2)
      (by rw [p0, d0]; exact mul_ne_zero two_ne_zero hAne)
  let Q : ℝ → V3 := fun t => p t + ρ σ (p t) (d t) • d t
  have hQ : Smooth Q := hp.add (Smooth.smul (hρt σ) hd)
  have hQ0 : Q 0 = q := by
    simp only [Q, p0, d0, ← hTρ]
    exact hT.symm
  obtain ⟨Q1, Q2, Q3⟩ := smooth_iff.1 hQ
  let Γ : ℝ → ℝ := fun t => 1 - (1 + k) * c' ^ 2 * ((Q t).x ^ 2 + (Q t).y ^ 2)
  have hΓ : DifferentiableAt ℝ Γ 0 := by
    exact (((Q1.pow 2).add (Q2.pow 2)).const_mul _).const_sub 1
  have hΓp : 0 < Γ 0 := by simp only [Γ, hQ0]; exact hg2
  have hgt : DifferentiableAt ℝ (fun t => Real.sqrt (Γ t)) 0 := hΓ.sqrt hΓp.ne'
  have hg1 : Real.sqrt (Γ 0) ≠ 0 := (Real.sqrt_pos.2 hΓp).ne'
  let X : ℝ → ℝ := fun t => c' * (Q t).x / Real.sqrt (Γ t)
  let Y : ℝ → ℝ := fun t => c' * (Q t).y / Real.sqrt (Γ t)
  have hX : DifferentiableAt ℝ X 0 := (Q1.const_mul c').div hgt hg1
  have hY : DifferentiableAt ℝ Y 0 := (Q2.const_mul c').div hgt hg1
  let L : ℝ → ℝ := fun t => (⟨X t, Y t, -1⟩ : V3).len
  have hLpos : ∀ t, 0 < (⟨X t, Y t, -1⟩ : V3).dot ⟨X t, Y t, -1⟩ := fun t => by
    simp only [V3.dot]; nlinarith [mul_self_nonneg (X t), mul_self_nonneg (Y t)]
  have hLt : ∀ t, L t = Real.sqrt (X t * X t + Y t * Y t + -1 * -1) := fun t => rfl
  have hL0 : ∀ t, L t ≠ 0 := fun t => (Real.sqrt_pos.2 (hLpos t)).ne'
  have hL : DifferentiableAt ℝ L 0 := by
    have : L = fun t => Real.sqrt (X t * X t + Y t * Y t + -1 * -1) := funext hLt
    rw [this]
    exact (((hX.mul hX).add (hY.mul hY)).add_const _).sqrt (hLpos 0).ne'
  refine ⟨Q, fun t => ⟨X t / L t, Y t / L t, -1 / L t⟩, hQ,
    smooth_iff.2 ⟨hX.div hL (hL0 0), hY.div hL (hL0 0), (differentiableAt_const _).div hL (hL0 0)⟩, ?_⟩
  have v1 : ∀ᶠ t in 𝓝 0, 1e-12 < |A (p t) (d t)| :=
    (continuous_abs.continuousAt.comp hAt.continuousAt).eventually_const_lt (by
      show 1e-12 < |A (p 0) (d 0)|
      rw [p0, d0]; exact hfar)
  have hez : ∀ τ : ℝ, DifferentiableAt ℝ (fun t => 1 - c' * (1 + k) * ((p t).z + (d t).z * ρ τ (p t) (d t))) 0 := fun τ =>
    ((p3.add (d3.mul (hρt τ))).const_mul _).const_sub 1
  have v2 : ∀ᶠ t in 𝓝 0, 0 < 1 - c' * (1 + k) * ((p t).z + (d t).z * ρ σ (p t) (d t)) :=
    (hez σ).continuousAt.eventually_const_lt (by beta_reduce; rw [p0, d0, ← hTρ, qz, heg]; exact hgpos)
  have v3 : ∀ᶠ t in 𝓝 0, conicRoot c' (1 + k) (p t) (d t) (-σ) = none ∨
      ∃ b, conicRoot c' (1 + k) (p t) (d t) (-σ) = some b ∧ |ρ σ (p t) (d t)| < |b| := by
    rcases lt_or_gt_of_ne he2 with h | h
    · have : ∀ᶠ t in 𝓝 0, 1 - c' * (1 + k) * ((p t).z + (d t).z * ρ (-σ) (p t) (d t)) < 0 :=
        (hez (-σ)).continuousAt.eventually_lt_const (by beta_reduce; rw [p0, d0]; exact h)
      filter_upwards [this, v1, hDt.continuousAt.eventually_const_lt hDp] with t e1 e2 e3
      exact .inl ((conicRoot_far (sign := -σ) e2 e3.le hσ2' rfl).2.2 e1)
    · have h1 : ∀ᶠ t in 𝓝 0, 0 < 1 - c' * (1 + k) * ((p t).z + (d t).z * ρ (-σ) (p t) (d t)) :=
        (hez (-σ)).continuousAt.eventually_const_lt (by beta_reduce; rw [p0, d0]; exact h)
      have h2 : |ρ σ (p 0) (d 0)| < |ρ (-σ) (p 0) (d 0)| := by
        rw [p0, d0, ← hTρ]
        exact lt_of_le_of_ne (hnear _ (hgood2 h)) hlen.symm
      have h3 : ∀ᶠ t in 𝓝 0, |ρ σ (p t) (d t)| < |ρ (-σ) (p t) (d t)| :=
        (continuous_abs.continuousAt.comp (hρt σ).continuousAt).eventually_lt
          (continuous_abs.continuousAt.comp (hρt (-σ)).continuousAt) h2
      filter_upwards [h1, h3, v1, hDt.continuousAt.eventually_const_lt hDp] with t e1 e2 e3 e4
      exact .inr ⟨_, (conicRoot_far (sign := -σ) e3 e4.le hσ2' rfl).2.1 e1, e2⟩
  filter_upwards [v1, v2, v3, hDt.continuousAt.eventually_const_lt hDp, hΓ.continuousAt.eventually_const_lt hΓp]
    with t e1 e2 e3 e4 e5
  obtain ⟨hqt, hgt', -⟩ := conicRoot_far (sign := σ) e1 e4.le hσ2 (rfl : ρ σ (p t) (d t) = _)
  have hQx : (Q t).x = (p t).x + (d t).x * ρ σ (p t) (d t) := by simp only [Q, add_x, smul_x]; ring
  have hQy : (Q t).y = (p t).y + (d t).y * ρ σ (p t) (d t) := by simp only [Q, add_y, smul_y]; ring
  have hQz : (Q t).z = (p t).z + (d t).z * ρ σ (p t) (d t) := by simp only [Q, add_z, smul_z]; ring
  refine ⟨?_, ?_, ?_, ?_, ⟨_, rfl⟩⟩
  · show conicIntercept R k _ _ = _
    unfold conicIntercept
    simp only [Option.bind_eq_bind, Option.bind_eq_some_iff, div?_eq_some, Option.pure_def, Option.some.injEq]
    refine ⟨c', ⟨hR, hc⟩, _, conicPath_of hσ (hgt' e2) e3, ?_⟩
    exact V3.ext hQx.symm hQy.symm hQz.symm
  · show conicNormal R k _ = _
    unfold conicNormal
    simp only [Option.bind_eq_bind, Option.bind_eq_some_iff, div?_eq_some, sqrt?_eq_some, Option.pure_def,
      Option.some.injEq]
    have hgt0 : Real.sqrt (Γ t) ≠ 0 := (Real.sqrt_pos.2 e5).ne'
    exact ⟨c', ⟨hR, hc⟩, _, ⟨e5.le, rfl⟩, _, ⟨hgt0, rfl⟩, _, ⟨hgt0, rfl⟩, _, ⟨hL0 t, rfl⟩, _, ⟨hL0 t, rfl⟩, _,
      ⟨hL0 t, rfl⟩, rfl⟩
  · refine onGraph_conic.2 ⟨hR, ?_, ?_⟩
    · rw [← hc, hQx, hQy, hQz]
      linear_combination hqt
    · rw [← hc, hQx, hQy, hQz]
      have : ((p t).z + (d t).z * ρ σ (p t) (d t)) * (c' * (((p t).x + (d t).x * ρ σ (p t) (d t)) ^ 2
          + ((p t).y + (d t).y * ρ σ (p t) (d t)) ^ 2) - ((p t).z + (d t).z * ρ σ (p t) (d t)))
          = ((p t).z + (d t).z * ρ σ (p t) (d t)) ^ 2
            * (1 - c' * (1 + k) * ((p t).z + (d t).z * ρ σ (p t) (d t))) := by
        linear_combination ((p t).z + (d t).z * ρ σ (p t) (d t)) * hqt
      rw [this]
      exact mul_nonneg (sq_nonneg _) e2.le
  · have h1 := Real.sq_sqrt (hLpos t).le
    have h2 := hL0 t
    have h3 : L t ^ 2 = X t * X t + Y t * Y t + -1 * -1 := h1
    simp only [V3.dot]
    field_simp
    linarith

/-- **C104**, a conic surface where it fails: a line meets it in two points, at the same angle and the same distance
from the start; moving the start along the line, the point jumps from the one to the other. -/
theorem C104_conic_counterexample :
    (∀ t : ℝ, 0 < t → (conicSag 1 0).intercept ⟨t, 0, 1 / 2⟩ ⟨1, 0, 0⟩ = some ⟨Real.sqrt 3 / 2, 0, 1 / 2⟩) ∧
    (∀ t : ℝ, t ≤ 0 → (conicSag 1 0).intercept ⟨t, 0, 1 / 2⟩ ⟨1, 0, 0⟩ = some ⟨-(Real.sqrt 3 / 2), 0, 1 / 2⟩) ∧
    ∃ n, (conicSag 1 0).normal ⟨-(Real.sqrt 3 / 2), 0, 1 / 2⟩ = some n ∧ (⟨1, 0, 0⟩ : V3).dot n ≠ 0 := by
  have h3 : Real.sqrt 3 ^ 2 = 3 := Real.sq_sqrt (by norm_num)
  have h30 : 0 < Real.sqrt 3 := Real.sqrt_pos.2 (by norm_num)
  have hs : Real.sqrt 3 = Real.sqrt 3 := rfl
  have root : ∀ t σ : ℝ, σ ^ 2 = 1 → conicRoot 1 (1 + 0) ⟨t, 0, 1 / 2⟩ ⟨1, 0, 0⟩ σ = some (-t + σ * (Real.sqrt 3 / 2)) := by
    intro t σ hσ
    have hD : (2 * (1 * (t * 1 + 0 * 0 + (1 + 0) * (1 / 2) * 0) - 0)) ^ 2
      - 4 * (1 * (1 ^ 2 + 0 ^ 2 + (1 + 0) * 0 ^ 2)) * (1 * (t ^ 2 + 0 ^ 2 + (1 + 0) * (1 / 2) ^ 2) - 2 * (1 / 2)) = (3 : ℝ) := by
      ring
    refine (conicRoot_far (c := 1) (kp1 := 1 + 0) (o := ⟨t, 0, 1 / 2⟩) (u := ⟨1, 0, 0⟩) (sign := σ)
      (t := -t + σ * (Real.sqrt 3 / 2)) (by norm_num) ?_ hσ ?_).2.1 (by norm_num)
    · rw [hD]; norm_num
    · rw [hD]; ring
  have int : ∀ t τ : ℝ, conicPath 1 (1 + 0) ⟨t, 0, 1 / 2⟩ ⟨1, 0, 0⟩ = some (-t + τ) →
      (conicSag 1 0).intercept ⟨t, 0, 1 / 2⟩ ⟨1, 0, 0⟩ = some ⟨τ, 0, 1 / 2⟩ := by
    intro t τ h
    show conicIntercept 1 0 _ _ = _
    unfold conicIntercept
    rw [div?_of_ne one_ne_zero, div_one]
    simp only [Option.bind_eq_bind, Option.bind_some, h, Option.pure_def, Option.some.injEq]
    ext <;> simp
  have path : ∀ t : ℝ, conicPath 1 (1 + 0) ⟨t, 0, 1 / 2⟩ ⟨1, 0, 0⟩ =
      if |-t + -1 * (Real.sqrt 3 / 2)| ≤ |-t + 1 * (Real.sqrt 3 / 2)| then some (-t + -1 * (Real.sqrt 3 / 2))
      else some (-t + 1 * (Real.sqrt 3 / 2)) := by
    intro t
    unfold conicPath
    rw [root t (-1) (by norm_num), root t 1 (by norm_num)]
  refine ⟨fun t ht => int _ _ ?_, fun t ht => int _ _ ?_, ?_⟩
  · rw [path, if_neg, one_mul]
    rw [not_le, ← sq_lt_sq]
    nlinarith
  · rw [path, if_pos, neg_one_mul]
    rw [← sq_le_sq]
    nlinarith
  · have hg : (1 : ℝ) - (1 + 0) * (1 / 1) ^ 2 * ((-(Real.sqrt 3 / 2)) ^ 2 + 0 ^ 2) = (1 / 2) ^ 2 := by
      linear_combination -h3 / 4
    have hg2 : Real.sqrt ((1 / 2) ^ 2) = 1 / 2 := Real.sqrt_sq (by norm_num)
    have hl : ∀ x : ℝ, (⟨x, 0, -1⟩ : V3).len ≠ 0 := fun x => by
      refine (Real.sqrt_pos.2 ?_).ne'
      simp only [V3.dot]; nlinarith [mul_self_nonneg x]
    refine ⟨⟨1 / 1 * (-(Real.sqrt 3 / 2)) / (1 / 2) / (⟨1 / 1 * (-(Real.sqrt 3 / 2)) / (1 / 2), 0, -1⟩ : V3).len, 0,
      -1 / (⟨1 / 1 * (-(Real.sqrt 3 / 2)) / (1 / 2), 0, -1⟩ : V3).len⟩, ?_, ?_⟩
    · show conicNormal 1 0 _ = _
      unfold conicNormal
      simp only [Option.bind_eq_bind, Option.bind_eq_some_iff, div?_eq_some, sqrt?_eq_some, Option.pure_def,
        Option.some.injEq]
      refine ⟨_, ⟨one_ne_zero, rfl⟩, 1 / 2, ⟨by rw [hg]; positivity, by rw [hg, hg2]⟩, _, ⟨by norm_num, rfl⟩, 0,
        ⟨by norm_num, by norm_num⟩, _, ⟨hl _, rfl⟩, 0, ⟨hl _, by simp⟩, _, ⟨hl _, rfl⟩, rfl⟩
    · simp only [V3.dot]
      have : 1 / 1 * (-(Real.sqrt 3 / 2)) / (1 / 2) ≠ 0 := by
        have : 1 / 1 * (-(Real.sqrt 3 / 2)) / (1 / 2) = -Real.sqrt 3 := by ring
        rw [this]; exact neg_ne_zero.2 h30.ne'
      simpa [h30.ne'] using hl (-Real.sqrt 3)

/-- **C104**: vacuum, mirrors and glasses are steady. -/
theorem C104_materials (g : Glass) : vacuum.Steady ∧ mirror.Steady ∧ g.material.Steady :=
  ⟨⟨fun _ _ _ _ _ => rfl, fun _ _ _ _ _ => rfl, fun _ _ => ⟨1, rfl⟩⟩,
    ⟨fun r r' _ h _ => by show some _ = some _; rw [h], fun r r' _ _ h => by show some _ = some _; rw [h],
      fun _ _ => ⟨1, rfl⟩⟩,
    ⟨fun r r' h1 _ _ => by show g.index _ = g.index _; unfold Glass.index; rw [h1], fun _ _ _ _ _ => rfl,
      fun _ _ => ⟨1, rfl⟩⟩⟩

/-- **C104**: rulings of constant spacing are steady. -/
theorem C104_rulings (spacing order : ℝ) : (idealRulings spacing order).Steady :=
  ⟨fun _ _ _ _ => ⟨fun _ => spacing • ⟨1, 0, 0⟩, ⟨_, Moving.const _⟩, Eventually.of_forall fun _ => rfl⟩,
    fun _ _ => ⟨1, rfl⟩⟩


/-- A plane mirror and a beam along its normal: the mirror is regular and the beam smooth. -/
example : Clear [⟨flatSag, mirror, none, none, none⟩] (beamRay 0) (beamReflected 0) ∧ Monochromatic beamRay := by
  have hivec : ∀ v, (Surface.frame ⟨flatSag, mirror, none, none, none⟩).ivec v = v := fun v => by
    apply V3.ext <;> simp [dot, Surface.frame, Rigid.ivec, Rigid.id, M3.one, M3.mulVec, M3.transpose]
  refine ⟨.cons ⟨beam_traced 0, C104_flat ?_, (C104_materials nBk7).2.1, by simp, ⟨0, 0, -1⟩, rfl, ?_, ?_, by simp⟩ (.nil _),
    ⟨⟨⟨1, 0, 0⟩, ?_⟩, ⟨_, Moving.const _⟩, Eventually.of_forall fun t => by simp [beamRay, dot],
      Eventually.of_forall fun t => ⟨rfl, rfl, rfl⟩⟩⟩
  · rw [hivec]; simp [beamRay]
  · rw [hivec]; simp [beamRay, dot]
  · rw [hivec]; simp [beamReflected, dot]
  · exact ⟨hasDerivAt_id 0, hasDerivAt_const _ _, hasDerivAt_const _ _⟩

/-- A sphere struck at its vertex. -/
example : (sphereSag 2).SmoothAt ⟨0, 0, -1⟩ ⟨0, 0, 1⟩ := by
  refine C104_sphere (q := ⟨0, 0, 0⟩) (n := ⟨0, 0, -1⟩) (by simp [dot]) ?_ ?_ ?_ (by simp) (by simp [dot])
  · show sphereIntercept 2 _ _ = _
    unfold sphereIntercept
    simp only [Option.bind_eq_bind, Option.bind_eq_some_iff, sqrt?_eq_some, Option.pure_def, Option.some.injEq]
    refine ⟨2, ⟨by norm_num, ?_⟩, ?_⟩
    · rw [show ((0 : ℝ) * 0 + 0 * 0 + 1 * (-1 - 2)) ^ 2 - (0 ^ 2 + 0 ^ 2 + (-1 - 2) ^ 2 - 2 ^ 2) = 2 ^ 2 by norm_num]
      exact (Real.sqrt_sq (by norm_num)).symm
    · rw [sgn_of_pos (by norm_num)]; ext <;> norm_num
  · exact onGraph_sphere.2 ⟨by norm_num, by norm_num, by norm_num⟩
  · show sphereNormal 2 _ = _
    unfold sphereNormal
    have : ¬((1 : ℝ) < 0) := by norm_num
    simp [div?, sqrt?, this]

/-- A conic surface struck at its vertex: the line leaves the whole ellipsoid farther away. -/
example : (conicSag 2 0).SmoothAt ⟨0, 0, -1⟩ ⟨0, 0, 1⟩ := by
  have e : (1 : ℝ) / 2 * (0 ^ 2 + 0 ^ 2 + (1 + 0) * 1 ^ 2) = 1 / 2 := by norm_num
  have hD : (2 * (1 / 2 * ((0 : ℝ) * 0 + 0 * 0 + (1 + 0) * -1 * 1) - 1)) ^ 2
      - 4 * (1 / 2 * (0 ^ 2 + 0 ^ 2 + (1 + 0) * 1 ^ 2)) * (1 / 2 * (0 ^ 2 + 0 ^ 2 + (1 + 0) * (-1) ^ 2) - 2 * -1) = 2 ^ 2 := by
    norm_num
  have hsq : Real.sqrt ((2 : ℝ) ^ 2) = 2 := Real.sqrt_sq (by norm_num)
  have hfar : (1e-12 : ℝ) < |1 / 2 * (0 ^ 2 + 0 ^ 2 + (1 + 0) * 1 ^ 2)| := by rw [e]; norm_num
  have r1 := (conicRoot_far (c := 1 / 2) (kp1 := 1 + 0) (o := ⟨0, 0, -1⟩) (u := ⟨0, 0, 1⟩) (sign := -1) (t := 1) hfar
    (by rw [hD]; norm_num) (by norm_num) (by rw [hD, hsq]; norm_num)).2.1 (by norm_num)
  have r2 := (conicRoot_far (c := 1 / 2) (kp1 := 1 + 0) (o := ⟨0, 0, -1⟩) (u := ⟨0, 0, 1⟩) (sign := 1) (t := 5) hfar
    (by rw [hD]; norm_num) (by norm_num) (by rw [hD, hsq]; norm_num)).2.2 (by norm_num)
  refine C104_conic_partial (q := ⟨0, 0, 0⟩) (n := ⟨0, 0, -1⟩) (T := 1) hfar ?_ ?_ ?_ (by simp [dot]) ?_
  · show conicIntercept 2 0 _ _ = _
    unfold conicIntercept
    rw [div?_of_ne two_ne_zero]
    simp only [Option.bind_eq_bind, Option.bind_some, conicPath, r1, r2, Option.pure_def, Option.some.injEq]
    ext <;> simp
  · ext <;> simp
  · show conicNormal 2 0 _ = _
    unfold conicNormal
    have : ¬((1 : ℝ) < 0) := by norm_num
    simp [div?, sqrt?, V3.len, V3.dot, this]
  · intro t ht h
    simp only [add_x, add_y, add_z, smul_x, smul_y, smul_z] at h ⊢
    have h1 : (t - 1) * (t - 5) = 0 := by linear_combination h
    have h5 : t = 5 := by
      rcases mul_eq_zero.1 h1 with h | h
      · exact absurd (by linarith) ht
      · linarith
    subst h5
    constructor <;> norm_num

end Optika
