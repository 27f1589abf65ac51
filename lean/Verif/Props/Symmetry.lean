import Verif.Props.Propagation

/-!
# C16, continued: axial symmetry

Surfaces of revolution treat rays that differ by a rotation about their axis alike.
-/

namespace Optika
open V3

/-- The rotation about the `z` axis with cosine `c` and sine `s`. -/
def rotZ (c s : ℝ) (h : c ^ 2 + s ^ 2 = 1) : Rigid where
  rot := ⟨⟨c, -s, 0⟩, ⟨s, c, 0⟩, ⟨0, 0, 1⟩⟩
  shift := 0
  left_inv v := by
    apply V3.ext <;> simp only [M3.mulVec, M3.transpose, dot]
    · linear_combination v.x * h
    · linear_combination v.y * h
    · ring
  right_inv v := by
    apply V3.ext <;> simp only [M3.mulVec, M3.transpose, dot]
    · linear_combination v.x * h
    · linear_combination v.y * h
    · ring

theorem rotZ_point (c s : ℝ) (h : c ^ 2 + s ^ 2 = 1) (v : V3) :
    (rotZ c s h).point v = ⟨c * v.x - s * v.y, s * v.x + c * v.y, v.z⟩ := by
  apply V3.ext <;> simp only [rotZ, Rigid.point, M3.mulVec, dot] <;> vsimp <;> simp <;> ring

theorem rotZ_vec (c s : ℝ) (h : c ^ 2 + s ^ 2 = 1) (v : V3) :
    (rotZ c s h).vec v = ⟨c * v.x - s * v.y, s * v.x + c * v.y, v.z⟩ := by
  apply V3.ext <;> simp only [rotZ, Rigid.vec, M3.mulVec, dot] <;> ring

/-- A sag that commutes with the rotations about the `z` axis. -/
structure AxiallySymmetric (sag : Sag) : Prop where
  height : ∀ c s h p, sag.height ((rotZ c s h).point p) = sag.height p
  normal : ∀ c s h p, sag.normal ((rotZ c s h).point p) = (sag.normal p).map (rotZ c s h).vec
  intercept : ∀ c s h o u, sag.intercept ((rotZ c s h).point o) ((rotZ c s h).vec u)
    = (sag.intercept o u).map (rotZ c s h).point

/-- A bind whose continuations agree up to a map. -/
theorem bind_map_congr {α β γ : Type} {x : Option α} {f : α → Option β} {g : α → Option γ}
    {k : β → γ} (h : ∀ a, g a = (f a).map k) : x.bind g = (x.bind f).map k := by
  cases x with
  | none => rfl
  | some a => simp [h a]

section
variable {c s : ℝ} (h : c ^ 2 + s ^ 2 = 1)
include h

theorem rot_sq (a b : ℝ) : (c * a - s * b) ^ 2 + (s * a + c * b) ^ 2 = a ^ 2 + b ^ 2 := by
  linear_combination (a ^ 2 + b ^ 2) * h

theorem rot_dot (a b a' b' : ℝ) :
    (c * a - s * b) * (c * a' - s * b') + (s * a + c * b) * (s * a' + c * b')
      = a * a' + b * b' := by
  linear_combination (a * a' + b * b') * h

end

theorem axial_flat : AxiallySymmetric flatSag where
  height _ _ _ _ := rfl
  normal c s h p := by simp [flatSag, flatNormal, rotZ_vec]
  intercept c s h o u := by
    simp only [flatSag, flatIntercept, rotZ_point, rotZ_vec]
    refine bind_map_congr fun d => ?_
    simp only [Option.pure_def, Option.map_some, rotZ_point, Option.some.injEq]
    vring

theorem axial_conic (R k : ℝ) : AxiallySymmetric (conicSag R k) where
  height c s h p := by
    simp only [conicSag, conicHeight, rotZ_point, rot_sq h]
  normal c s h p := by
    simp only [conicSag, conicNormal, rotZ_point, rot_sq h]
    refine bind_map_congr fun cv => bind_map_congr fun g => ?_
    simp only [Option.bind_eq_bind]
    by_cases hg : g = 0
    · subst hg; simp [div?]
    rw [div?_of_ne hg, div?_of_ne hg, div?_of_ne hg, div?_of_ne hg]
    simp only [Option.bind_some]
    have hl : (⟨cv * (c * p.x - s * p.y) / g, cv * (s * p.x + c * p.y) / g, -1⟩ : V3).len
        = (⟨cv * p.x / g, cv * p.y / g, -1⟩ : V3).len := by
      unfold len
      congr 1
      simp only [dot]
      field_simp
      linear_combination (cv ^ 2) * rot_sq h p.x p.y
    rw [hl]
    generalize (⟨cv * p.x / g, cv * p.y / g, -1⟩ : V3).len = l
    by_cases hl0 : l = 0
    · subst hl0; simp [div?]
    simp only [div?_of_ne hl0, Option.bind_some, Option.pure_def, Option.map_some, rotZ_vec,
      Option.some.injEq]
    ext <;> simp only <;> ring
  intercept c s h o u := by
    simp only [conicSag, conicIntercept, rotZ_point, rotZ_vec]
    have hroot : ∀ cv kp1 sg, conicRoot cv kp1
        ⟨c * o.x - s * o.y, s * o.x + c * o.y, o.z⟩ ⟨c * u.x - s * u.y, s * u.x + c * u.y, u.z⟩ sg
        = conicRoot cv kp1 o u sg := by
      intro cv kp1 sg
      have e : ∀ t : ℝ, (c * o.x - s * o.y + (c * u.x - s * u.y) * t) ^ 2
          + (s * o.x + c * o.y + (s * u.x + c * u.y) * t) ^ 2
          = (o.x + u.x * t) ^ 2 + (o.y + u.y * t) ^ 2 := by
        intro t; rw [← rot_sq h (o.x + u.x * t) (o.y + u.y * t)]; ring
      simp only [conicRoot, rot_sq h, rot_dot h, e]
    refine bind_map_congr fun cv => ?_
    have hpath : conicPath cv (1 + k)
        ⟨c * o.x - s * o.y, s * o.x + c * o.y, o.z⟩ ⟨c * u.x - s * u.y, s * u.x + c * u.y, u.z⟩
        = conicPath cv (1 + k) o u := by
      unfold conicPath; rw [hroot, hroot]
    rw [hpath]
    refine bind_map_congr fun t => ?_
    simp only [Option.pure_def, Option.map_some, rotZ_point, Option.some.injEq]
    vring

theorem axial_sphere (R : ℝ) : AxiallySymmetric (sphereSag R) where
  height c s h p := by
    simp only [sphereSag, sphereHeight, rotZ_point, rot_sq h]
  normal c s h p := by
    simp only [sphereSag, sphereNormal, rotZ_point]
    refine bind_map_congr fun cv => ?_
    have e : 1 - (cv * (c * p.x - s * p.y)) ^ 2 - (cv * (s * p.x + c * p.y)) ^ 2
        = 1 - (cv * p.x) ^ 2 - (cv * p.y) ^ 2 := by
      linear_combination (-cv ^ 2) * rot_sq h p.x p.y
    simp only [e]
    refine bind_map_congr fun g => ?_
    simp only [Option.pure_def, Option.map_some, rotZ_vec, Option.some.injEq]
    ext <;> simp only <;> ring
  intercept c s h o u := by
    simp only [sphereSag, sphereIntercept, rotZ_point, rotZ_vec, rot_sq h, rot_dot h]
    refine bind_map_congr fun t => ?_
    simp only [Option.pure_def, Option.map_some, rotZ_point, Option.some.injEq]
    ext <;> simp only <;> ring

theorem axial_parabola (f : ℝ) : AxiallySymmetric (parabolaSag f) where
  height c s h p := (axial_conic (2 * f) (-1)).height c s h p
  normal c s h p := by
    simp only [parabolaSag, parabolaNormal, rotZ_point]
    by_cases hf : 2 * f = 0
    · rw [hf]; simp [div?]
    simp only [div?_of_ne hf, Option.bind_eq_bind, Option.bind_some]
    have e : ((c * p.x - s * p.y) / (2 * f)) ^ 2 + ((s * p.x + c * p.y) / (2 * f)) ^ 2 + 1
        = (p.x / (2 * f)) ^ 2 + (p.y / (2 * f)) ^ 2 + 1 := by
      linear_combination (1 / (2 * f)) ^ 2 * rot_sq h p.x p.y
    rw [e]
    refine bind_map_congr fun g => ?_
    simp only [Option.pure_def, Option.map_some, rotZ_vec, Option.some.injEq]
    ext <;> simp only <;> ring
  intercept c s h o u := by
    simp only [parabolaSag, parabolaIntercept, rotZ_point, rotZ_vec, rot_sq h]
    have e1 : -((s * o.x + c * o.y) * (c * u.x - s * u.y)) ^ 2
        - ((c * o.x - s * o.y) * (s * u.x + c * u.y)) ^ 2
        + 2 * (s * o.x + c * o.y) * (s * u.x + c * u.y) *
          ((c * o.x - s * o.y) * (c * u.x - s * u.y) - 2 * f * u.z)
        + 4 * f * (o.z * (u.x ^ 2 + u.y ^ 2) - (c * o.x - s * o.y) * (c * u.x - s * u.y) * u.z
          + f * u.z ^ 2)
        = -(o.y * u.x) ^ 2 - (o.x * u.y) ^ 2 + 2 * o.y * u.y * (o.x * u.x - 2 * f * u.z)
        + 4 * f * (o.z * (u.x ^ 2 + u.y ^ 2) - o.x * u.x * u.z + f * u.z ^ 2) := by
      have hc : (s * o.x + c * o.y) * (c * u.x - s * u.y) - (c * o.x - s * o.y) * (s * u.x + c * u.y)
          = o.y * u.x - o.x * u.y := by linear_combination (o.y * u.x - o.x * u.y) * h
      have hd := rot_dot h o.x o.y u.x u.y
      linear_combination (-((s * o.x + c * o.y) * (c * u.x - s * u.y)
        - (c * o.x - s * o.y) * (s * u.x + c * u.y)) - (o.y * u.x - o.x * u.y)) * hc
        - 4 * f * u.z * hd
    have e2 : -(c * o.x - s * o.y) * (c * u.x - s * u.y) - (s * o.x + c * o.y) * (s * u.x + c * u.y)
        = -o.x * u.x - o.y * u.y := by
      linear_combination -rot_dot h o.x o.y u.x u.y
    simp only [e1, e2]
    split
    · refine bind_map_congr fun t => bind_map_congr fun t => ?_
      simp only [Option.pure_def, Option.map_some, rotZ_point, Option.some.injEq]
      ext <;> simp only <;> ring
    · refine bind_map_congr fun t => ?_
      simp only [Option.pure_def, Option.map_some, rotZ_point, Option.some.injEq]
      ext <;> simp only <;> ring

/-- Snell's law commutes with every rotation. -/
theorem C16_snell (g : Rigid) (a : V3) (n1 n2 : ℝ) (m : Bool) (u : V3) :
    snellsLaw (g.vec a) n1 n2 m (g.vec u) = (snellsLaw a n1 n2 m u).map g.vec := by
  have key : ∀ b, snellsLaw a n1 n2 m u = some b →
      snellsLaw (g.vec a) n1 n2 m (g.vec u) = some (g.vec b) := by
    intro b hb
    rw [snellsLaw_eq_some] at hb ⊢
    rw [Rigid.vec_dot_vec, Rigid.vec_dot_vec]
    refine ⟨hb.1, hb.2.1, hb.2.2.1, ?_⟩
    rw [hb.2.2.2]
    unfold Rigid.vec
    rw [M3.mulVec_smul, M3.mulVec_add, M3.mulVec_smul]
  cases hs : snellsLaw a n1 n2 m u with
  | some b => simpa using key b hs
  | none =>
    cases hs' : snellsLaw (g.vec a) n1 n2 m (g.vec u) with
    | none => rfl
    | some b' =>
      exfalso
      rw [snellsLaw_eq_some, Rigid.vec_dot_vec, Rigid.vec_dot_vec] at hs'
      have := (snellsLaw_eq_some (a := a) (u := u) (n1 := n1) (n2 := n2) (m := m)).2
        ⟨hs'.1, hs'.2.1, hs'.2.2.1, rfl⟩
      rw [this] at hs
      exact absurd hs (by simp)

/-- The material looks at scalars of the ray only. -/
structure IsotropicMaterial (m : Material) : Prop where
  index : ∀ (g : Rigid) r, m.index (r.move g) = m.index r
  attenuation : ∀ (g : Rigid) r, m.attenuation (r.move g) = m.attenuation r
  efficiency : ∀ (g : Rigid) r n, m.efficiency (r.move g) (g.vec n) = m.efficiency r n

/-- **C16**: the sags of revolution, vacuum and mirror satisfy the hypotheses of
`C16_axial_symmetry`. -/
theorem C16_axial_instances (R k f : ℝ) :
    AxiallySymmetric flatSag ∧ AxiallySymmetric (sphereSag R) ∧ AxiallySymmetric (conicSag R k) ∧
    AxiallySymmetric (parabolaSag f) ∧ IsotropicMaterial vacuum ∧ IsotropicMaterial mirror :=
  ⟨axial_flat, axial_sphere R, axial_conic R k, axial_parabola f,
    ⟨fun _ _ => rfl, fun _ _ => rfl, fun _ _ _ => rfl⟩,
    ⟨fun _ _ => rfl, fun _ _ => rfl, fun _ _ _ => rfl⟩⟩

/-- Non-vacuity: a rotation that is not the identity. -/
example : (3 / 5 : ℝ) ^ 2 + (4 / 5) ^ 2 = 1 := by norm_num

/-- **C16**: a surface of revolution without rulings, with an aperture that is itself invariant
under rotations about the axis (or none), commutes with the rotations about its axis. -/
theorem C16_axial_symmetry {sag : Sag} {m : Material} {ap : Option Aperture}
    (hs : AxiallySymmetric sag) (hm : IsotropicMaterial m)
    (hap : ∀ a, ap = some a → ∀ c s h v, a.mask ((rotZ c s h).point v) = a.mask v)
    (c s : ℝ) (h : c ^ 2 + s ^ 2 = 1) (r : Ray) :
    (⟨sag, m, ap, none, none⟩ : Surface).propagate (r.move (rotZ c s h))
      = ((⟨sag, m, ap, none, none⟩ : Surface).propagate r).map (Ray.move (rotZ c s h)) := by
  set g := rotZ c s h with hg
  have hpv : ∀ v, g.point v = g.vec v := by intro v; rw [hg, rotZ_point, rotZ_vec]
  have hlen : ∀ p q, (g.point p - g.point q).len = (p - q).len := by
    intro p q; rw [Rigid.point_sub_point, Rigid.vec_len]
  show Surface.propagateLocal _ _ = (Surface.propagateLocal _ _).map _
  unfold Surface.propagateLocal
  have h1 : sag.propagate (r.move g) = (sag.propagate r).map (Ray.move g) := by
    unfold Sag.propagate
    show (sag.intercept (g.point r.position) (g.vec r.direction)).bind _ = _
    rw [hg, hs.intercept, ← hg]
    cases sag.intercept r.position r.direction with
    | none => rfl
    | some q => simp [Ray.move, hlen]
  have h2 : ∀ r0, (⟨sag, m, ap, none, none⟩ : Surface).interact (Ray.move g r0)
      = ((⟨sag, m, ap, none, none⟩ : Surface).interact r0).map (Ray.move g) := by
    intro r0
    unfold Surface.interact Surface.effectiveRay Surface.rulingFactor
    simp only [Option.bind_eq_bind]
    have : sag.normal (Ray.move g r0).position = (sag.normal r0.position).map g.vec :=
      hs.normal c s h r0.position
    rw [this]
    cases sag.normal r0.position with
    | none => rfl
    | some n =>
      simp only [Option.map_some, Option.bind_some, hm.index]
      refine bind_map_congr fun n2 => ?_
      show (div? r0.index n2).bind _ = _
      refine bind_map_congr fun ratio => ?_
      show (div? r0.wavelength ratio).bind _ = _
      refine bind_map_congr fun w2 => ?_
      have : snellsLaw (Ray.move g r0).direction (Ray.move g r0).index n2 m.isMirror (g.vec n)
          = (snellsLaw r0.direction r0.index n2 m.isMirror n).map g.vec := C16_snell g _ _ _ _ _
      rw [this]
      cases snellsLaw r0.direction r0.index n2 m.isMirror n with
      | none => rfl
      | some b =>
        simp only [Option.map_some, Option.bind_some, hm.efficiency, hm.attenuation]
        refine bind_map_congr fun e1 => bind_map_congr fun att => ?_
        simp [Ray.move]
  have h3 : ∀ r0, (⟨sag, m, ap, none, none⟩ : Surface).clip (Ray.move g r0)
      = ((⟨sag, m, ap, none, none⟩ : Surface).clip r0).map (Ray.move g) := by
    intro r0
    unfold Surface.clip
    cases ap with
    | none => rfl
    | some a =>
      have ha := hap a rfl c s h
      simp only [Aperture.clip]
      cases a.unit with
      | length => simp [Ray.move, ha, hg]
      | dimensionless =>
        have hv : ∀ v, a.mask (g.vec v) = a.mask v := by intro v; rw [← hpv]; exact ha v
        simp [Ray.move, hv]
      | other => rfl
  simp only [Option.bind_eq_bind, h1]
  cases sag.propagate r with
  | none => rfl
  | some r0 =>
    simp only [Option.map_some, Option.bind_some, h2]
    cases (⟨sag, m, ap, none, none⟩ : Surface).interact r0 with
    | none => rfl
    | some r2 => simp only [Option.map_some, Option.bind_some, h3]

end Optika
