import Verif.Props.Smoothness

/-!
# C105: the sine condition
-/

namespace Optika
open V3 Filter Topology

/-! ## Specification -/

/-- A point that is imaged onto a point, through all zones of a system: the rays `F s` from the point `O`, one for each
zone `s`, arrive as `G s` in the point `O'`. -/
structure Imaged (ss : List Surface) (F G : ℝ → Ray) (O O' : V3) (n n' : ℝ) : Prop where
  clear : ∀ s, Clear ss (F s) (G s)
  start : ∀ s, (F s).position = O
  arrive : ∀ s, (G s).position = O'
  index : ∀ s, (F s).index = n ∧ (G s).index = n'
  smooth : ∀ s, Monochromatic fun t => F (s + t)

/-- A small displacement `e` of the point moves its image by `E`, in the zone of the ray `r`: some rays that start from
the displaced points arrive at the displaced images. -/
def Displaces (ss : List Surface) (r : Ray) (e E : V3) : Prop :=
  ∃ f g : ℝ → Ray, f 0 = r ∧ Monochromatic f ∧ Moving (fun t => (f t).position) e ∧
    (∀ᶠ t in 𝓝 0, propagateSurfaces ss (f t) = some (g t)) ∧ Moving (fun t => (g t).position) E

/-- Surfaces without rulings and edges, between media of positive index. -/
def Surface.Lens (s : Surface) : Prop :=
  s.rulings = none ∧ SmoothNormal s.sag ∧ ∀ r n, s.material.index r = some n → 0 < n

/-! ## Proofs -/

theorem zero_dot_left (v : V3) : V3.dot 0 v = 0 := by simp [V3.dot]

theorem clear_traced {ss : List Surface} {r out : Ray} (h : Clear ss r out) : propagateSurfaces ss r = some out := by
  induction h with
  | nil r => exact propagateSurfaces_nil _
  | cons first rest ih => rw [propagateSurfaces_cons, first.traced]; exact ih

/-- **C105**, in one zone: if all rays from a point close to a ray arrive in the same point, the displacements of point
and image are related by the changes of the directions. -/
theorem C105_zone {ss : List Surface} (hs : ∀ s ∈ ss, s.Lens) {r out : Ray} (h : Clear ss r out) (hi : 0 < r.index)
    {f g : ℝ → Ray} (h0 : f 0 = r) (hf : Monochromatic f) (hfg : ∀ t, propagateSurfaces ss (f t) = some (g t))
    (hp : ∀ t, (f t).position = r.position) (hP : ∀ t, (g t).position = out.position)
    {d D e E : V3} (hd : Moving (fun t => (f t).direction) d) (hD : Moving (fun t => (g t).direction) D)
    (he : Displaces ss r e E) : out.index * E.dot D = r.index * e.dot d := by
  obtain ⟨f2, g2, z2, m2, me, tr2, mE⟩ := he
  obtain ⟨d2, hd2⟩ := m2.direction
  have hp1 : Moving (fun t => (f t).position) 0 := by
    have : (fun t => (f t).position) = fun _ => r.position := funext hp
    rw [this]; exact Moving.const _
  obtain ⟨g1', g2', P1, D1, P2, D2, t1, t2, a1, a2, a3, a4, ee⟩ :=
    C100_clear h (fun s h => hs s h) hi hf m2 h0 z2 hp1 hd me hd2
  have e1 : ∀ᶠ t in 𝓝 0, g1' t = g t := by
    filter_upwards [t1] with t ht
    rw [hfg t, Option.some.injEq] at ht
    exact ht.symm
  have e2 : ∀ᶠ t in 𝓝 0, g2' t = g2 t := by
    filter_upwards [t2, tr2] with t h1 h2
    rw [h2, Option.some.injEq] at h1
    exact h1.symm
  have hP1 : P1 = 0 := by
    have : Moving (fun t => (g1' t).position) 0 :=
      (Moving.const out.position).congr (e1.mono fun t e => by rw [e, hP])
    exact a1.unique this
  have hD1 : D1 = D := a2.unique (hD.congr (e1.mono fun t e => by rw [e]))
  have hP2 : P2 = E := a3.unique (mE.congr (e2.mono fun t e => by rw [e]))
  subst hP1 hD1 hP2
  simp only [etendue, zero_dot_left] at ee
  linear_combination -ee

/-- **C105**: if a point is imaged onto a point and a displacement of it moves the image alike in all zones, the
projections of the directions onto the displacements obey the same law in all zones. -/
theorem C105_sine {ss : List Surface} (hs : ∀ s ∈ ss, s.Lens) {F G : ℝ → Ray} {O O' : V3} {n n' : ℝ} (hn : 0 < n)
    (h : Imaged ss F G O O' n n') {e E : V3} (he : ∀ s, Displaces ss (F s) e E) (s s' : ℝ) :
    n * e.dot (F s).direction - n' * E.dot (G s).direction
      = n * e.dot (F s').direction - n' * E.dot (G s').direction := by
  have key : ∀ s, HasDerivAt (fun s => n * e.dot (F s).direction - n' * E.dot (G s).direction) 0 s := by
    intro s
    have z : F (s + 0) = F s := by rw [_root_.add_zero]
    obtain ⟨g, g1, g2, g3⟩ := C104_system (h.clear s) (h.smooth s) z
    have hg : ∀ᶠ t in 𝓝 0, g t = G (s + t) := by
      filter_upwards [g1] with t ht
      rw [clear_traced (h.clear (s + t)), Option.some.injEq] at ht
      exact ht.symm
    obtain ⟨d, hd⟩ := (h.smooth s).direction
    obtain ⟨D, hD⟩ := g3.direction
    have hD' : Moving (fun t => (G (s + t)).direction) D := hD.congr (hg.mono fun t e => by rw [e])
    have := C105_zone hs (h.clear s) (by rw [(h.index s).1]; exact hn) z (h.smooth s)
      (fun t => clear_traced (h.clear (s + t))) (fun t => by rw [h.start, h.start])
      (fun t => by rw [h.arrive, h.arrive]) hd hD' (he s)
    rw [(h.index s).1, (h.index s).2] at this
    have h1 := ((Moving.const e).dot hd).const_mul n
    have h2 := ((Moving.const E).dot hD').const_mul n'
    have h3 := h1.sub h2
    have h4 : HasDerivAt (fun t => n * e.dot (F (s + t)).direction - n' * E.dot (G (s + t)).direction) 0 0 := by
      refine h3.congr_deriv ?_
      simp only [zero_dot_left]
      linarith
    have h5 := HasDerivAt.comp_sub_const (f := fun t => n * e.dot (F (s + t)).direction
      - n' * E.dot (G (s + t)).direction) (f' := 0) s s (by rwa [sub_self])
    refine h5.congr_of_eventuallyEq (Eventually.of_forall fun t => ?_)
    simp only [add_sub_cancel]
  have hdiff : Differentiable ℝ fun s => n * e.dot (F s).direction - n' * E.dot (G s).direction :=
    fun s => (key s).differentiableAt
  exact is_const_of_deriv_eq_zero hdiff (fun s => (key s).deriv) s s'

/-- **C105**, Abbe's sine condition: a point on the axis whose surroundings are imaged without coma, with
magnification `m`. -/
theorem C105_abbe {ss : List Surface} (hs : ∀ s ∈ ss, s.Lens) {F G : ℝ → Ray} {O O' : V3} {n n' m : ℝ} (hn : 0 < n)
    (h : Imaged ss F G O O' n n') (he : ∀ s, Displaces ss (F s) ⟨1, 0, 0⟩ ⟨m, 0, 0⟩)
    (axis : (F 0).direction = ⟨0, 0, 1⟩) (axis' : (G 0).direction.x = 0) (s : ℝ) :
    n * (F s).direction.x = n' * m * (G s).direction.x := by
  have := C105_sine hs hn h he s 0
  simp only [V3.dot, axis, axis'] at this
  linear_combination this

/-- **C105**, Herschel's condition: a point on the axis whose neighbours on the axis are imaged as well, with
longitudinal magnification `m`. -/
theorem C105_herschel {ss : List Surface} (hs : ∀ s ∈ ss, s.Lens) {F G : ℝ → Ray} {O O' : V3} {n n' m : ℝ} (hn : 0 < n)
    (h : Imaged ss F G O O' n n') (he : ∀ s, Displaces ss (F s) ⟨0, 0, 1⟩ ⟨0, 0, m⟩)
    (axis : (F 0).direction = ⟨0, 0, 1⟩) (s : ℝ) :
    n * (1 - (F s).direction.z) = n' * m * ((G 0).direction.z - (G s).direction.z) := by
  have := C105_sine hs hn h he s 0
  simp only [V3.dot, axis] at this
  linear_combination -this

/-! ## A case: a point on a plane surface of water -/

/-- A medium of index two. -/
noncomputable def denseMedium : Material := ⟨fun _ => some 2, fun _ => some 0, fun _ _ => some 1, false⟩

/-- A point in the plane `z = 0` at `x = t` that shines in the direction of the slope `s`. -/
noncomputable def sourceRay (s t : ℝ) : Ray := ⟨1, ⟨t, 0, 0⟩, (1 / Real.sqrt (1 + s ^ 2)) • ⟨s, 0, 1⟩, 1, 0, 1, true⟩

/-- The same light behind the surface. -/
noncomputable def waterRay (s t : ℝ) : Ray :=
  ⟨2, ⟨t, 0, 0⟩, ⟨s / (2 * Real.sqrt (1 + s ^ 2)), 0, Real.sqrt (1 - (s / (2 * Real.sqrt (1 + s ^ 2))) ^ 2)⟩, 1, 0, 2, true⟩

theorem water_traced (s t : ℝ) :
    (⟨flatSag, denseMedium, none, none, none⟩ : Surface).propagate (sourceRay s t) = some (waterRay s t) := by
  have hq : 0 < Real.sqrt (1 + s ^ 2) := Real.sqrt_pos.2 (by positivity)
  have hq2 : Real.sqrt (1 + s ^ 2) ^ 2 = 1 + s ^ 2 := Real.sq_sqrt (by positivity)
  set q := Real.sqrt (1 + s ^ 2) with hqdef
  have hw : 0 < 1 - (s / (2 * q)) ^ 2 := by
    rw [div_pow, sub_pos, div_lt_one (by positivity)]
    nlinarith [sq_nonneg s]
  have hi : flatIntercept ⟨t, 0, 0⟩ ((1 / q) • ⟨s, 0, 1⟩) = some ⟨t, 0, 0⟩ := by
    unfold flatIntercept
    rw [div?_of_ne (by simp [hq.ne'])]
    simp
  have hs : snellsLaw ((1 / q) • ⟨s, 0, 1⟩) 1 2 false ⟨0, 0, -1⟩
      = some ⟨s / (2 * q), 0, Real.sqrt (1 - (s / (2 * q)) ^ 2)⟩ := by
    have ht : (1 / q * s) ^ 2 + (1 / q) ^ 2 = 1 := by field_simp; linarith
    rw [snellsLaw_eq_some]
    have hdot : ((1 / q) • (⟨s, 0, 1⟩ : V3)).dot ⟨0, 0, -1⟩ = -(1 / q) := by simp [V3.dot]
    have hdd : ((1 / q) • (⟨s, 0, 1⟩ : V3)).dot ((1 / q) • ⟨s, 0, 1⟩) = 1 := by
      simp only [V3.dot, smul_x, smul_y, smul_z]; linear_combination ht
    have hc : copysign1 (-(1 / q)) = -1 := by
      unfold copysign1; rw [if_pos]; rw [neg_lt_zero]; positivity
    have hD : ((2 : ℝ) / 1) ^ 2 + (-(1 / q)) ^ 2 - 1 = 2 ^ 2 * (1 - (s / (2 * q)) ^ 2) := by
      have : (s / (2 * q)) ^ 2 = (1 / q * s) ^ 2 / 4 := by ring
      rw [this]; linear_combination ht
    rw [hdot, hdd, hc, hD]
    refine ⟨two_ne_zero, one_ne_zero, by positivity, ?_⟩
    rw [Real.sqrt_mul (by norm_num), Real.sqrt_sq (by norm_num)]
    ext
    · simp only [smul_x, add_x]; simp; field_simp
    · simp
    · simp only [smul_z, add_z]; simp
  have h2 : (2 : ℝ) ≠ 0 := two_ne_zero
  simp only [one_div] at hi hs
  simp [Surface.propagate, Surface.propagateLocal, Sag.propagate, flatSag, hi, Surface.interact, div?,
    Surface.effectiveRay, flatNormal, denseMedium, Surface.rulingFactor, Surface.clip, sourceRay, waterRay, ← hqdef, hs,
    V3.len, V3.dot]

/-- A point on the surface is its own image, in all directions and for all displacements along the surface, so that the
sine condition is Snell's law. -/
example : (∀ s ∈ [(⟨flatSag, denseMedium, none, none, none⟩ : Surface)], s.Lens) ∧
    Imaged [⟨flatSag, denseMedium, none, none, none⟩] (sourceRay · 0) (waterRay · 0) ⟨0, 0, 0⟩ ⟨0, 0, 0⟩ 1 2 ∧
    (∀ s, Displaces [⟨flatSag, denseMedium, none, none, none⟩] (sourceRay s 0) ⟨1, 0, 0⟩ ⟨1, 0, 0⟩) ∧
    (sourceRay 0 0).direction = ⟨0, 0, 1⟩ ∧ (waterRay 0 0).direction.x = 0 := by
  have hivec : ∀ v, (Surface.frame ⟨flatSag, denseMedium, none, none, none⟩).ivec v = v := fun v => by
    apply V3.ext <;> simp [dot, Surface.frame, Rigid.ivec, Rigid.id, M3.one, M3.mulVec, M3.transpose]
  have hpos : ∀ s : ℝ, 0 < 1 + s ^ 2 := fun s => by positivity
  have hsq : ∀ s : ℝ, 0 < Real.sqrt (1 + s ^ 2) := fun s => Real.sqrt_pos.2 (hpos s)
  have hunit : ∀ s : ℝ, ((1 / Real.sqrt (1 + s ^ 2)) • (⟨s, 0, 1⟩ : V3)).dot ((1 / Real.sqrt (1 + s ^ 2)) • ⟨s, 0, 1⟩) = 1 := by
    intro s
    have h2 := Real.sq_sqrt (hpos s).le
    have h0 := hsq s
    simp only [dot, smul_x, smul_y, smul_z]; field_simp; rw [h2]; ring
  have hwz : ∀ s : ℝ, 0 < 1 - (s / (2 * Real.sqrt (1 + s ^ 2))) ^ 2 := by
    intro s
    have h2 := Real.sq_sqrt (hpos s).le
    have h0 := hsq s
    rw [div_pow, sub_pos, div_lt_one (by positivity)]
    nlinarith [sq_nonneg s]
  have hdir : ∀ s : ℝ, Smooth fun t => (1 / Real.sqrt (1 + (s + t) ^ 2)) • (⟨s + t, 0, 1⟩ : V3) := by
    intro s
    have h1 : DifferentiableAt ℝ (fun t : ℝ => s + t) 0 := by fun_prop
    have h2 : DifferentiableAt ℝ (fun t : ℝ => 1 + (s + t) ^ 2) 0 := by fun_prop
    refine Smooth.smul ?_ (smooth_iff.2 ⟨h1, differentiableAt_const _, differentiableAt_const _⟩)
    exact (differentiableAt_const _).div (h2.sqrt (hpos (s + 0)).ne') (hsq (s + 0)).ne'
  refine ⟨?_, ⟨?_, fun s => rfl, fun s => rfl, fun s => ⟨rfl, rfl⟩, ?_⟩, ?_, ?_, ?_⟩
  · intro s hs
    rw [List.mem_singleton] at hs
    subst hs
    refine ⟨rfl, C100_flat, fun r n h => ?_⟩
    have h : some (2 : ℝ) = some n := h
    rw [Option.some.injEq] at h
    rw [← h]; norm_num
  · intro s
    refine .cons ⟨water_traced s 0, C104_flat ?_, ⟨fun _ _ _ _ _ => rfl, fun _ _ _ _ _ => rfl, fun _ _ => ⟨1, rfl⟩⟩, by simp,
      ⟨0, 0, -1⟩, rfl, ?_, ?_, by simp⟩ (.nil _)
    · rw [hivec]; simp [sourceRay, (hsq s).ne']
    · rw [hivec]; simp [sourceRay, dot, (hsq s).ne']
    · rw [hivec]
      simp only [waterRay, dot]
      have := Real.sqrt_pos.2 (hwz s)
      simp [this.ne']
  · intro s
    exact ⟨⟨_, Moving.const _⟩, hdir s, Eventually.of_forall fun t => hunit _, Eventually.of_forall fun t => ⟨rfl, rfl, rfl⟩⟩
  · intro s
    refine ⟨sourceRay s, waterRay s, rfl, ⟨⟨⟨1, 0, 0⟩, ?_⟩, ⟨_, Moving.const _⟩, Eventually.of_forall fun t => hunit _,
      Eventually.of_forall fun t => ⟨rfl, rfl, rfl⟩⟩, ?_, Eventually.of_forall fun t => ?_, ?_⟩
    · exact ⟨hasDerivAt_id 0, hasDerivAt_const _ _, hasDerivAt_const _ _⟩
    · exact ⟨hasDerivAt_id 0, hasDerivAt_const _ _, hasDerivAt_const _ _⟩
    · rw [propagateSurfaces_cons, water_traced]
      exact propagateSurfaces_nil _
    · exact ⟨hasDerivAt_id 0, hasDerivAt_const _ _, hasDerivAt_const _ _⟩
  · apply V3.ext <;> simp [sourceRay]
  · simp [waterRay]

end Optika
