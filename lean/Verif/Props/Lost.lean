import Verif.Model.Lost
import Verif.Model.Sensor
import Verif.Props.Propagation

/-! # C114 -/

namespace Optika

/-- The functions of a surface for rays with components that are not finite agree with those for
finite rays. -/
structure LossySurface.Extends (s : LossySurface) : Prop where
  normal : ∀ p, s.normal (some p) = s.surface.sag.normal p
  effective : ∀ r : Ray, ∀ n ru, s.surface.rulings = some ru →
    s.effective r.known (some n) = rulingsIncidentEffective (ru.spacing r.position n) ru.order
      r.wavelength r.direction r.index n
  index : ∀ r : Ray, s.index r.known = s.surface.material.index r
  attenuation : ∀ r : Ray, s.attenuation r.known = s.surface.material.attenuation r
  efficiency : ∀ r : Ray, ∀ n, s.efficiency r.known (some n) = s.surface.material.efficiency r n
  rulingFactor : ∀ r : Ray, ∀ n, s.rulingFactor r.known (some n) = s.surface.rulingFactor r n

theorem complete_eq_some {p : PartialRay} {r : Ray} : p.complete = some r ↔ p = r.known := by
  obtain ⟨w, x, d, i, a, n, f⟩ := p
  obtain ⟨w', x', d', i', a', n', f'⟩ := r
  cases w <;> cases x <;> cases d <;> cases i <;> cases a <;> cases n <;>
    simp [PartialRay.complete, Ray.known]

theorem complete_known (r : Ray) : r.known.complete = some r := complete_eq_some.2 rfl

theorem strike_known (s : LossySurface) (r : Ray) :
    (s.strike r.known).complete = s.surface.sag.propagate r := by
  unfold LossySurface.strike Sag.propagate Ray.known PartialRay.complete
  cases h : s.surface.sag.intercept r.position r.direction <;> simp [h]

theorem strike_complete (s : LossySurface) (p : PartialRay) {r : Ray}
    (h : s.strike p = r.known) : ∃ r0 : Ray, p = r0.known := by
  obtain ⟨w, x, d, i, a, n, f⟩ := p
  obtain ⟨w', x', d', i', a', n', f'⟩ := r
  cases w <;> cases x <;> cases d <;> cases i <;> cases a <;> cases n <;>
    simp [LossySurface.strike, Ray.known] at h ⊢
  rename_i w x d i a n
  exact ⟨⟨w, x, d, i, a, n, f⟩, rfl, rfl, rfl, rfl, rfl, rfl, rfl⟩

theorem rest_known (s : LossySurface) (r : Ray) (n : V3) :
    PartialRay.complete { r.known with
      wavelength := do
        let w ← r.known.wavelength
        let i ← r.known.index
        let n2 ← s.surface.material.index r
        let ratio ← div? i n2
        div? w ratio
      direction := do
        let d ← r.known.direction
        let i ← r.known.index
        let n2 ← s.surface.material.index r
        let u ← some n
        snellsLaw d i n2 s.surface.material.isMirror u
      intensity := do
        let i ← r.known.intensity
        let e1 ← s.surface.material.efficiency r n
        let e2 ← s.surface.rulingFactor r n
        return i * (e1 * e2)
      attenuation := s.surface.material.attenuation r
      index := s.surface.material.index r } = do
    let n2 ← s.surface.material.index r
    let ratio ← div? r.index n2
    let wavelength2 ← div? r.wavelength ratio
    let b ← snellsLaw r.direction r.index n2 s.surface.material.isMirror n
    let e1 ← s.surface.material.efficiency r n
    let e2 ← s.surface.rulingFactor r n
    let attenuation2 ← s.surface.material.attenuation r
    return { r with
      wavelength := wavelength2, direction := b, intensity := r.intensity * (e1 * e2),
      attenuation := attenuation2, index := n2 } := by
  cases h2 : s.surface.material.index r with
  | none => simp [PartialRay.complete]
  | some n2 =>
    simp only [Ray.known, PartialRay.complete, Option.bind_eq_bind, Option.bind_some]
    cases h3 : div? r.index n2 with
    | none => simp
    | some ratio =>
      generalize div? r.wavelength ratio = a
      generalize snellsLaw r.direction r.index n2 s.surface.material.isMirror n = b
      generalize s.surface.material.efficiency r n = c
      generalize s.surface.rulingFactor r n = d
      generalize s.surface.material.attenuation r = f
      cases a <;> cases b <;> cases c <;> cases d <;> cases f <;> simp

theorem interact_known {s : LossySurface} (e : s.Extends) (r : Ray) :
    (s.interact r.known).complete = s.surface.interact r := by
  unfold LossySurface.interact Surface.interact Surface.effectiveRay
  have hn : s.normal r.known.position = s.surface.sag.normal r.position := e.normal _
  simp only [hn]
  cases hN : s.surface.sag.normal r.position with
  | none => simp [PartialRay.complete]
  | some n =>
    simp only [Option.bind_eq_bind, Option.bind_some]
    cases hR : s.surface.rulings with
    | none =>
      simp only [Option.bind_some, e.index, e.attenuation, e.efficiency, e.rulingFactor]
      exact rest_known s r n
    | some ru =>
      simp only [e.effective r n ru hR]
      cases hd : rulingsIncidentEffective (ru.spacing r.position n) ru.order
          r.wavelength r.direction r.index n with
      | none => simp [PartialRay.complete]
      | some d =>
        have hk : ({ r.known with direction := some d } : PartialRay) =
            Ray.known { r with direction := d } := rfl
        simp only [hk, Option.map_some, Option.bind_some, e.index, e.attenuation, e.efficiency,
          e.rulingFactor]
        exact rest_known s { r with direction := d } n

theorem bind_ne_none {α β : Type} {a : Option α} {f : α → Option β} (h : a.bind f ≠ none) :
    ∃ x, a = some x ∧ f x ≠ none := by
  cases a with
  | none => exact absurd rfl h
  | some x => exact ⟨x, rfl, h⟩

theorem interact_position (s : LossySurface) (p : PartialRay) :
    (s.interact p).position = p.position := by
  unfold LossySurface.interact
  cases s.surface.rulings <;> rfl

theorem interact_complete (s : LossySurface) (p : PartialRay) {r : Ray}
    (h : s.interact (s.strike p) = r.known) : ∃ r0 : Ray, p = r0.known := by
  have hp : (s.interact (s.strike p)).position ≠ none := by rw [h]; simp [Ray.known]
  have hw : (s.interact (s.strike p)).wavelength ≠ none := by rw [h]; simp [Ray.known]
  have hi : (s.interact (s.strike p)).intensity ≠ none := by rw [h]; simp [Ray.known]
  rw [interact_position] at hp
  simp only [LossySurface.strike, Option.bind_eq_bind] at hp
  obtain ⟨x, hx, hp⟩ := bind_ne_none hp
  obtain ⟨d, hd, -⟩ := bind_ne_none hp
  have hw' : (∃ w, p.wavelength = some w) ∧ ∃ n, p.index = some n := by
    unfold LossySurface.interact at hw
    cases hR : s.surface.rulings with
    | none =>
      simp only [hR, Option.bind_eq_bind] at hw
      obtain ⟨w, h1, hw⟩ := bind_ne_none hw
      obtain ⟨n, h2, -⟩ := bind_ne_none hw
      exact ⟨⟨w, h1⟩, n, h2⟩
    | some ru =>
      simp only [hR, Option.bind_eq_bind] at hw
      obtain ⟨w, h1, hw⟩ := bind_ne_none hw
      obtain ⟨n, h2, -⟩ := bind_ne_none hw
      exact ⟨⟨w, h1⟩, n, h2⟩
  have hi' : ∃ i, (s.strike p).intensity = some i := by
    unfold LossySurface.interact at hi
    cases hR : s.surface.rulings with
    | none =>
      simp only [hR, Option.bind_eq_bind] at hi
      obtain ⟨w, h1, -⟩ := bind_ne_none hi
      exact ⟨w, h1⟩
    | some ru =>
      simp only [hR, Option.bind_eq_bind] at hi
      obtain ⟨w, h1, -⟩ := bind_ne_none hi
      exact ⟨w, h1⟩
  obtain ⟨i, hi'⟩ := hi'
  have h3 : (s.strike p).intensity ≠ none := by rw [hi']; simp
  simp only [LossySurface.strike, Option.bind_eq_bind] at h3
  obtain ⟨q, -, h4⟩ := bind_ne_none h3
  obtain ⟨x', -, h5⟩ := bind_ne_none h4
  obtain ⟨a, ha, h6⟩ := bind_ne_none h5
  obtain ⟨i', h7, -⟩ := bind_ne_none h6
  obtain ⟨⟨w, h8⟩, n, hn⟩ := hw'
  clear h3 h4 h5 h6 hi hw hp hi' h
  obtain ⟨pw, px, pd, pi, pa, pn, f⟩ := p
  simp only at hx hd h8 hn ha h7
  subst hx hd h8 hn ha h7
  exact ⟨⟨w, x, d, i', a, n, f⟩, rfl⟩

theorem clip_known (s : LossySurface) (r : Ray) :
    (s.clip r.known).bind PartialRay.complete = s.surface.clip r := by
  unfold LossySurface.clip Surface.clip Aperture.clip
  cases s.surface.aperture with
  | none => exact complete_known r
  | some a =>
    cases hu : a.unit <;> simp only [hu] <;>
      simp [PartialRay.complete, Ray.known, LossySurface.maskAt]

theorem clip_complete (s : LossySurface) (p p' : PartialRay) {r : Ray} (h : s.clip p = some p')
    (hk : p' = r.known) : ∃ r0 : Ray, p = r0.known := by
  unfold LossySurface.clip at h
  subst hk
  cases ha : s.surface.aperture with
  | none => rw [ha] at h; simp only [Option.some.injEq] at h; exact ⟨r, h⟩
  | some a =>
    rw [ha] at h
    cases hu : a.unit <;> simp only [hu, Option.some.injEq, reduceCtorEq] at h
    all_goals
      obtain ⟨w, x, d, i, t, n, f⟩ := p
      simp only [Ray.known, PartialRay.mk.injEq] at h
      obtain ⟨rfl, rfl, rfl, rfl, rfl, rfl, -⟩ := h
      exact ⟨{ r with unvignetted := f }, rfl⟩

/-- The surface in its own frame. -/
theorem local_complete {s : LossySurface} (e : s.Extends) (p : PartialRay) :
    (s.clip (s.interact (s.strike p))).bind PartialRay.complete =
      p.complete.bind s.surface.propagateLocal := by
  cases hp : p.complete with
  | none =>
    cases hc : s.clip (s.interact (s.strike p)) with
    | none => rfl
    | some p' =>
      cases hk : p'.complete with
      | none => simpa using hk
      | some r =>
        obtain ⟨r1, h1⟩ := clip_complete s _ _ hc (complete_eq_some.1 hk)
        obtain ⟨r0, h0⟩ := interact_complete s p h1
        rw [h0, complete_known] at hp
        exact absurd hp (by simp)
  | some r =>
    rw [complete_eq_some.1 hp]
    simp only [Option.bind_some]
    unfold Surface.propagateLocal
    rw [← strike_known s r]
    simp only [Option.bind_eq_bind]
    cases h0 : (s.strike r.known).complete with
    | none =>
      simp only [Option.bind_none]
      cases hc : s.clip (s.interact (s.strike r.known)) with
      | none => rfl
      | some p' =>
        cases hk : p'.complete with
        | none => simpa using hk
        | some r' =>
          obtain ⟨r1, h1⟩ := clip_complete s _ _ hc (complete_eq_some.1 hk)
          have hpos : (s.interact (s.strike r.known)).position = some r1.position := by
            rw [h1]; rfl
          rw [interact_position] at hpos
          have hint : s.surface.sag.intercept r.position r.direction = some r1.position := hpos
          rw [strike_known, Sag.propagate, hint] at h0
          exact absurd h0 (by simp)
    | some r0 =>
      rw [complete_eq_some.1 h0, Option.bind_some, ← interact_known e r0]
      cases h1 : (s.interact r0.known).complete with
      | none =>
        simp only [Option.bind_none]
        cases hc : s.clip (s.interact r0.known) with
        | none => rfl
        | some p' =>
          cases hk : p'.complete with
          | none => simpa using hk
          | some r' =>
            obtain ⟨r1, h2⟩ := clip_complete s _ _ hc (complete_eq_some.1 hk)
            rw [h2, complete_known] at h1
            exact absurd h1 (by simp)
      | some r1 =>
        rw [complete_eq_some.1 h1, Option.bind_some]
        exact clip_known s r1

theorem moved_complete (p : PartialRay) (g : Rigid) :
    PartialRay.complete { p with position := p.position.map g.point, direction := p.direction.map g.vec }
      = p.complete.map (Ray.move g) := by
  obtain ⟨w, x, d, i, t, n, f⟩ := p
  cases w <;> cases x <;> cases d <;> cases i <;> cases t <;> cases n <;>
    simp [PartialRay.complete, Ray.move]

theorem unmoved_complete (p : PartialRay) (g : Rigid) :
    PartialRay.complete
        { p with position := p.position.map g.ipoint, direction := p.direction.map g.ivec }
      = p.complete.map (Ray.unmove g) := by
  obtain ⟨w, x, d, i, t, n, f⟩ := p
  cases w <;> cases x <;> cases d <;> cases i <;> cases t <;> cases n <;>
    simp [PartialRay.complete, Ray.unmove]

theorem propagate_complete {s : LossySurface} (e : s.Extends) (p : PartialRay) :
    (s.propagate p).bind PartialRay.complete = p.complete.bind s.surface.propagate := by
  unfold LossySurface.propagate
  cases hg : s.surface.transformation with
  | none =>
    simp only
    rw [local_complete e]
    congr 1
    funext r
    unfold Surface.propagate
    rw [hg]
  | some g =>
    simp only
    rw [Option.bind_map]
    have h1 : (PartialRay.complete ∘ fun r : PartialRay =>
        { r with position := r.position.map g.point, direction := r.direction.map g.vec }) =
        Option.map (Ray.move g) ∘ PartialRay.complete := funext fun p => moved_complete p g
    rw [h1, ← Option.map_bind, local_complete e, unmoved_complete, Option.bind_map, Option.map_bind]
    congr 1
    funext r
    simp only [Function.comp]
    conv_rhs => unfold Surface.propagate
    rw [hg]

theorem lossy_complete {ss : List LossySurface} (e : ∀ s ∈ ss, s.Extends) (p : PartialRay) :
    (propagateLossy ss p).bind PartialRay.complete =
      p.complete.bind fun r => propagateSurfaces (ss.map (·.surface)) r := by
  induction ss generalizing p with
  | nil =>
    change p.complete = _
    cases p.complete <;> rfl
  | cons s ss ih =>
    have h : propagateLossy (s :: ss) p = (s.propagate p).bind (propagateLossy ss) := rfl
    rw [h, Option.bind_assoc]
    have h2 : (fun q => (propagateLossy ss q).bind PartialRay.complete) =
        fun q => q.complete.bind fun r => propagateSurfaces (ss.map (·.surface)) r :=
      funext fun q => ih (fun x hx => e x (List.mem_cons_of_mem _ hx)) q
    rw [h2, ← Option.bind_assoc, propagate_complete (e s List.mem_cons_self), Option.bind_assoc]
    congr 1
    funext r
    rw [List.map_cons, propagateSurfaces_cons]

/-- **C114**: the rays that are not finite in the model of the surfaces are exactly the rays some
component of which is not finite in the code. -/
theorem C114_complete {ss : List LossySurface} (e : ∀ s ∈ ss, s.Extends) (r : Ray) :
    (propagateLossy ss r.known).bind PartialRay.complete =
      propagateSurfaces (ss.map (·.surface)) r := by
  rw [lossy_complete e, complete_known, Option.bind_some]

theorem clip_position {s : LossySurface} {p p' : PartialRay} (h : s.clip p = some p') :
    p'.position = p.position ∧ p'.direction = p.direction ∧
      (p'.unvignetted = true → p.unvignetted = true) := by
  unfold LossySurface.clip at h
  cases ha : s.surface.aperture with
  | none => rw [ha] at h; simp only [Option.some.injEq] at h; subst h; exact ⟨rfl, rfl, id⟩
  | some a =>
    rw [ha] at h
    cases hu : a.unit <;> simp only [hu, Option.some.injEq, reduceCtorEq] at h
    all_goals
      subst h
      refine ⟨rfl, rfl, fun h => ?_⟩
      simp only [Bool.and_eq_true] at h
      exact h.1

theorem strike_position {s : LossySurface} {p : PartialRay} (h : (s.strike p).position ≠ none) :
    p.position ≠ none ∧ p.direction ≠ none := by
  simp only [LossySurface.strike, Option.bind_eq_bind] at h
  obtain ⟨x, hx, h⟩ := bind_ne_none h
  obtain ⟨d, hd, -⟩ := bind_ne_none h
  rw [hx, hd]
  simp

/-- A ray that arrives at a place has left the surface before from a place and in a direction. -/
theorem propagate_position {s : LossySurface} {p p' : PartialRay} (h : s.propagate p = some p')
    (hp : p'.position ≠ none) : p.position ≠ none ∧ p.direction ≠ none := by
  unfold LossySurface.propagate at h
  cases hg : s.surface.transformation with
  | none =>
    rw [hg] at h
    simp only at h
    obtain ⟨h1, -⟩ := clip_position h
    rw [h1, interact_position] at hp
    exact strike_position hp
  | some g =>
    rw [hg] at h
    simp only [Option.map_eq_some_iff] at h
    obtain ⟨q, hq, rfl⟩ := h
    obtain ⟨h1, -⟩ := clip_position hq
    simp only [ne_eq, Option.map_eq_none_iff] at hp
    rw [h1, interact_position] at hp
    have := strike_position hp
    simpa using this

theorem lossy_append (ss ts : List LossySurface) (p : PartialRay) :
    propagateLossy (ss ++ ts) p = (propagateLossy ss p).bind (propagateLossy ts) := by
  unfold propagateLossy
  rw [List.foldlM_append]
  rfl

theorem lossy_position {ss : List LossySurface} {p out : PartialRay} (hne : ss ≠ [])
    (h : propagateLossy ss p = some out) (hp : out.position ≠ none) :
    p.position ≠ none ∧ p.direction ≠ none := by
  induction ss generalizing p with
  | nil => exact absurd rfl hne
  | cons s ss ih =>
    have h0 : propagateLossy (s :: ss) p = (s.propagate p).bind (propagateLossy ss) := rfl
    rw [h0] at h
    obtain ⟨q, hq, h⟩ := Option.bind_eq_some_iff.1 h
    refine propagate_position hq ?_
    by_cases hs : ss = []
    · subst hs
      have : q = out := Option.some.inj h
      rw [this]; exact hp
    · exact (ih hs h).1

/-- The last surface of a list looks where rays strike it: it has an active aperture, measured in
units of length, that is not inverted, and that is not a polygon (or a polygon that no point which is
not finite lies in). -/
structure LossySurface.Looks (s : LossySurface) : Prop where
  aperture : ∃ a, s.surface.aperture = some a ∧ a.unit = .length
  active : s.active = true
  inverted : s.inverted = false
  inside : s.insideLost = false

theorem looks_position {s : LossySurface} (hs : s.Looks) {p out : PartialRay}
    (h : s.propagate p = some out) (hv : out.unvignetted = true) : out.position ≠ none := by
  obtain ⟨a, ha, hu⟩ := hs.aperture
  have key : ∀ q q', s.clip q = some q' → q'.unvignetted = true → q.position ≠ none := by
    intro q q' hq hv hn
    unfold LossySurface.clip at hq
    rw [ha] at hq
    simp only [hu, Option.some.injEq] at hq
    subst hq
    simp [hn, LossySurface.maskAt, hs.active, hs.inverted, hs.inside, applyFlags] at hv
  unfold LossySurface.propagate at h
  cases hg : s.surface.transformation with
  | none =>
    rw [hg] at h
    simp only at h
    rw [(clip_position h).1]
    exact key _ _ h hv
  | some g =>
    rw [hg] at h
    simp only [Option.map_eq_some_iff] at h
    obtain ⟨q, hq, rfl⟩ := h
    simp only [ne_eq, Option.map_eq_none_iff]
    rw [(clip_position hq).1]
    exact key _ _ hq hv

/-- **C114**: if the last surface looks where rays strike it (as all imaging sensors do), a ray which
is unvignetted has struck it, and has struck every surface before and left it in a direction. -/
theorem C114_arrives {ss : List LossySurface} {s : LossySurface} (hs : s.Looks)
    {p out : PartialRay} (h : propagateLossy (ss ++ [s]) p = some out)
    (hv : out.unvignetted = true) :
    out.position ≠ none ∧ ∀ before after, ss ++ [s] = before ++ after → after ≠ [] →
      ∃ q, propagateLossy before p = some q ∧ q.position ≠ none ∧ q.direction ≠ none := by
  have hpos : out.position ≠ none := by
    rw [lossy_append] at h
    obtain ⟨q, -, h⟩ := Option.bind_eq_some_iff.1 h
    have h' : (s.propagate q).bind (propagateLossy []) = some out := h
    obtain ⟨q', hq', h''⟩ := Option.bind_eq_some_iff.1 h'
    have : q' = out := Option.some.inj h''
    rw [this] at hq'
    exact looks_position hs hq' hv
  refine ⟨hpos, fun before after e hne => ?_⟩
  rw [e, lossy_append] at h
  obtain ⟨q, hq, h⟩ := Option.bind_eq_some_iff.1 h
  exact ⟨q, hq, lossy_position hne h hpos⟩

theorem known_of_components {p : PartialRay} (hw : p.wavelength ≠ none) (hx : p.position ≠ none)
    (hd : p.direction ≠ none) (hi : p.intensity ≠ none) (ha : p.attenuation ≠ none)
    (hn : p.index ≠ none) : ∃ r : Ray, p = r.known := by
  obtain ⟨w, x, d, i, a, n, f⟩ := p
  obtain ⟨w, rfl⟩ := Option.ne_none_iff_exists'.1 hw
  obtain ⟨x, rfl⟩ := Option.ne_none_iff_exists'.1 hx
  obtain ⟨d, rfl⟩ := Option.ne_none_iff_exists'.1 hd
  obtain ⟨i, rfl⟩ := Option.ne_none_iff_exists'.1 hi
  obtain ⟨a, rfl⟩ := Option.ne_none_iff_exists'.1 ha
  obtain ⟨n, rfl⟩ := Option.ne_none_iff_exists'.1 hn
  exact ⟨⟨w, x, d, i, a, n, f⟩, rfl⟩

/-- Efficiency and attenuation of the surface are defined for every ray. -/
structure Surface.Defined (s : Surface) : Prop where
  efficiency : ∀ r n, s.material.efficiency r n ≠ none
  rulings : ∀ r n, s.rulingFactor r n ≠ none
  attenuation : ∀ r, s.material.attenuation r ≠ none

theorem snell_ratio {a u : V3} {n1 n2 : ℝ} {m : Bool} (h : snellsLaw a n1 n2 m u ≠ none) :
    ∃ ratio, div? n1 n2 = some ratio ∧ ∀ w, div? w ratio ≠ none := by
  unfold snellsLaw at h
  simp only [Option.bind_eq_bind] at h
  obtain ⟨ratio, h1, h⟩ := bind_ne_none h
  obtain ⟨q, h2, -⟩ := bind_ne_none h
  refine ⟨ratio, h1, fun w => ?_⟩
  have : ratio * ratio ≠ 0 := (div?_eq_some.1 h2).1
  have h0 : ratio ≠ 0 := fun h => this (by rw [h, mul_zero])
  unfold div?
  rw [if_neg h0]
  simp

theorem interact_defined {s : LossySurface} (e : s.Extends) (hs : s.surface.Defined) (r : Ray)
    (hd : (s.interact r.known).direction ≠ none) : ∃ r' : Ray, s.interact r.known = r'.known := by
  have hx : (s.interact r.known).position ≠ none := by
    rw [interact_position]; simp [Ray.known]
  unfold LossySurface.interact at hd hx ⊢
  have hn : s.normal r.known.position = s.surface.sag.normal r.position := e.normal _
  simp only [hn] at hd hx ⊢
  cases hR : s.surface.rulings with
  | none =>
    simp only [hR, Option.bind_eq_bind] at hd hx ⊢
    obtain ⟨d, h1, hd'⟩ := bind_ne_none hd
    obtain ⟨i, h2, hd'⟩ := bind_ne_none hd'
    obtain ⟨n2, h3, hd'⟩ := bind_ne_none hd'
    obtain ⟨n, h4, hd'⟩ := bind_ne_none hd'
    obtain ⟨ratio, h5, h6⟩ := snell_ratio hd'
    obtain ⟨c, hc⟩ := Option.ne_none_iff_exists'.1 (hs.efficiency r n)
    obtain ⟨f, hf⟩ := Option.ne_none_iff_exists'.1 (hs.rulings r n)
    refine known_of_components ?_ hx hd ?_ ?_ ?_
    · have hi : r.index = i := Option.some.inj h2
      rw [← hi] at h5
      rw [h3]
      simp only [Ray.known, Option.bind_some, h5]
      exact h6 _
    · rw [h4, e.efficiency, e.rulingFactor, hc, hf]
      simp [Ray.known]
    · rw [e.attenuation]; exact hs.attenuation r
    · rw [h3]; simp
  | some ru =>
    simp only [hR, Option.bind_eq_bind] at hd hx ⊢
    obtain ⟨d, h1, hd'⟩ := bind_ne_none hd
    obtain ⟨i, h2, hd'⟩ := bind_ne_none hd'
    obtain ⟨n2, h3, hd'⟩ := bind_ne_none hd'
    obtain ⟨n, h4, hd'⟩ := bind_ne_none hd'
    obtain ⟨ratio, h5, h6⟩ := snell_ratio hd'
    obtain ⟨c, hc⟩ := Option.ne_none_iff_exists'.1 (hs.efficiency { r with direction := d } n)
    obtain ⟨f, hf⟩ := Option.ne_none_iff_exists'.1 (hs.rulings { r with direction := d } n)
    have hk : ({ r.known with direction := s.effective r.known (s.surface.sag.normal r.position) } :
        PartialRay) = Ray.known { r with direction := d } := by
      rw [h1]; rfl
    rw [hk] at h3
    simp only [hk] at hd hx ⊢
    refine known_of_components ?_ hx hd ?_ ?_ ?_
    · have hi : r.index = i := Option.some.inj h2
      rw [← hi] at h5
      rw [h3]
      simp only [Ray.known, Option.bind_some, h5]
      exact h6 _
    · rw [h4, e.efficiency, e.rulingFactor, hc, hf]
      simp [Ray.known]
    · rw [e.attenuation]; exact hs.attenuation _
    · rw [h3]; simp

theorem strike_defined {s : LossySurface} (r : Ray) (h : (s.strike r.known).position ≠ none) :
    ∃ r0 : Ray, s.strike r.known = r0.known := by
  cases hc : (s.strike r.known).complete with
  | some r0 => exact ⟨r0, complete_eq_some.1 hc⟩
  | none =>
    rw [strike_known, Sag.propagate] at hc
    have h' : s.surface.sag.intercept r.position r.direction ≠ none := h
    obtain ⟨q, hq⟩ := Option.ne_none_iff_exists'.1 h'
    rw [hq] at hc
    exact absurd hc (by simp)

theorem clip_defined {s : LossySurface} {r : Ray} {q : PartialRay} (h : s.clip r.known = some q) :
    ∃ r' : Ray, q = r'.known := by
  unfold LossySurface.clip at h
  cases ha : s.surface.aperture with
  | none => rw [ha] at h; exact ⟨r, (Option.some.inj h).symm⟩
  | some a =>
    rw [ha] at h
    cases hu : a.unit <;> simp only [hu, Option.some.injEq, reduceCtorEq] at h
    · subst h
      exact ⟨{ r with unvignetted := r.unvignetted && a.mask r.position }, rfl⟩
    · subst h
      exact ⟨{ r with unvignetted := r.unvignetted && a.mask r.direction }, rfl⟩

theorem propagate_defined {s : LossySurface} (e : s.Extends) (hs : s.surface.Defined) {r : Ray}
    {q : PartialRay} (h : s.propagate r.known = some q) (hx : q.position ≠ none)
    (hd : q.direction ≠ none) : ∃ r' : Ray, q = r'.known := by
  have key : ∀ (r : Ray) (q : PartialRay), s.clip (s.interact (s.strike r.known)) = some q →
      q.position ≠ none → q.direction ≠ none → ∃ r' : Ray, q = r'.known := by
    intro r q h hx hd
    obtain ⟨h1, h2, -⟩ := clip_position h
    rw [h1, interact_position] at hx
    rw [h2] at hd
    obtain ⟨r0, h0⟩ := strike_defined r hx
    rw [h0] at h hd
    obtain ⟨r1, h1⟩ := interact_defined e hs r0 hd
    rw [h1] at h
    exact clip_defined h
  unfold LossySurface.propagate at h
  cases hg : s.surface.transformation with
  | none => rw [hg] at h; exact key _ _ h hx hd
  | some g =>
    rw [hg] at h
    simp only [Option.map_eq_some_iff] at h
    obtain ⟨q', hq, rfl⟩ := h
    simp only [ne_eq, Option.map_eq_none_iff] at hx hd
    obtain ⟨r', rfl⟩ := key (r.unmove g) q' hq hx hd
    exact ⟨r'.move g, rfl⟩

/-- A ray that strikes the last surface is finite when it comes to it, if all surfaces have an
efficiency and an attenuation for every ray. -/
theorem finite_of_position {ss : List LossySurface} {s : LossySurface}
    (e : ∀ x ∈ ss, x.Extends) (hd : ∀ x ∈ ss, x.surface.Defined) {r : Ray} {out : PartialRay}
    (h : propagateLossy (ss ++ [s]) r.known = some out) (hp : out.position ≠ none) :
    ∃ r', propagateSurfaces (ss.map (·.surface)) r = some r' ∧ s.propagate r'.known = some out := by
  have h1 : ∀ before after, ss ++ [s] = before ++ after → after ≠ [] →
      ∃ q, propagateLossy before r.known = some q ∧ q.position ≠ none ∧ q.direction ≠ none :=
    fun before after e hne => by
      rw [e, lossy_append] at h
      obtain ⟨q, hq, h⟩ := Option.bind_eq_some_iff.1 h
      exact ⟨q, hq, lossy_position hne h hp⟩
  have h2 : ∀ before, (∃ after, after ≠ [] ∧ ss ++ [s] = before ++ after) →
      ∃ r' : Ray, propagateLossy before r.known = some r'.known := by
    intro before
    induction before using List.reverseRecOn with
    | nil => exact fun _ => ⟨r, rfl⟩
    | append_singleton l x ih =>
      rintro ⟨after, hne, he⟩
      obtain ⟨r0, h0⟩ := ih ⟨x :: after, by simp, by simpa using he⟩
      obtain ⟨q, hq, hqx, hqd⟩ := h1 _ _ he hne
      rw [lossy_append, h0, Option.bind_some] at hq
      have hq' : (x.propagate r0.known).bind (propagateLossy []) = some q := hq
      obtain ⟨q', hq'', h3⟩ := Option.bind_eq_some_iff.1 hq'
      have : q' = q := Option.some.inj h3
      subst this
      have hx : x ∈ ss := by
        obtain ⟨a, b, rfl⟩ : ∃ a b, after = a ++ [b] :=
          ⟨_, _, (List.dropLast_append_getLast hne).symm⟩
        have : ss = (l ++ [x]) ++ a := by
          have h4 : ss ++ [s] = ((l ++ [x]) ++ a) ++ [b] := by rw [he]; simp
          exact (List.append_inj' h4 rfl).1
        rw [this]; simp
      obtain ⟨r', hr'⟩ := propagate_defined (e x hx) (hd x hx) hq'' hqx hqd
      refine ⟨r', ?_⟩
      rw [lossy_append, h0, Option.bind_some]
      rw [hq, hr']
  obtain ⟨r', hr'⟩ := h2 ss ⟨[s], by simp, rfl⟩
  refine ⟨r', ?_, ?_⟩
  · rw [← C114_complete e, hr', Option.bind_some, complete_known]
  · rw [lossy_append, hr', Option.bind_some] at h
    have h' : (s.propagate r'.known).bind (propagateLossy []) = some out := h
    obtain ⟨q', hq'', h3⟩ := Option.bind_eq_some_iff.1 h'
    rw [hq'']; exact h3

/-- **C114**: if moreover all surfaces have an efficiency and an attenuation for every ray, all
components of an unvignetted ray are finite when it comes to the last surface, so that the ray is that
of the model without lost rays. -/
theorem C114_finite {ss : List LossySurface} {s : LossySurface} (hs : s.Looks)
    (e : ∀ x ∈ ss, x.Extends) (hd : ∀ x ∈ ss, x.surface.Defined) {r : Ray} {out : PartialRay}
    (h : propagateLossy (ss ++ [s]) r.known = some out) (hv : out.unvignetted = true) :
    ∃ r', propagateSurfaces (ss.map (·.surface)) r = some r' ∧ s.propagate r'.known = some out :=
  finite_of_position e hd h (C114_arrives hs h hv).1

/-- A sensor: it looks where rays strike it, has a normal everywhere and no rulings, and an efficiency
and an attenuation for every ray. -/
structure LossySurface.Sensor (s : LossySurface) : Prop where
  looks : s.Looks
  extends_ : s.Extends
  defined : s.surface.Defined
  rulings : s.surface.rulings = none
  normal : ∀ p, s.surface.sag.normal p ≠ none

theorem clip_intensity {s : LossySurface} {p p' : PartialRay} (h : s.clip p = some p') :
    p'.intensity = p.intensity := by
  unfold LossySurface.clip at h
  cases ha : s.surface.aperture with
  | none => rw [ha] at h; simp only [Option.some.injEq] at h; subst h; rfl
  | some a =>
    rw [ha] at h
    cases hu : a.unit <;> simp only [hu, Option.some.injEq, reduceCtorEq] at h
    all_goals subst h; rfl

theorem sensor_intensity {s : LossySurface} (hs : s.Sensor) {r : Ray} {out : PartialRay}
    (h : s.propagate r.known = some out) (hx : out.position ≠ none) : out.intensity ≠ none := by
  have key : ∀ (r : Ray) (q : PartialRay), s.clip (s.interact (s.strike r.known)) = some q →
      q.position ≠ none → q.intensity ≠ none := by
    intro r q h hx
    rw [(clip_position h).1, interact_position] at hx
    obtain ⟨r0, h0⟩ := strike_defined r hx
    rw [clip_intensity h, h0]
    unfold LossySurface.interact
    simp only [hs.rulings, Option.bind_eq_bind]
    have hn : s.normal r0.known.position = s.surface.sag.normal r0.position := hs.extends_.normal _
    obtain ⟨n, hn'⟩ := Option.ne_none_iff_exists'.1 (hs.normal r0.position)
    obtain ⟨c, hc⟩ := Option.ne_none_iff_exists'.1 (hs.defined.efficiency r0 n)
    obtain ⟨f, hf⟩ := Option.ne_none_iff_exists'.1 (hs.defined.rulings r0 n)
    rw [hn, hn', hs.extends_.efficiency, hs.extends_.rulingFactor, hc, hf]
    simp [Ray.known]
  unfold LossySurface.propagate at h
  cases hg : s.surface.transformation with
  | none => rw [hg] at h; exact key _ _ h hx
  | some g =>
    rw [hg] at h
    simp only [Option.map_eq_some_iff] at h
    obtain ⟨q', hq, rfl⟩ := h
    simp only [ne_eq, Option.map_eq_none_iff] at hx
    exact key (r.unmove g) q' hq hx

section Pupil
variable {P : Type} [Fintype P]

theorem sumSelected_some {x : P → Option ℝ} {select : P → Bool}
    (h : ∀ p, select p = true → x p ≠ none) :
    ∃ y : P → ℝ, (∀ p, select p = true → x p = some (y p)) ∧
      sumSelected x select = some (∑ p ∈ Finset.univ.filter (fun p => select p = true), y p) := by
  refine ⟨fun p => (x p).getD 0, fun p hp => ?_, ?_⟩
  · obtain ⟨v, hv⟩ := Option.ne_none_iff_exists'.1 (h p hp)
    simp only [hv, Option.getD_some]
  · unfold sumSelected
    rw [if_neg]
    rintro ⟨p, hp, hn⟩
    exact h p hp hn

/-- **C114**: rays that are lost do not spoil the effective area: it is the sum of the intensities of
the rays that strike the sensor inside of its aperture. -/
theorem C114_area {ss : List LossySurface} {s : LossySurface} (hs : s.Sensor)
    (e : ∀ x ∈ ss, x.Extends) (hd : ∀ x ∈ ss, x.surface.Defined) (r : P → Ray)
    (out : P → PartialRay) (h : ∀ p, propagateLossy (ss ++ [s]) (r p).known = some (out p)) :
    ∃ i : P → ℝ, (∀ p, (out p).unvignetted = true →
        (out p).intensity = some (i p) ∧ (out p).position ≠ none) ∧
      areaLossy out =
        some (∑ p ∈ Finset.univ.filter (fun p => (out p).unvignetted = true), i p) := by
  have h1 : ∀ p, (out p).unvignetted = true → (out p).intensity ≠ none := by
    intro p hv
    obtain ⟨r', -, hr'⟩ := C114_finite hs.looks e hd (h p) hv
    exact sensor_intensity hs hr' (C114_arrives hs.looks (h p) hv).1
  obtain ⟨y, hy, hsum⟩ := sumSelected_some (x := fun p => (out p).intensity)
    (select := fun p => (out p).unvignetted) h1
  exact ⟨y, fun p hv => ⟨hy p hv, (C114_arrives hs.looks (h p) hv).1⟩, hsum⟩

/-- **C114**: rays that are lost do not spoil the mean position in `distortion` of a field point, if
a ray of it arrives: it is the mean position of the rays that strike the sensor inside of its
aperture. -/
theorem C114_mean {ss : List LossySurface} {s : LossySurface} (hs : s.Looks) (r : P → PartialRay)
    (out : P → PartialRay) (h : ∀ p, propagateLossy (ss ++ [s]) (r p) = some (out p))
    (hsome : ∃ p, (out p).unvignetted = true) (coordinate : V3 → ℝ) :
    ∃ x : P → ℝ, (∀ p, (out p).unvignetted = true →
        (out p).position.map coordinate = some (x p)) ∧
      coordinateLossy coordinate out =
        some ((∑ p ∈ Finset.univ.filter (fun p => (out p).unvignetted = true), x p) /
          ((Finset.univ.filter (fun p => (out p).unvignetted = true)).card : ℝ)) := by
  have h1 : ∀ p, (out p).unvignetted = true → (out p).position.map coordinate ≠ none := by
    intro p hv
    have := (C114_arrives hs (h p) hv).1
    simpa using this
  have ha : anyUnvignetted (fun p => (out p).unvignetted) = true := by
    unfold anyUnvignetted; simpa using hsome
  have hsel : (fun p => (out p).unvignetted || !anyUnvignetted fun p => (out p).unvignetted) =
      fun p => (out p).unvignetted := by
    funext p; rw [ha]; simp
  obtain ⟨y, hy, hsum⟩ := sumSelected_some (x := fun p => (out p).position.map coordinate)
    (select := fun p => (out p).unvignetted) h1
  refine ⟨y, hy, ?_⟩
  unfold coordinateLossy
  simp only [hsel]
  rw [hsum]
  have hfil : (Finset.univ.filter fun p =>
      ((out p).unvignetted || !anyUnvignetted fun p => (out p).unvignetted) = true) =
      Finset.univ.filter (fun p => (out p).unvignetted = true) := by
    ext p; rw [ha]; simp
  simp only [Option.bind_eq_bind, Option.bind_some]
  unfold div?
  rw [hfil, if_neg]
  obtain ⟨p, hp⟩ := hsome
  have : p ∈ Finset.univ.filter (fun p => (out p).unvignetted = true) := by simp [hp]
  exact_mod_cast (Finset.card_pos.2 ⟨p, this⟩).ne'

/-- **C114**: rays that are lost count as vignetted in `vignetting`: the fraction is at most that of
the rays that strike the sensor. -/
theorem C114_fraction {ss : List LossySurface} {s : LossySurface} (hs : s.Looks) (r : P → PartialRay)
    (out : P → PartialRay) (h : ∀ p, propagateLossy (ss ++ [s]) (r p) = some (out p)) :
    open Classical in
    fractionLossy out ≤ ((Finset.univ.filter (fun p => (out p).position ≠ none)).card : ℝ) /
      (Fintype.card P : ℝ) := by
  classical
  unfold fractionLossy
  gcongr
  rw [Finset.card_filter]
  push_cast
  apply Finset.sum_le_sum
  intro p _
  unfold toReal
  by_cases hv : (out p).unvignetted = true
  · rw [if_pos hv, if_pos (C114_arrives hs (h p) hv).1]
  · rw [if_neg hv]; split <;> norm_num

/-- **C114**: rays that are lost do not spoil images if all surfaces have an efficiency for every ray:
a bin is the sum of the intensities of the unvignetted rays that fall into it. -/
theorem C114_image {ss : List LossySurface} {s : LossySurface} (hs : s.Sensor)
    (e : ∀ x ∈ ss, x.Extends) (hd : ∀ x ∈ ss, x.surface.Defined) (r : P → Ray)
    (out : P → PartialRay) (h : ∀ p, propagateLossy (ss ++ [s]) (r p).known = some (out p))
    (bin : ℝ → V3 → Bool) :
    ∃ i : P → ℝ, (∀ p, fallsInto bin (out p) = true → (out p).intensity = some (i p)) ∧
      binLossy bin out = some (∑ p ∈ Finset.univ.filter
        (fun p => fallsInto bin (out p) = true ∧ (out p).unvignetted = true), i p) := by
  have h0 : ∀ p, fallsInto bin (out p) = true → (out p).intensity ≠ none := by
    intro p hp
    have hpos : (out p).position ≠ none := by
      intro hn
      unfold fallsInto at hp
      rw [hn] at hp
      cases h : (out p).wavelength <;> simp [h] at hp
    obtain ⟨r', -, hr'⟩ := finite_of_position e hd (h p) hpos
    exact sensor_intensity hs hr' hpos
  have h1 : ∀ p, fallsInto bin (out p) = true →
      (out p).intensity.map (· * toReal (out p).unvignetted) ≠ none := fun p hp => by
    simpa using h0 p hp
  obtain ⟨y, hy, hsum⟩ := sumSelected_some
    (x := fun p => (out p).intensity.map (· * toReal (out p).unvignetted))
    (select := fun p => fallsInto bin (out p)) h1
  refine ⟨fun p => (out p).intensity.getD 0, fun p hp => ?_, ?_⟩
  · obtain ⟨v, hv⟩ := Option.ne_none_iff_exists'.1 (h0 p hp)
    simp only [hv, Option.getD_some]
  · unfold binLossy
    rw [hsum]
    congr 1
    conv_rhs => rw [← Finset.filter_filter, Finset.sum_filter]
    refine Finset.sum_congr rfl fun p hp => ?_
    have hp' : fallsInto bin (out p) = true := by simpa using hp
    obtain ⟨v, hv⟩ := Option.ne_none_iff_exists'.1 (h0 p hp')
    have := hy p hp'
    rw [hv] at this
    rw [hv, ← Option.some.inj this]
    unfold toReal
    cases (out p).unvignetted <;> simp

end Pupil

/-! ### Cases -/

/-- A surface in vacuum. -/
noncomputable def plainLossy (sag : Sag) (lost : Option V3) (aperture : Option Aperture)
    (inverted : Bool) : LossySurface where
  surface := ⟨sag, vacuum, aperture, none, none⟩
  insideLost := false
  active := true
  inverted := inverted
  normal p := p.elim lost sag.normal
  effective _ _ := none
  index _ := some 1
  attenuation _ := some 0
  efficiency _ _ := some 1
  rulingFactor _ _ := some 1

theorem plainLossy_extends (sag : Sag) (lost : Option V3) (aperture : Option Aperture)
    (inverted : Bool) : (plainLossy sag lost aperture inverted).Extends where
  normal _ := rfl
  effective r n ru h := by simp [plainLossy] at h
  index _ := rfl
  attenuation _ := rfl
  efficiency _ _ := rfl
  rulingFactor _ _ := rfl

theorem plainLossy_defined (sag : Sag) (lost : Option V3) (aperture : Option Aperture)
    (inverted : Bool) : (plainLossy sag lost aperture inverted).surface.Defined where
  efficiency _ _ := by simp [plainLossy, vacuum]
  rulings _ _ := by simp [plainLossy, Surface.rulingFactor]
  attenuation _ := by simp [plainLossy, vacuum]

theorem lossy_two {a b : LossySurface} {p q out : PartialRay} (h1 : a.propagate p = some q)
    (h2 : b.propagate q = some out) : propagateLossy [a, b] p = some out := by
  unfold propagateLossy
  simp [h1, h2]

/-- A ball of radius one, and a ray that passes it at a distance of two. -/
noncomputable def missedBall : LossySurface := plainLossy (sphereSag 1) none none false

/-- The ray that misses the ball. -/
noncomputable def missingRay : Ray := ⟨500, ⟨2, 0, -1⟩, ⟨0, 0, 1⟩, 1, 0, 1, true⟩

/-- What is left of the ray. -/
def lostRay : PartialRay := ⟨some 500, none, none, none, some 0, some 1, true⟩

theorem missed : missedBall.propagate missingRay.known = some lostRay := by
  have h : sphereIntercept 1 ⟨2, 0, -1⟩ ⟨0, 0, 1⟩ = none := by
    unfold sphereIntercept sqrt?
    norm_num
  unfold LossySurface.propagate missedBall plainLossy
  simp [LossySurface.strike, LossySurface.interact, LossySurface.clip, missingRay, Ray.known,
    sphereSag, h, lostRay, div?]

/-- A plane detector. -/
noncomputable def planeDetector (aperture : Option Aperture) (inverted : Bool) : LossySurface :=
  plainLossy flatSag (some ⟨0, 0, -1⟩) aperture inverted

/-- The detector with a circular aperture. -/
noncomputable def roundDetector (inverted : Bool) : LossySurface :=
  planeDetector (some ⟨.length, circleMask 5 true inverted none⟩) inverted

theorem roundDetector_sensor : (roundDetector false).Sensor where
  looks := ⟨⟨_, rfl, rfl⟩, rfl, rfl, rfl⟩
  extends_ := plainLossy_extends _ _ _ _
  defined := plainLossy_defined _ _ _ _
  rulings := rfl
  normal _ := by simp [roundDetector, planeDetector, plainLossy, flatSag, flatNormal]

/-- **C114**: without aperture behind the surface that is missed, the lost ray is unvignetted, and the
effective area is not finite. -/
theorem C114_no_aperture_counterexample :
    propagateLossy [missedBall, planeDetector none false] missingRay.known = some lostRay ∧
      lostRay.unvignetted = true ∧ lostRay.position = none ∧
      areaLossy (fun _ : Unit => lostRay) = none ∧ fractionLossy (fun _ : Unit => lostRay) = 1 := by
  have h : (planeDetector none false).propagate lostRay = some lostRay := by
    unfold LossySurface.propagate planeDetector plainLossy
    simp [LossySurface.strike, LossySurface.interact, LossySurface.clip, lostRay, div?]
  refine ⟨?_, rfl, rfl, ?_, ?_⟩
  · exact lossy_two missed h
  · unfold areaLossy sumSelected
    rw [if_pos ⟨(), rfl, rfl⟩]
  · simp [fractionLossy, lostRay, toReal]

/-- **C114**: an aperture that is inverted, that is an obscuration, lets lost rays pass. -/
theorem C114_obscuration_counterexample :
    propagateLossy [missedBall, roundDetector true] missingRay.known = some lostRay ∧
      lostRay.unvignetted = true ∧ lostRay.position = none := by
  have h : (roundDetector true).propagate lostRay = some lostRay := by
    unfold LossySurface.propagate roundDetector planeDetector plainLossy
    simp [LossySurface.strike, LossySurface.interact, LossySurface.clip, lostRay, div?,
      LossySurface.maskAt, applyFlags]
  exact ⟨lossy_two missed h, rfl, rfl⟩

/-- A sensor takes a lost ray to be vignetted. -/
theorem lost_vignetted :
    propagateLossy [missedBall, roundDetector false] missingRay.known =
      some { lostRay with unvignetted := false } := by
  have h : (roundDetector false).propagate lostRay =
      some { lostRay with unvignetted := false } := by
    unfold LossySurface.propagate roundDetector planeDetector plainLossy
    simp [LossySurface.strike, LossySurface.interact, LossySurface.clip, lostRay, div?,
      LossySurface.maskAt, applyFlags]
  exact lossy_two missed h

/-- **C114**: for a field point all rays of which are vignetted, `distortion` takes the mean over all
rays "so that the mean is never empty"; if one of them is lost, the mean is not finite even on a
sensor. -/
theorem C114_fallback_counterexample (coordinate : V3 → ℝ) :
    ∃ out, propagateLossy [missedBall, roundDetector false] missingRay.known = some out ∧
      coordinateLossy coordinate (fun _ : Unit => out) = none := by
  refine ⟨_, lost_vignetted, ?_⟩
  unfold coordinateLossy sumSelected
  simp [anyUnvignetted, lostRay]

/-- **C114**: a ray that strikes the sensor and has no efficiency spoils the bin it falls into even
though it is vignetted, since the image weighs it with `rays.intensity * where`; the effective area, the
sum over the unvignetted rays, is not affected. -/
theorem C114_vignetted_image_counterexample (w : ℝ) (x d : V3) (bin : ℝ → V3 → Bool)
    (hb : bin w x = true) :
    let out : PartialRay := ⟨some w, some x, some d, none, some 0, some 1, false⟩
    binLossy bin (fun _ : Unit => out) = none ∧ areaLossy (fun _ : Unit => out) = some 0 := by
  refine ⟨?_, ?_⟩
  · unfold binLossy sumSelected
    rw [if_pos ⟨(), by simpa [fallsInto] using hb, by simp⟩]
  · unfold areaLossy sumSelected
    rw [if_neg (by simp)]
    simp

/-- A ray that strikes the ball and the sensor. -/
noncomputable def ballRay : Ray := ⟨500, ⟨0, 0, -1⟩, ⟨0, 0, 1⟩, 1, 0, 1, true⟩

theorem ball_struck : missedBall.propagate ballRay.known =
    some ⟨some 500, some ⟨0, 0, 0⟩, some ⟨0, 0, 1⟩, some 1, some 0, some 1, true⟩ := by
  have h : sphereIntercept 1 ⟨0, 0, -1⟩ ⟨0, 0, 1⟩ = some ⟨0, 0, 0⟩ := by
    unfold sphereIntercept sqrt?
    norm_num [sgn]
  have h2 : sphereNormal 1 ⟨0, 0, 0⟩ = some ⟨0, 0, -1⟩ := by
    unfold sphereNormal
    norm_num [div?, sqrt?]
  have h3 : snellsLaw ⟨0, 0, 1⟩ 1 1 false ⟨0, 0, -1⟩ = some ⟨0, 0, 1⟩ := by
    unfold snellsLaw
    norm_num [div?, sqrt?, copysign1]
  unfold LossySurface.propagate missedBall plainLossy
  simp [LossySurface.strike, LossySurface.interact, LossySurface.clip, ballRay, Ray.known,
    sphereSag, h, h2, h3, div?, vacuum]

example : ∃ out, propagateLossy ([missedBall] ++ [roundDetector false]) ballRay.known = some out ∧
    out.unvignetted = true ∧ out.position = some ⟨0, 0, 0⟩ := by
  have h3 : snellsLaw ⟨0, 0, 1⟩ 1 1 false ⟨0, 0, -1⟩ = some ⟨0, 0, 1⟩ := by
    unfold snellsLaw
    norm_num [div?, sqrt?, copysign1]
  refine ⟨⟨some 500, some ⟨0, 0, 0⟩, some ⟨0, 0, 1⟩, some 1, some 0, some 1, true⟩, ?_, rfl, rfl⟩
  have : (roundDetector false).propagate
      ⟨some 500, some ⟨0, 0, 0⟩, some ⟨0, 0, 1⟩, some 1, some 0, some 1, true⟩ =
      some ⟨some 500, some ⟨0, 0, 0⟩, some ⟨0, 0, 1⟩, some 1, some 0, some 1, true⟩ := by
    unfold LossySurface.propagate roundDetector planeDetector plainLossy
    simp [LossySurface.strike, LossySurface.interact, LossySurface.clip, flatSag, flatIntercept,
      flatNormal, h3, div?, vacuum, LossySurface.maskAt, applyFlags, circleMask, xyLength, toLocal]
  exact lossy_two ball_struck this

end Optika
