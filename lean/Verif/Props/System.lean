import Verif.Model.System
import Verif.Props.Propagation

/-!
# C23, C24, C25: ray tracing through a sequential system
-/

namespace Optika
open V3

/-! ## C23: calls are independent of each other -/

/-- Neither wavelength nor field nor pupil is given. -/
def Call.IsDefault (c : Call) : Prop := c.wavelength = none ∧ c.field = none ∧ c.pupil = none

theorem isDefault_iff (c : Call) :
    (c.wavelength.isNone && c.field.isNone && c.pupil.isNone) = true ↔ c.IsDefault := by
  simp [Call.IsDefault, and_assoc]

/-- **C23**: a call that gives at least one of wavelength, field and pupil does not depend on
any earlier call, and leaves no trace for later calls. -/
theorem C23_explicit_grid (s : System) (c : Call) (hc : ¬c.IsDefault) (cache : Option Ray) :
    (s.raytrace c cache).1 = (s.raytrace c none).1 ∧ (s.raytrace c cache).2 = cache ∧
    s.rayfunction c cache = s.rayfunction c none := by
  have h : ¬(c.wavelength.isNone && c.field.isNone && c.pupil.isNone) = true := by
    rw [isDefault_iff]; exact hc
  have h1 : (s.raytrace c cache).1 = (s.raytrace c none).1 := by
    unfold System.raytrace; rw [if_neg h, if_neg h]
  refine ⟨h1, by unfold System.raytrace; rw [if_neg h], ?_⟩
  unfold System.rayfunction
  rw [h1]

theorem raytrace_default (s : System) (c : Call) (hc : c.IsDefault) (cache : Option Ray) :
    s.raytrace c cache = match cache.orElse fun _ => s.calcInput s.gridInput true true with
      | none => (none, none)
      | some r => (s.trace (setIntensity c.intensity r), some (setIntensity c.intensity r)) := by
  unfold System.raytrace
  rw [if_pos ((isDefault_iff c).2 hc)]
  cases cache.orElse fun _ => s.calcInput s.gridInput true true <;> rfl

/-- What the cache can hold: the default input with some intensity. -/
theorem after_cases (s : System) (history : List Call) (cache : Option Ray)
    (hcache : cache = none ∨ ∃ r i, s.calcInput s.gridInput true true = some r ∧
      cache = some (setIntensity i r)) :
    history.foldl (fun cache c => (s.raytrace c cache).2) cache = none ∨
      ∃ r i, s.calcInput s.gridInput true true = some r ∧
        history.foldl (fun cache c => (s.raytrace c cache).2) cache = some (setIntensity i r) := by
  induction history generalizing cache with
  | nil => exact hcache
  | cons c cs ih =>
    apply ih
    beta_reduce
    by_cases hc : c.IsDefault
    · rw [raytrace_default s c hc]
      rcases hcache with rfl | ⟨r, i, hr, rfl⟩
      · cases hin : s.calcInput s.gridInput true true with
        | none => left; rfl
        | some r => right; exact ⟨r, c.intensity, rfl, rfl⟩
      · right
        refine ⟨r, c.intensity.orElse fun _ => i, hr, ?_⟩
        simp only [Option.orElse_some]
        cases hci : c.intensity <;> cases i <;> simp [setIntensity]
    · rw [(C23_explicit_grid s c hc cache).2.1]; exact hcache

/-- **C23**: a call that passes an intensity does not depend on any earlier call. -/
theorem C23_with_intensity (s : System) (c : Call) (hi : c.intensity ≠ none)
    (history : List Call) :
    (s.raytrace c (s.after history)).1 = (s.raytrace c none).1 := by
  by_cases hc : c.IsDefault
  · obtain ⟨i, hi⟩ := Option.ne_none_iff_exists'.1 hi
    rw [raytrace_default s c hc, raytrace_default s c hc]
    rcases after_cases s history none (.inl rfl) with h | ⟨r, j, hr, h⟩
    · rw [System.after, h]
    · rw [System.after, h, hr, hi]
      cases j <;> simp [setIntensity]
  · exact (C23_explicit_grid s c hc _).1

/-- **C23** (partial): no call depends on earlier calls, provided that no earlier call passed an
intensity together with the default grid.  Without this restriction the property is false, see
below. -/
theorem C23_history_partial (s : System) (c : Call) (history : List Call)
    (h : ∀ c' ∈ history, c'.IsDefault → c'.intensity = none) :
    (s.raytrace c (s.after history)).1 = (s.raytrace c none).1 ∧
    s.rayfunction c (s.after history) = s.rayfunction c none := by
  have key : ∀ cache, (cache = none ∨ cache = s.calcInput s.gridInput true true) →
      (history.foldl (fun cache c => (s.raytrace c cache).2) cache = none ∨
      history.foldl (fun cache c => (s.raytrace c cache).2) cache =
        s.calcInput s.gridInput true true) := by
    induction history with
    | nil => intro cache hcache; exact hcache
    | cons c cs ih =>
      intro cache hcache
      apply ih (fun c' hc' => h c' (List.mem_cons_of_mem _ hc'))
      beta_reduce
      by_cases hc : c.IsDefault
      · have hci := h c List.mem_cons_self hc
        rw [raytrace_default s c hc, hci]
        rcases hcache with rfl | rfl <;> cases s.calcInput s.gridInput true true <;>
          simp [setIntensity]
      · rw [(C23_explicit_grid s c hc cache).2.1]; exact hcache
  have h1 : (s.raytrace c (s.after history)).1 = (s.raytrace c none).1 := by
    by_cases hc : c.IsDefault
    · rw [raytrace_default s c hc, raytrace_default s c hc]
      rcases key none (.inl rfl) with h | h <;> rw [System.after, h] <;>
        cases s.calcInput s.gridInput true true <;> simp
    · exact (C23_explicit_grid s c hc _).1
  refine ⟨h1, ?_⟩
  unfold System.rayfunction
  rw [h1]

/-- A system of two planes without apertures. -/
noncomputable def planes (t : Option Rigid) : System :=
  let plane : StopSurface := ⟨⟨flatSag, vacuum, none, none, none⟩, false, false⟩
  ⟨plane, [], plane, ⟨1, ⟨0, 0⟩, ⟨0, 0⟩⟩, true, fun _ => some (⟨⟨-1, -1⟩, ⟨1, 1⟩⟩, ⟨⟨-1, -1⟩, ⟨1, 1⟩⟩), t⟩

theorem plane_propagate (w x y z i : ℝ) (u : Bool) :
    (⟨flatSag, vacuum, none, none, none⟩ : Surface).propagate
      ⟨w, ⟨x, y, z⟩, ⟨0, 0, 1⟩, i, 0, 1, u⟩ = some ⟨w, ⟨x, y, 0⟩, ⟨0, 0, 1⟩, i, 0, 1, u⟩ := by
  have hs : snellsLaw ⟨0, 0, 1⟩ 1 1 false ⟨0, 0, -1⟩ = some ⟨0, 0, 1⟩ := by
    rw [snellsLaw_iff (m := false) (by simp [dot]) (by norm_num) (by norm_num)
      (by simp [dot])]
    refine ⟨⟨by simp [dot], ?_⟩, by simp [SameSide, dot]⟩
    ext <;> simp [tang, dot]
  simp [Surface.propagate, Surface.propagateLocal, Sag.propagate, flatSag, flatIntercept, div?,
    Surface.interact, flatNormal, Surface.effectiveRay, Surface.rulingFactor, vacuum, hs,
    Surface.clip]

theorem planes_input (t : Option Rigid) :
    (planes t).calcInput (planes t).gridInput true true
      = some ⟨1, ⟨0, 0, 0⟩, ⟨0, 0, 1⟩, 1, 0, 1, true⟩ := by
  simp [System.calcInput, planes, denormalizeGrid, Extent.denormalize, directionOf]

theorem planes_all (t : Option Rigid) : (planes t).all =
    some [⟨flatSag, vacuum, none, none, none⟩, ⟨flatSag, vacuum, none, none, none⟩] := by
  simp [System.all, surfacesAll, planes]

theorem planes_transformation (t : Option Rigid) : (planes t).transformation = t := rfl

/-- The default call, with or without intensity. -/
def defaultCall (i : Option ℝ) : Call := ⟨i, none, none, none, true, true⟩

/-- Disagreement with C23: `raytrace()` returns rays of intensity one, but after
`raytrace(intensity=2)` the same call returns rays of intensity two. -/
theorem C23_history_counterexample :
    ((planes none).raytrace (defaultCall none) ((planes none).after [])).1 =
      some [some ⟨1, ⟨0, 0, 0⟩, ⟨0, 0, 1⟩, 1, 0, 1, true⟩,
        some ⟨1, ⟨0, 0, 0⟩, ⟨0, 0, 1⟩, 1, 0, 1, true⟩] ∧
    ((planes none).raytrace (defaultCall none) ((planes none).after [defaultCall (some 2)])).1 =
      some [some ⟨1, ⟨0, 0, 0⟩, ⟨0, 0, 1⟩, 2, 0, 1, true⟩,
        some ⟨1, ⟨0, 0, 0⟩, ⟨0, 0, 1⟩, 2, 0, 1, true⟩] := by
  have hd : ∀ i, (defaultCall i).IsDefault := fun i => ⟨rfl, rfl, rfl⟩
  constructor
  · rw [raytrace_default _ _ (hd _)]
    simp [System.after, planes_input, System.trace, planes_all, accumulateRays, accumulateLoop,
      Propagators.toList, Surface.step, plane_propagate, setIntensity, defaultCall,
      planes_transformation]
  · simp only [System.after, List.foldl]
    rw [raytrace_default _ _ (hd _), raytrace_default _ _ (hd _)]
    simp [planes_input, System.trace, planes_all, accumulateRays, accumulateLoop,
      Propagators.toList, Surface.step, plane_propagate, setIntensity, defaultCall,
      planes_transformation]

/-- Hypotheses of the theorems above: a history with intensity and explicit grid only. -/
example : ∀ c' ∈ [defaultCall none, ⟨some 2, some 1, none, none, true, true⟩],
    c'.IsDefault → c'.intensity = none := by
  simp [defaultCall, Call.IsDefault]

/-! ## C24: coordinate systems -/

theorem System.all_eq (s : System) :
    s.all = some (s.object.surface :: s.surfaces.map (·.surface) ++ [s.sensor.surface]) := by
  unfold System.all surfacesAll
  show Option.map (List.map (·.surface)) (if ([s.object] ++ s.surfaces ++ [s.sensor]).any
    (·.isFieldStop) then some ([s.object] ++ s.surfaces ++ [s.sensor]) else
    match [s.object] ++ s.surfaces ++ [s.sensor] with
    | [] => none
    | s :: l => some ({ s with isFieldStop := true } :: l)) = _
  generalize hl : [s.object] ++ s.surfaces ++ [s.sensor] = l
  cases l with
  | nil => simp at hl
  | cons a l =>
    have hl' : (a :: l).map (·.surface) =
        s.object.surface :: s.surfaces.map (·.surface) ++ [s.sensor.surface] := by
      rw [← hl]; simp
    rw [← hl']
    split <;> rfl

/-- The surfaces of the system at their places in space: object, surfaces and sensor, each moved
by the transformation of the whole system. -/
def System.placed (s : System) : List Surface :=
  (s.object.surface :: s.surfaces.map (·.surface) ++ [s.sensor.surface]).map
    (Surface.moved (s.transformation.getD Rigid.id))

theorem Ray.unmove_elim (t : Option Rigid) (r : Ray) :
    (t.elim r fun t => r.unmove t) = r.unmove (t.getD Rigid.id) := by
  cases t <;> simp [Ray.unmove_id]

theorem trace_spec (s : System) (r : Ray) :
    ∃ rays, s.trace r = some rays ∧ rays.length = s.placed.length ∧
      (∀ k, k < s.placed.length → rays[k]? = some ((propagateSurfaces (s.placed.take (k + 1)) r).map
        (Ray.unmove (s.transformation.getD Rigid.id)))) ∧
      rays.getLast? = some ((propagateSurfaces s.placed r).map
        (Ray.unmove (s.transformation.getD Rigid.id))) := by
  have hun : ∀ l : List Surface,
      propagateSurfaces l (r.unmove (s.transformation.getD Rigid.id)) =
      (propagateSurfaces (l.map (Surface.moved (s.transformation.getD Rigid.id))) r).map
        (Ray.unmove (s.transformation.getD Rigid.id)) := by
    intro l
    have := C16_rigid (s.transformation.getD Rigid.id) l (r.unmove (s.transformation.getD Rigid.id))
    rw [Ray.move_unmove] at this
    rw [this, Option.map_map]
    have e : Ray.unmove (s.transformation.getD Rigid.id) ∘ Ray.move (s.transformation.getD Rigid.id)
        = id := funext fun r => Ray.unmove_move _ r
    rw [e]; simp
  obtain ⟨rays, h1, h2, h3, h4⟩ := (C13_accumulate Surface.step
    (s.object.surface :: s.surfaces.map (·.surface) ++ [s.sensor.surface])
    (some (r.unmove (s.transformation.getD Rigid.id)))).2 (by simp)
  refine ⟨rays, ?_, ?_, ?_, ?_⟩
  · unfold System.trace
    rw [System.all_eq, Ray.unmove_elim]
    exact h1
  · rw [h2]; simp [System.placed]
  · intro k hk
    rw [h3 k (by simpa [System.placed] using hk)]
    unfold System.placed
    rw [← List.map_take, ← hun]
    rfl
  · rw [h4]
    unfold System.placed
    rw [← hun]
    rfl

/-- **C24** (partial): `raytrace` returns one ray for every surface, namely the ray traced through
the surfaces at their places in space, but expressed in the coordinate system of the system
(`Ray.unmove`).  If the system is not transformed these are the global coordinates; otherwise the
property is false, see below. -/
theorem C24_raytrace_partial (s : System) (r : Ray) :
    ∃ rays, s.trace r = some rays ∧ rays.length = s.surfaces.length + 2 ∧
      (∀ k, k < rays.length → rays[k]? = some ((propagateSurfaces (s.placed.take (k + 1)) r).map
        (Ray.unmove (s.transformation.getD Rigid.id)))) ∧
      (s.transformation = none → ∀ k, k < rays.length →
        rays[k]? = some (propagateSurfaces (s.placed.take (k + 1)) r)) := by
  obtain ⟨rays, h1, h2, h3, -⟩ := trace_spec s r
  refine ⟨rays, h1, by rw [h2]; simp [System.placed], fun k hk => h3 k (h2 ▸ hk), ?_⟩
  intro ht k hk
  rw [h3 k (h2 ▸ hk), ht]
  simp only [Option.getD_none]
  have : Ray.unmove Rigid.id = id := funext Ray.unmove_id
  rw [this]; simp

/-- Disagreement with C24: for a system shifted by one along `z` the returned rays have `z = 0` on
both surfaces, although both surfaces are in the plane `z = 1`. -/
theorem C24_global_counterexample :
    let s := planes (some (.translation ⟨0, 0, 1⟩))
    let r : Ray := ⟨1, ⟨0, 0, 0⟩, ⟨0, 0, 1⟩, 1, 0, 1, true⟩
    s.calcInput s.gridInput true true = some r ∧
    s.trace r = some [some ⟨1, ⟨0, 0, 0⟩, ⟨0, 0, 1⟩, 1, 0, 1, true⟩,
        some ⟨1, ⟨0, 0, 0⟩, ⟨0, 0, 1⟩, 1, 0, 1, true⟩] ∧
    propagateSurfaces s.placed r = some ⟨1, ⟨0, 0, 1⟩, ⟨0, 0, 1⟩, 1, 0, 1, true⟩ := by
  intro s r
  have ht : r.unmove (.translation ⟨0, 0, 1⟩) = ⟨1, ⟨0, 0, -1⟩, ⟨0, 0, 1⟩, 1, 0, 1, true⟩ := by
    simp only [r, Ray.unmove, Ray.mk.injEq, and_true, true_and]
    constructor <;> apply V3.ext <;>
      simp [Rigid.ipoint, Rigid.ivec, Rigid.translation, Rigid.id, M3.one, M3.mulVec, M3.transpose,
        dot]
  refine ⟨planes_input _, ?_, ?_⟩
  · unfold System.trace
    rw [planes_all]
    simp [s, planes, accumulateRays, accumulateLoop, Propagators.toList, Surface.step, ht,
      plane_propagate]
  · have := C16_rigid (.translation ⟨0, 0, 1⟩) [⟨flatSag, vacuum, none, none, none⟩,
      ⟨flatSag, vacuum, none, none, none⟩] (r.unmove (.translation ⟨0, 0, 1⟩))
    rw [Ray.move_unmove] at this
    simp only [s, planes, System.placed, List.map_nil, List.append_eq, List.nil_append,
      List.cons_append, Option.getD_some]
    rw [this, ht]
    simp only [propagateSurfaces_cons, propagateSurfaces_nil, plane_propagate, Option.bind_some,
      Option.map_some, Option.some.injEq, Ray.move, Ray.mk.injEq, and_true, true_and]
    constructor <;> apply V3.ext <;>
      simp [Rigid.point, Rigid.vec, Rigid.translation, Rigid.id, M3.one, M3.mulVec, dot]

/-- The ray that a call sends into the system. -/
noncomputable def System.callInput (s : System) (c : Call) (cache : Option Ray) : Option Ray :=
  (if c.wavelength.isNone && c.field.isNone && c.pupil.isNone then
    cache.orElse fun _ => s.calcInput s.gridInput true true
  else s.calcInput ⟨c.wavelength.getD s.gridInput.wavelength, c.field.getD s.gridInput.field,
      c.pupil.getD s.gridInput.pupil⟩ c.normalizedField c.normalizedPupil).map
    (setIntensity c.intensity)

theorem raytrace_eq (s : System) (c : Call) (cache : Option Ray) :
    (s.raytrace c cache).1 = (s.callInput c cache).bind s.trace := by
  unfold System.raytrace System.callInput
  split
  · cases cache.orElse fun _ => s.calcInput s.gridInput true true <;> rfl
  · simp only
    cases s.calcInput ⟨c.wavelength.getD s.gridInput.wavelength, c.field.getD s.gridInput.field,
      c.pupil.getD s.gridInput.pupil⟩ c.normalizedField c.normalizedPupil <;> rfl

/-- **C24**: `rayfunction` returns the ray traced through the surfaces at their places in space,
expressed in the coordinate system of the sensor at its place in space (the transformation of the
system followed by the one of the sensor), also if the system is transformed. -/
theorem C24_rayfunction (s : System) (c : Call) (cache : Option Ray) (out : Ray) :
    s.rayfunction c cache = some out ↔
      ∃ r global, s.callInput c cache = some r ∧ propagateSurfaces s.placed r = some global ∧
        out = global.unmove ((s.transformation.getD Rigid.id).comp s.sensor.surface.frame) := by
  unfold System.rayfunction
  rw [raytrace_eq]
  cases hin : s.callInput c cache with
  | none => simp
  | some r =>
    obtain ⟨rays, h1, -, -, h4⟩ := trace_spec s r
    simp only [Option.bind_some, h1, Option.bind_eq_bind, h4, Option.pure_def, Option.some.injEq]
    cases hg : propagateSurfaces s.placed r with
    | none => simp [hg]
    | some g =>
      simp only [Option.map_some, Option.bind_some, Option.some.injEq]
      rw [Ray.unmove_elim, ← Ray.unmove_comp]
      constructor
      · intro h; exact ⟨r, g, rfl, hg, h.symm⟩
      · rintro ⟨r', g', rfl, hg', rfl⟩
        rw [hg] at hg'
        simp only [Option.some.injEq] at hg'
        rw [hg']; rfl

/-- **C24**: on a flat sensor the returned position is in the plane of the sensor, and an
unvignetted ray is inside its aperture (here: of a sensor measured in units of length). -/
theorem C24_on_sensor (s : System) (c : Call) (cache : Option Ray) (out : Ray)
    (h : s.rayfunction c cache = some out) (hs : s.sensor.surface.sag = flatSag) :
    out.position.z = 0 ∧ (out.unvignetted = true → ∀ a, s.sensor.surface.aperture = some a →
      a.unit = .length → a.mask out.position = true) := by
  obtain ⟨r, g, -, hg, rfl⟩ := (C24_rayfunction s c cache out).1 h
  have hsplit : s.placed = (s.object.surface :: s.surfaces.map (·.surface)).map
      (Surface.moved (s.transformation.getD Rigid.id)) ++
      [s.sensor.surface.moved (s.transformation.getD Rigid.id)] := by
    simp [System.placed]
  rw [hsplit, propagateSurfaces_append, Option.bind_eq_some_iff] at hg
  obtain ⟨m, -, hg⟩ := hg
  rw [propagateSurfaces_cons, Option.bind_eq_some_iff] at hg
  obtain ⟨g', hg, h'⟩ := hg
  simp only [propagateSurfaces_nil, Option.some.injEq] at h'
  subst h'
  have hu := C14_one_surface hg
  rw [Surface.propagate_eq] at hg
  simp only [Option.map_eq_some_iff] at hg
  obtain ⟨o, ho, rfl⟩ := hg
  have hframe : (s.sensor.surface.moved (s.transformation.getD Rigid.id)).frame =
      (s.transformation.getD Rigid.id).comp s.sensor.surface.frame := by
    simp [Surface.moved, Surface.frame]
  rw [← hframe, Ray.unmove_move]
  constructor
  · obtain ⟨q, normal, r1, n2, b, e1, e2, att, hq, -, -, -, -, -, -, -, -, -, -, -, -, -, -, -,
      -, op, -⟩ := propagateLocal_eq_some ho
    rw [op]
    rw [show (s.sensor.surface.moved (s.transformation.getD Rigid.id)).sag = flatSag from hs] at hq
    simp only [flatSag, flatIntercept, Option.bind_eq_bind, Option.bind_eq_some_iff, div?_eq_some,
      Option.pure_def, Option.some.injEq] at hq
    obtain ⟨d, ⟨hz, rfl⟩, rfl⟩ := hq
    simp only [add_z, smul_z]
    field_simp
    ring
  · intro hv a ha hunit
    have hv' : (o.move (s.sensor.surface.moved (s.transformation.getD Rigid.id)).frame).unvignetted
        = true := hv
    rcases (hu.1 hv').2 a ha with ⟨-, h⟩ | ⟨h, -⟩
    · simpa [Ray.move] using h
    · rw [hunit] at h; exact absurd h (by simp)

/-- The hypotheses of the theorems on `rayfunction` are met by the two planes. -/
example : (planes (some (.translation ⟨0, 0, 1⟩))).rayfunction (defaultCall none) none
    = some ⟨1, ⟨0, 0, 0⟩, ⟨0, 0, 1⟩, 1, 0, 1, true⟩ := by
  rw [C24_rayfunction]
  refine ⟨_, _, ?_, C24_global_counterexample.2.2, ?_⟩
  · show ((planes (some (.translation ⟨0, 0, 1⟩))).calcInput
      (planes (some (.translation ⟨0, 0, 1⟩))).gridInput true true).map (setIntensity none) = _
    rw [planes_input]
    rfl
  · simp only [planes, Option.getD_some, Surface.frame, Option.getD_none]
    rw [Ray.unmove_comp, Ray.unmove_id]
    simp only [Ray.unmove, Ray.mk.injEq, and_true, true_and]
    constructor <;> apply V3.ext <;>
      simp [Rigid.ipoint, Rigid.ivec, Rigid.translation, Rigid.id, M3.one, M3.mulVec, M3.transpose,
        dot]

/-! ## C25: normalized coordinates -/

/-- **C25**: `-1` is the minimum and `+1` the maximum of the extent, and the map is affine. -/
theorem C25_endpoints (e : Extent) :
    e.denormalize ⟨-1, -1⟩ = e.lo ∧ e.denormalize ⟨1, 1⟩ = e.hi ∧
    ∀ (u v : V2) (t : ℝ), e.denormalize ⟨(1 - t) * u.x + t * v.x, (1 - t) * u.y + t * v.y⟩ =
      ⟨(1 - t) * (e.denormalize u).x + t * (e.denormalize v).x,
       (1 - t) * (e.denormalize u).y + t * (e.denormalize v).y⟩ := by
  refine ⟨?_, ?_, ?_⟩
  · apply V2.ext <;> simp [Extent.denormalize]
  · apply V2.ext <;> simp [Extent.denormalize] <;> ring
  · intro u v t
    apply V2.ext <;> simp [Extent.denormalize] <;> ring

/-- **C25**: each coordinate is monotone, the interval `[-1, 1]` is mapped into the extent, and
onto it. -/
theorem C25_monotone (e : Extent) (hx : e.lo.x ≤ e.hi.x) (hy : e.lo.y ≤ e.hi.y) (u v : V2)
    (h : u.x ≤ v.x ∧ u.y ≤ v.y) :
    (e.denormalize u).x ≤ (e.denormalize v).x ∧ (e.denormalize u).y ≤ (e.denormalize v).y := by
  simp only [Extent.denormalize]
  constructor <;> nlinarith [h.1, h.2]

/-- **C25**: normalized coordinates in `[-1, 1]` are the coordinates inside the extent. -/
theorem C25_inside (e : Extent) (hx : e.lo.x < e.hi.x) (hy : e.lo.y < e.hi.y) (w : V2) :
    (∃ v : V2, (-1 ≤ v.x ∧ v.x ≤ 1 ∧ -1 ≤ v.y ∧ v.y ≤ 1) ∧ e.denormalize v = w) ↔
      e.lo.x ≤ w.x ∧ w.x ≤ e.hi.x ∧ e.lo.y ≤ w.y ∧ w.y ≤ e.hi.y := by
  constructor
  · rintro ⟨v, ⟨h1, h2, h3, h4⟩, rfl⟩
    simp only [Extent.denormalize]
    refine ⟨?_, ?_, ?_, ?_⟩ <;> nlinarith
  · rintro ⟨h1, h2, h3, h4⟩
    have hx' : 0 < e.hi.x - e.lo.x := by linarith
    have hy' : 0 < e.hi.y - e.lo.y := by linarith
    refine ⟨⟨2 * (w.x - e.lo.x) / (e.hi.x - e.lo.x) - 1, 2 * (w.y - e.lo.y) / (e.hi.y - e.lo.y) - 1⟩,
      ⟨?_, ?_, ?_, ?_⟩, ?_⟩
    · have : 0 ≤ 2 * (w.x - e.lo.x) / (e.hi.x - e.lo.x) := by
        apply div_nonneg <;> linarith
      simp only; linarith
    · have : 2 * (w.x - e.lo.x) / (e.hi.x - e.lo.x) ≤ 2 := by
        rw [div_le_iff₀ hx']; linarith
      simp only; linarith
    · have : 0 ≤ 2 * (w.y - e.lo.y) / (e.hi.y - e.lo.y) := by
        apply div_nonneg <;> linarith
      simp only; linarith
    · have : 2 * (w.y - e.lo.y) / (e.hi.y - e.lo.y) ≤ 2 := by
        rw [div_le_iff₀ hy']; linarith
      simp only; linarith
    · apply V2.ext <;> simp only [Extent.denormalize] <;> field_simp <;> ring

/-- **C25**: a grid in physical units is not changed, and needs no stops; otherwise the field and
the pupil are denormalized according to their own flags, with the extents at the wavelength of the
grid, and the wavelength is never changed. -/
theorem C25_grid (extents : ℝ → Option (Extent × Extent)) (g : Grid) (nf np : Bool) :
    denormalizeGrid extents g false false = some g ∧
    ∀ g', denormalizeGrid extents g nf np = some g' →
      g'.wavelength = g.wavelength ∧
      (nf = false → g'.field = g.field) ∧ (np = false → g'.pupil = g.pupil) ∧
      (nf = true → ∃ e, extents g.wavelength = some e ∧ g'.field = e.1.denormalize g.field) ∧
      (np = true → ∃ e, extents g.wavelength = some e ∧ g'.pupil = e.2.denormalize g.pupil) := by
  refine ⟨rfl, ?_⟩
  intro g' h
  unfold denormalizeGrid at h
  cases he : extents g.wavelength with
  | none => cases nf <;> cases np <;> simp [he] at h; subst h; simp
  | some e => cases nf <;> cases np <;> simp [he] at h <;> subst h <;> simp

/-- **C25**: the rays sent into the system start in the plane of the object, at the pupil
coordinates if the object is at infinity and at the field coordinates otherwise; the direction has
the other pair of coordinates as its angles. -/
theorem C25_input (s : System) (g : Grid) (nf np : Bool) (r : Ray)
    (h : s.calcInput g nf np = some r) :
    ∃ g', denormalizeGrid s.extents g nf np = some g' ∧
      (s.objectAtInfinity = true →
        s.object.surface.frame.ipoint r.position = ⟨g'.pupil.x, g'.pupil.y, 0⟩ ∧
        s.object.surface.frame.ivec r.direction = directionOf g'.field) ∧
      (s.objectAtInfinity = false →
        s.object.surface.frame.ipoint r.position = ⟨g'.field.x, g'.field.y, 0⟩ ∧
        s.object.surface.frame.ivec r.direction = directionOf g'.pupil) ∧
      r.wavelength = g.wavelength ∧ r.intensity = 1 ∧ r.attenuation = 0 ∧ r.index = 1 ∧
      r.unvignetted = true := by
  unfold System.calcInput at h
  simp only [Option.map_eq_some_iff] at h
  obtain ⟨g', hg, h⟩ := h
  refine ⟨g', hg, ?_⟩
  have hw := ((C25_grid s.extents g nf np).2 g' hg).1
  cases ht : s.object.surface.transformation with
  | none =>
    rw [ht] at h
    simp only [Option.elim_none] at h
    subst h
    cases hi : s.objectAtInfinity <;>
      simp [Surface.frame, ht, Rigid.id_ipoint, Rigid.id_ivec, hw]
  | some t =>
    rw [ht] at h
    simp only [Option.elim_some] at h
    subst h
    cases hi : s.objectAtInfinity <;> simp [Surface.frame, ht, Ray.move, hw]

example : (⟨⟨-2, 0⟩, ⟨4, 1⟩⟩ : Extent).denormalize ⟨0, 1⟩ = ⟨1, 1⟩ := by
  apply V2.ext <;> norm_num [Extent.denormalize]

end Optika
