import Verif.Model.Drawing
import Verif.Props.System

/-!
# C72: drawings show the system as it is placed
-/

namespace Optika
open V3

theorem composeTransformation_point (outer inner : Option Rigid) (v : V3) :
    ((composeTransformation outer inner).elim v fun g => g.point v)
      = (outer.getD Rigid.id).point ((inner.getD Rigid.id).point v) := by
  cases outer <;> cases inner <;> simp [composeTransformation, Rigid.id_point, Rigid.comp_point]

theorem composeTransformation_getD (outer inner : Option Rigid) (v : V3) :
    ((composeTransformation outer inner).getD Rigid.id).point v
      = (outer.getD Rigid.id).point ((inner.getD Rigid.id).point v) := by
  cases outer <;> cases inner <;> simp [composeTransformation, Rigid.id_point, Rigid.comp_point]

/-- The outlines that are lengths, raised to the surface and placed by a motion. -/
def raised (height : V3 → Option ℝ) (place : V3 → V3) (outlines : List Outline) : List Polyline :=
  (outlines.filter fun o => o.unit matches .length).map fun o =>
    o.wire.map fun p => (height p).map fun z => place ⟨p.x, p.y, z⟩

theorem drawSurface_eq (s : Surface) (outlines : List Outline) (g : Option Rigid) :
    drawSurface s outlines g = raised s.sag.height
      (fun v => (g.getD Rigid.id).point (s.frame.point v)) outlines := by
  unfold drawSurface raised
  induction outlines with
  | nil => rfl
  | cons o os ih =>
    rw [List.filterMap_cons]
    cases hu : o.unit with
    | length =>
      simp only [Outline.draw, hu]
      rw [List.filter_cons_of_pos (by simp [hu]), List.map_cons, ← ih]
      congr 1
      apply List.map_congr_left
      intro p _
      congr 1
      funext z
      exact composeTransformation_point _ _ _
    | dimensionless =>
      simp only [Outline.draw, hu]
      rw [List.filter_cons_of_neg (by simp [hu]), ← ih]
      rfl
    | other =>
      simp only [Outline.draw, hu]
      rw [List.filter_cons_of_neg (by simp [hu]), ← ih]
      rfl

/-- **C72**: the outline of each surface is drawn at the place of the surface in space: the wire of the
aperture, raised to the sag, in the frame of the placed surface, and then moved by the additional
transformation. -/
theorem C72_outlines {s : System} {outlines : ℕ → List Outline} {g : Option Rigid} {vignetted : Bool}
    {cache : Option Ray} {surfaces : List (List Polyline)} {rays : List Polyline}
    (h : s.draw outlines g vignetted cache = some (surfaces, rays)) :
    surfaces.length = s.placed.length ∧
      ∀ i (hi : i < s.placed.length), surfaces[i]? = some (raised s.placed[i].sag.height
        (fun v => (g.getD Rigid.id).point (s.placed[i].frame.point v)) (outlines i)) := by
  unfold System.draw at h
  simp only [System.all_eq, Option.bind_eq_bind, Option.bind_some, Option.bind_eq_some_iff,
    Option.pure_def, Option.some.injEq, Prod.mk.injEq] at h
  obtain ⟨rs, -, rfl, -⟩ := h
  set all := s.object.surface :: s.surfaces.map (·.surface) ++ [s.sensor.surface] with hall
  have hp : s.placed = all.map (Surface.moved (s.transformation.getD Rigid.id)) := rfl
  refine ⟨by simp [hp], fun i hi => ?_⟩
  have hi' : i < all.length := by simpa [hp] using hi
  have e1 : s.placed[i] = (all[i]).moved (s.transformation.getD Rigid.id) := by
    simp [hp]
  rw [List.getElem?_map, List.getElem?_zipIdx, List.getElem?_eq_getElem hi']
  simp only [Option.map_some, Option.some.injEq, zero_add]
  rw [drawSurface_eq, e1]
  congr 1
  funext v
  rw [composeTransformation_getD]
  show _ = (g.getD Rigid.id).point (((s.transformation.getD Rigid.id).comp all[i].frame).point v)
  rw [Rigid.comp_point]

/-- **C72**: of the rays of the default trace, exactly those are drawn that pass all apertures (or all
that reach the last surface, if vignetted rays are requested), and vertex `k` is the point where the ray
strikes surface `k` at its place in space, moved by the additional transformation. -/
theorem C72_rays {s : System} {outlines : ℕ → List Outline} {g : Option Rigid} {vignetted : Bool}
    {cache : Option Ray} {surfaces : List (List Polyline)} {rays : List Polyline}
    (h : s.draw outlines g vignetted cache = some (surfaces, rays)) :
    ∃ r, s.callInput ⟨none, none, none, none, true, true⟩ cache = some r ∧
      ((rays = [] ∧ ∀ out, propagateSurfaces s.placed r = some out →
          vignetted = false ∧ out.unvignetted = false) ∨
        ∃ out, propagateSurfaces s.placed r = some out ∧ (vignetted = true ∨ out.unvignetted = true) ∧
          ∃ path, rays = [path] ∧ path.length = s.placed.length ∧ ∀ k, k < s.placed.length →
            path[k]? = some ((propagateSurfaces (s.placed.take (k + 1)) r).map fun q =>
              (g.getD Rigid.id).point q.position)) := by
  unfold System.draw at h
  simp only [System.all_eq, Option.bind_eq_bind, Option.bind_some, Option.bind_eq_some_iff,
    Option.pure_def, Option.some.injEq, Prod.mk.injEq] at h
  obtain ⟨rs, hrs, -, rfl⟩ := h
  rw [raytrace_eq, Option.bind_eq_some_iff] at hrs
  obtain ⟨r, hr, htr⟩ := hrs
  refine ⟨r, hr, ?_⟩
  obtain ⟨rs', h1, h2, h3, h4⟩ := trace_spec s r
  obtain rfl : rs = rs' := by
    have := htr.symm.trans h1
    simpa using this
  unfold drawRay
  rw [h4]
  cases hout : propagateSurfaces s.placed r with
  | none => exact Or.inl ⟨rfl, by simp⟩
  | some out =>
    simp only [Option.map_some]
    have hun : (out.unmove (s.transformation.getD Rigid.id)).unvignetted = out.unvignetted := rfl
    rw [hun]
    by_cases hb : (vignetted || out.unvignetted) = true
    · rw [if_pos hb]
      refine Or.inr ⟨out, rfl, by simpa using hb, _, rfl, by simp [h2], ?_⟩
      intro k hk
      rw [List.getElem?_map, h3 k hk]
      simp only [Option.map_some, Option.map_map, Option.some.injEq]
      congr 1
      funext q
      simp only [Function.comp]
      rw [composeTransformation_point]
      simp [Ray.unmove]
    · rw [if_neg hb]
      refine Or.inl ⟨rfl, ?_⟩
      intro out' ho
      simp only [Option.some.injEq] at ho
      subst ho
      simpa using hb

/-- The vertex of a drawn ray at surface `k`, in the frame of the surface, is on the sag of the surface,
if the intercepts of the sag are. -/
theorem C72_touch {s : System} {r q : Ray} {k : ℕ} (hk : k < s.placed.length)
    (hsag : ∀ o u p, (s.placed[k].sag).intercept o u = some p → OnGraph s.placed[k].sag.height p)
    (hq : propagateSurfaces (s.placed.take (k + 1)) r = some q) :
    OnGraph s.placed[k].sag.height (s.placed[k].frame.ipoint q.position) := by
  rw [List.take_succ_eq_append_getElem hk, propagateSurfaces_append, Option.bind_eq_some_iff] at hq
  obtain ⟨m, -, hq⟩ := hq
  rw [propagateSurfaces_cons, Option.bind_eq_some_iff] at hq
  obtain ⟨q', hq', h⟩ := hq
  rw [propagateSurfaces_nil, Option.some.injEq] at h
  subst h
  rw [Surface.propagate_eq, Option.map_eq_some_iff] at hq'
  obtain ⟨o, ho, rfl⟩ := hq'
  obtain ⟨p, -, -, -, -, -, -, -, h1, -, -, -, -, -, -, -, -, -, -, -, -, -, -, -, -, h2, -⟩ :=
    propagateLocal_eq_some ho
  have : s.placed[k].frame.ipoint (Ray.move s.placed[k].frame o).position = o.position := by
    simp [Ray.move]
  rw [this, h2]
  exact hsag _ _ _ h1

/-- Non-vacuity of `C72_outlines`, `C72_rays` and `C72_touch`: two planes, both shifted by one along `z`;
outline and ray are drawn in that plane. -/
example : (planes (some (.translation ⟨0, 0, 1⟩))).draw (fun _ => [⟨.length, [⟨2, 3, 0⟩]⟩]) none false none
    = some ([[[some ⟨2, 3, 1⟩]], [[some ⟨2, 3, 1⟩]]], [[some ⟨0, 0, 1⟩, some ⟨0, 0, 1⟩]]) := by
  obtain ⟨h1, h2, -⟩ := C24_global_counterexample
  have hp : ∀ x y : ℝ, (Rigid.translation ⟨0, 0, 1⟩).point ⟨x, y, 0⟩ = ⟨x, y, 1⟩ := by
    intro x y
    apply V3.ext <;> simp [Rigid.point, Rigid.translation, Rigid.id, M3.one, M3.mulVec, dot]
  unfold System.draw
  rw [raytrace_default _ _ ⟨rfl, rfl, rfl⟩, planes_all]
  simp only [Option.orElse_none, h1, setIntensity, Option.elim_none, h2, Option.bind_eq_bind,
    Option.bind_some, Option.pure_def, Option.some.injEq, Prod.mk.injEq]
  constructor
  · simp [drawSurface, Outline.draw, planes, composeTransformation, flatSag, flatHeight, hp,
      List.zipIdx]
  · simp [drawRay, planes, composeTransformation, hp]

/-- **C72**, keyword arguments that are given neither for the system nor for the surface: the explicit
ones prevail over those of the aperture. -/
theorem C72_style_partial {system surface aperture kwargs : Keywords} {k : String}
    (h1 : system k = none) (h2 : surface k = none) :
    drawnKeywords system surface aperture kwargs k = (kwargs k).orElse fun _ => aperture k := by
  simp [drawnKeywords, apertureKeywords, Keywords.union, h1, h2]

/-- Disagreement with C72: `kwargs_plot` of a system is documented as what is used by default, but it
prevails over the arguments of the call. -/
theorem C72_style_counterexample :
    ∃ system kwargs : Keywords, kwargs "color" = some "black" ∧
      drawnKeywords system (fun _ => none) (fun _ => none) kwargs "color" = some "red" :=
  ⟨fun k => if k = "color" then some "red" else none,
    fun k => if k = "color" then some "black" else none, by simp,
    by simp [drawnKeywords, apertureKeywords, Keywords.union]⟩

end Optika
