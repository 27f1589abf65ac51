import Verif.Props.Averages

/-!
# C67: arguments that are not given

`wavelength`, `field` and `pupil` of `raytrace` default to those of `grid_input`.
-/

namespace Optika
open V3

/-- The call with everything spelled out. -/
def Call.filled (c : Call) (g : Grid) : Call :=
  { c with
    wavelength := some (c.wavelength.getD g.wavelength)
    field := some (c.field.getD g.field)
    pupil := some (c.pupil.getD g.pupil) }

/-- **C67** (partial): a call in which some of wavelength, field and pupil are not given is the call
with those of the grid of the system. If none of them is given, this holds for normalized coordinates
only, see below. -/
theorem C67_defaults_partial (s : System) (c : Call)
    (h : c.IsDefault → c.normalizedField = true ∧ c.normalizedPupil = true) :
    (s.raytrace c none).1 = (s.raytrace (c.filled s.gridInput) none).1 ∧
    s.rayfunction c none = s.rayfunction (c.filled s.gridInput) none := by
  have h1 : (s.raytrace c none).1 = (s.raytrace (c.filled s.gridInput) none).1 := by
    rw [raytrace_eq, raytrace_eq]
    congr 1
    unfold System.callInput
    have hf : ¬((c.filled s.gridInput).wavelength.isNone && (c.filled s.gridInput).field.isNone &&
        (c.filled s.gridInput).pupil.isNone) = true := by simp [Call.filled]
    rw [if_neg hf]
    split
    · next hc =>
      have hd := (isDefault_iff c).1 hc
      obtain ⟨hn, hp⟩ := h hd
      obtain ⟨h1, h2, h3⟩ := hd
      simp [Call.filled, h1, h2, h3, hn, hp]
    · simp [Call.filled]
  refine ⟨h1, ?_⟩
  unfold System.rayfunction
  rw [h1]

/-- What is given is used as it is: the ray starts at these coordinates and has this wavelength. -/
theorem C67_given (s : System) (i : Option ℝ) (w : ℝ) (f p : V2) (cache : Option Ray) (r : Ray)
    (h : s.callInput ⟨i, some w, some f, some p, false, false⟩ cache = some r) :
    r.wavelength = w ∧ r.intensity = i.getD 1 ∧
    (s.objectAtInfinity = true →
      s.object.surface.frame.ipoint r.position = ⟨p.x, p.y, 0⟩ ∧
      s.object.surface.frame.ivec r.direction = directionOf f) ∧
    (s.objectAtInfinity = false →
      s.object.surface.frame.ipoint r.position = ⟨f.x, f.y, 0⟩ ∧
      s.object.surface.frame.ivec r.direction = directionOf p) := by
  unfold System.callInput at h
  rw [if_neg (by simp)] at h
  obtain ⟨r0, hr0, rfl⟩ := Option.map_eq_some_iff.1 h
  obtain ⟨g', hg', h1, h2, h3, h4, -⟩ := C25_input s _ _ _ r0 hr0
  have hg : g' = ⟨w, f, p⟩ := by
    have : some (⟨w, f, p⟩ : Grid) = some g' := hg'
    exact (Option.some.inj this).symm
  subst hg
  cases i with
  | none => exact ⟨h3, h4, h1, h2⟩
  | some i => exact ⟨h3, rfl, h1, h2⟩

/-- **C26**: the rays of the effective area start at the points of the grid, in physical units: the
ray that arrives is the one which starts at the given pupil coordinates (for an object at infinity) in
the direction of the given field coordinates, with the area of the cell as its intensity. -/
theorem C26_cell_rays (s : System) (g : Grid) (volume : ℝ) (cache : Option Ray) (out : Ray) :
    s.rayfunction (cellCall g volume) cache = some out →
      ∃ r global, propagateSurfaces s.placed r = some global ∧
        out = global.unmove ((s.transformation.getD Rigid.id).comp s.sensor.surface.frame) ∧
        r.wavelength = g.wavelength ∧ r.intensity = |volume| ∧
        (s.objectAtInfinity = true →
          s.object.surface.frame.ipoint r.position = ⟨g.pupil.x, g.pupil.y, 0⟩ ∧
          s.object.surface.frame.ivec r.direction = directionOf g.field) ∧
        (s.objectAtInfinity = false →
          s.object.surface.frame.ipoint r.position = ⟨g.field.x, g.field.y, 0⟩ ∧
          s.object.surface.frame.ivec r.direction = directionOf g.pupil) := by
  intro h
  obtain ⟨r, gl, hr, hg, ho⟩ := (C24_rayfunction s _ cache out).1 h
  exact ⟨r, gl, hg, ho, C67_given s _ _ _ _ cache r hr⟩

/-- Two planes, with a pupil that extends from `-2` to `2` and a grid with one point at pupil
coordinate `1`. -/
noncomputable def widePlanes : System :=
  { planes none with
    gridInput := ⟨1, ⟨0, 0⟩, ⟨1, 0⟩⟩
    extents := fun _ => some (⟨⟨-1, -1⟩, ⟨1, 1⟩⟩, ⟨⟨-2, -2⟩, ⟨2, 2⟩⟩) }

/-- **C67, what does not hold.** The flags for physical units are ignored if neither wavelength nor
field nor pupil are given: the pupil coordinate `1` of the grid is then taken as the border of the
pupil, at `2`; if the same wavelength is given, it is taken as `1`. -/
theorem C67_flags_counterexample :
    widePlanes.rayfunction ⟨none, none, none, none, false, false⟩ none
      = some ⟨1, ⟨2, 0, 0⟩, ⟨0, 0, 1⟩, 1, 0, 1, true⟩ ∧
    widePlanes.rayfunction ⟨none, some widePlanes.gridInput.wavelength, none, none, false, false⟩ none
      = some ⟨1, ⟨1, 0, 0⟩, ⟨0, 0, 1⟩, 1, 0, 1, true⟩ := by
  have hall : widePlanes.all =
      some [⟨flatSag, vacuum, none, none, none⟩, ⟨flatSag, vacuum, none, none, none⟩] := by
    simp [System.all, surfacesAll, planes, widePlanes]
  have h1 : widePlanes.calcInput widePlanes.gridInput true true
      = some ⟨1, ⟨2, 0, 0⟩, ⟨0, 0, 1⟩, 1, 0, 1, true⟩ := by
    simp [System.calcInput, widePlanes, planes, denormalizeGrid, Extent.denormalize, directionOf]
    norm_num
  have h2 : widePlanes.calcInput widePlanes.gridInput false false
      = some ⟨1, ⟨1, 0, 0⟩, ⟨0, 0, 1⟩, 1, 0, 1, true⟩ := by
    simp [System.calcInput, widePlanes, planes, denormalizeGrid, directionOf]
  have htrace : ∀ x, widePlanes.trace ⟨1, ⟨x, 0, 0⟩, ⟨0, 0, 1⟩, 1, 0, 1, true⟩
      = some [some ⟨1, ⟨x, 0, 0⟩, ⟨0, 0, 1⟩, 1, 0, 1, true⟩,
        some ⟨1, ⟨x, 0, 0⟩, ⟨0, 0, 1⟩, 1, 0, 1, true⟩] := by
    intro x
    have ht : widePlanes.transformation = none := rfl
    simp [System.trace, hall, accumulateRays, accumulateLoop,
      Propagators.toList, Surface.step, plane_propagate, ht]
  have hst : widePlanes.sensor.surface.transformation = none := rfl
  constructor
  · unfold System.rayfunction
    rw [raytrace_eq]
    have : widePlanes.callInput ⟨none, none, none, none, false, false⟩ none
        = some ⟨1, ⟨2, 0, 0⟩, ⟨0, 0, 1⟩, 1, 0, 1, true⟩ := by
      simp [System.callInput, h1, setIntensity]
    rw [this]
    simp [htrace, hst]
  · unfold System.rayfunction
    rw [raytrace_eq]
    have : widePlanes.callInput
        ⟨none, some widePlanes.gridInput.wavelength, none, none, false, false⟩ none
        = some ⟨1, ⟨1, 0, 0⟩, ⟨0, 0, 1⟩, 1, 0, 1, true⟩ := by
      simp only [System.callInput, Option.isNone_some, Bool.false_and, Bool.false_eq_true, if_false,
        Option.getD_some, Option.getD_none]
      have : (⟨widePlanes.gridInput.wavelength, widePlanes.gridInput.field,
        widePlanes.gridInput.pupil⟩ : Grid) = widePlanes.gridInput := rfl
      rw [this, h2]
      rfl
    rw [this]
    simp [htrace, hst]

/-- The hypothesis of `C67_defaults_partial` for a call that gives the pupil only. -/
example : (⟨none, none, none, some ⟨1, 0⟩, false, false⟩ : Call).IsDefault →
    false = true ∧ false = true := by simp [Call.IsDefault]

end Optika
