import Verif.Props.System
import Verif.Props.Sensor
import Verif.Model.Image

/-!
# Lemmas about images: the intensity of a ray only acts as a factor
-/

namespace Optika
open V3

/-- The ray with its intensity multiplied by `a`. -/
def Ray.scale (a : ℝ) (r : Ray) : Ray := { r with intensity := a * r.intensity }

/-- The properties of a surface do not depend on the intensity of the light. -/
structure IntensityBlind (s : Surface) : Prop where
  index : ∀ r i, s.material.index { r with intensity := i } = s.material.index r
  attenuation : ∀ r i, s.material.attenuation { r with intensity := i } = s.material.attenuation r
  efficiency : ∀ r i n, s.material.efficiency { r with intensity := i } n = s.material.efficiency r n
  rulings : ∀ ru, s.rulings = some ru → ∀ r i n,
    ru.efficiency { r with intensity := i } n = ru.efficiency r n

theorem Ray.scale_move (a : ℝ) (g : Rigid) (r : Ray) : (r.scale a).move g = (r.move g).scale a := rfl
theorem Ray.scale_unmove (a : ℝ) (g : Rigid) (r : Ray) :
    (r.scale a).unmove g = (r.unmove g).scale a := rfl

theorem clip_scale (s : Surface) (a : ℝ) (r : Ray) :
    s.clip (r.scale a) = (s.clip r).map (Ray.scale a) := by
  unfold Surface.clip
  cases s.aperture with
  | none => rfl
  | some ap =>
    unfold Aperture.clip
    dsimp only
    cases ap.unit <;> rfl

theorem effectiveRay_scale (s : Surface) (a : ℝ) (r : Ray) (n : V3) :
    s.effectiveRay (r.scale a) n = (s.effectiveRay r n).map (Ray.scale a) := by
  unfold Surface.effectiveRay
  cases s.rulings with
  | none => rfl
  | some ru =>
    simp only [Ray.scale, Option.map_map]
    rfl

theorem interact_scale {s : Surface} (hs : IntensityBlind s) (a : ℝ) (r : Ray) :
    s.interact (r.scale a) = (s.interact r).map (Ray.scale a) := by
  have hp : (r.scale a).position = r.position := rfl
  unfold Surface.interact
  rw [hp]
  cases s.sag.normal r.position with
  | none => rfl
  | some n =>
    simp only [Option.bind_eq_bind, Option.bind_some]
    rw [effectiveRay_scale]
    cases s.effectiveRay r n with
    | none => rfl
    | some r1 =>
      simp only [Option.map_some, Option.bind_some]
      have h1 : s.material.index (r1.scale a) = s.material.index r1 := hs.index _ _
      have h2 : s.material.attenuation (r1.scale a) = s.material.attenuation r1 :=
        hs.attenuation _ _
      have h3 : s.material.efficiency (r1.scale a) n = s.material.efficiency r1 n :=
        hs.efficiency _ _ _
      have h4 : s.rulingFactor (r1.scale a) n = s.rulingFactor r1 n := by
        unfold Surface.rulingFactor
        cases h : s.rulings with
        | none => rfl
        | some ru => exact hs.rulings ru h _ _ _
      rw [h1, h2, h3, h4]
      have h5 : (r1.scale a).index = r1.index := rfl
      have h6 : (r1.scale a).wavelength = r1.wavelength := rfl
      have h7 : (r1.scale a).direction = r1.direction := rfl
      have h8 : (r1.scale a).intensity = a * r1.intensity := rfl
      rw [h5, h6, h7, h8]
      cases s.material.index r1 with
      | none => rfl
      | some n2 =>
        simp only [Option.bind_some]
        cases div? r1.index n2 with
        | none => rfl
        | some ratio =>
          simp only [Option.bind_some]
          cases div? r1.wavelength ratio with
          | none => rfl
          | some w2 =>
            simp only [Option.bind_some]
            cases snellsLaw r1.direction r1.index n2 s.material.isMirror n with
            | none => rfl
            | some b =>
              simp only [Option.bind_some]
              cases s.material.efficiency r1 n with
              | none => rfl
              | some e1 =>
                simp only [Option.bind_some]
                cases s.rulingFactor r1 n with
                | none => rfl
                | some e2 =>
                  simp only [Option.bind_some]
                  cases s.material.attenuation r1 with
                  | none => rfl
                  | some att => simp [Ray.scale, mul_assoc]

theorem sag_propagate_scale (s : Sag) (a : ℝ) (r : Ray) :
    s.propagate (r.scale a) = (s.propagate r).map (Ray.scale a) := by
  unfold Sag.propagate
  have hp : (r.scale a).position = r.position := rfl
  have hd : (r.scale a).direction = r.direction := rfl
  rw [hp, hd]
  cases s.intercept r.position r.direction with
  | none => rfl
  | some q =>
    simp only [Option.bind_eq_bind, Option.bind_some, Option.pure_def, Option.map_some, Ray.scale,
      Option.some.injEq, Ray.mk.injEq, true_and, and_true]
    ring

theorem propagate_scale {s : Surface} (hs : IntensityBlind s) (a : ℝ) (r : Ray) :
    s.propagate (r.scale a) = (s.propagate r).map (Ray.scale a) := by
  rw [Surface.propagate_eq, Surface.propagate_eq, Ray.scale_unmove]
  generalize r.unmove s.frame = r
  unfold Surface.propagateLocal
  rw [sag_propagate_scale]
  cases s.sag.propagate r with
  | none => rfl
  | some r0 =>
    simp only [Option.map_some, Option.bind_eq_bind, Option.bind_some]
    rw [interact_scale hs]
    cases s.interact r0 with
    | none => rfl
    | some r1 =>
      simp only [Option.map_some, Option.bind_some]
      rw [clip_scale, Option.map_map, Option.map_map]
      rfl

theorem propagateSurfaces_scale {ss : List Surface} (hs : ∀ s ∈ ss, IntensityBlind s) (a : ℝ)
    (r : Ray) : propagateSurfaces ss (r.scale a) = (propagateSurfaces ss r).map (Ray.scale a) := by
  induction ss generalizing r with
  | nil => rfl
  | cons s ss ih =>
    rw [propagateSurfaces_cons, propagateSurfaces_cons, propagate_scale (hs s (by simp))]
    cases s.propagate r with
    | none => rfl
    | some r1 =>
      simp only [Option.map_some, Option.bind_some]
      exact ih (fun x hx => hs x (List.mem_cons_of_mem _ hx)) r1

/-- All surfaces of the system. -/
def System.everySurface (s : System) : List Surface :=
  s.object.surface :: s.surfaces.map (·.surface) ++ [s.sensor.surface]

theorem rayfunction_scale {s : System} (hs : ∀ x ∈ s.everySurface, IntensityBlind x) (g : Grid)
    (a : ℝ) : s.rayfunction (sceneCall g a) none
      = (s.rayfunction (sceneCall g 1) none).map (Ray.scale a) := by
  have hin : s.callInput (sceneCall g a) none
      = (s.callInput (sceneCall g 1) none).map (Ray.scale a) := by
    have e : ∀ x : ℝ, s.callInput (sceneCall g x) none
        = (s.calcInput g false false).map (setIntensity (some x)) := fun x => rfl
    rw [e, e, Option.map_map]
    congr 1
    funext r
    simp [setIntensity, Ray.scale]
  have hb : ∀ x ∈ s.placed, IntensityBlind x := by
    intro x hx
    obtain ⟨y, hy, rfl⟩ := List.mem_map.1 hx
    obtain ⟨h1, h2, h3, h4⟩ := hs y hy
    exact ⟨h1, h2, h3, h4⟩
  apply Option.ext
  intro out
  show s.rayfunction (sceneCall g a) none = some out ↔ _ = some out
  rw [C24_rayfunction, hin, Option.map_eq_some_iff]
  constructor
  · rintro ⟨r, gl, hr, hg, rfl⟩
    obtain ⟨r0, hr0, rfl⟩ := Option.map_eq_some_iff.1 hr
    rw [propagateSurfaces_scale hb] at hg
    obtain ⟨g0, hg0, rfl⟩ := Option.map_eq_some_iff.1 hg
    exact ⟨_, (C24_rayfunction s _ none _).2 ⟨r0, g0, hr0, hg0, rfl⟩, rfl⟩
  · rintro ⟨o, ho, rfl⟩
    obtain ⟨r0, g0, hr0, hg0, rfl⟩ := (C24_rayfunction s _ none _).1 ho
    refine ⟨r0.scale a, g0.scale a, by rw [hr0]; rfl, ?_, rfl⟩
    rw [propagateSurfaces_scale hb, hg0]
    rfl

/-- `p` is on the pixel in column `x` and row `y`; a common edge of two pixels belongs to the one
with the larger index. -/
def SensorGrid.OnPixel (s : SensorGrid) (x y : ℕ) (p : V3) : Prop :=
  (x < s.numX ∧ (x - s.numX / 2 : ℝ) * s.widthX ≤ p.x ∧
    (p.x < (x + 1 - s.numX / 2 : ℝ) * s.widthX ∨ (p.x = (x + 1 - s.numX / 2 : ℝ) * s.widthX ∧ x + 1 = s.numX)))
  ∧ (y < s.numY ∧ (y - s.numY / 2 : ℝ) * s.widthY ≤ p.y ∧
    (p.y < (y + 1 - s.numY / 2 : ℝ) * s.widthY ∨ (p.y = (y + 1 - s.numY / 2 : ℝ) * s.widthY ∧ y + 1 = s.numY)))

theorem bin_eq_some_iff {s : SensorGrid} (hs : s.Proper) {wavelength : List ℝ}
    (hw : wavelength.Pairwise (· < ·)) (r : Ray) (b x y : ℕ) :
    s.bin wavelength r = some (b, x, y) ↔ InBin wavelength b r.wavelength ∧ s.OnPixel x y r.position := by
  unfold SensorGrid.OnPixel
  rw [← binIndex_centred hs.1 hs.2.2.1, ← binIndex_centred hs.2.1 hs.2.2.2, ← binIndex_eq_some_iff hw]
  unfold SensorGrid.bin SensorGrid.edgesX SensorGrid.edgesY SensorGrid.halfX SensorGrid.halfY
  simp only [Option.bind_eq_bind, Option.pure_def, Option.bind_eq_some_iff, Option.some.injEq,
    Prod.mk.injEq]
  constructor
  · rintro ⟨a, ha, b', hb, c, hc, rfl, rfl, rfl⟩
    exact ⟨ha, hb, hc⟩
  · rintro ⟨ha, hb, hc⟩
    exact ⟨_, ha, _, hb, _, hc, rfl, rfl, rfl⟩

theorem sum_filterMap_eq {α β : Type} (l : List α) (f : α → Option β) (w : β → ℝ) :
    ((l.filterMap f).map w).sum = (l.map fun a => (f a).elim 0 w).sum := by
  induction l with
  | nil => rfl
  | cons a l ih =>
    rw [List.filterMap_cons]
    cases h : f a with
    | none => simp [h, ih]
    | some b => simp [h, ih]

end Optika
