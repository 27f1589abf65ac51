import Verif.Lemmas.Shapes

/-!
# C84: the shape of an object is that of all its parts

The parts of an object are the arrays its computations use.  The property claimed by `optika.mixins.Shaped`
is that `shape` is the smallest shape to which all of them can be broadcast, and an exception if there is
none.  The lists of parts below are the specification; they name every field that the methods of the class
read, whether or not its `shape` does.
-/

namespace Optika

/-! ## Parts -/

/-- The two parts of a set of parameters, if they are given. -/
def pairParts (p : Option (ArrayShape × ArrayShape)) : List ArrayShape := p.elim [] fun q => [q.1, q.2]

/-- The parts all sags have. -/
def SagCommon.parts (c : SagCommon) : List ArrayShape :=
  c.transformation :: (pairParts c.slopeError ++ pairParts c.roughness ++ pairParts c.microroughness)

/-- The parts of a sag. -/
def SagShapes.parts : SagShapes → List ArrayShape
  | flat c => c.parts
  | spherical r c => r :: c.parts
  | conic r k c => r :: k :: c.parts
  | parabolic f c => f :: c.parts
  | cylindrical r c => r :: c.parts
  | toroidal r s c => r :: s :: c.parts

/-- The parts of an aperture; the vertices of a polygon are not separate apertures. -/
def ApertureShapes.parts : ApertureShapes → List ArrayShape
  | circular r c => [r, c.active, c.inverted, c.transformation]
  | sector r a b c => [r, a, b, c.active, c.inverted, c.transformation]
  | elliptical r c => [r, c.active, c.inverted, c.transformation]
  | polygonal v c => [v.without ["vertex"], c.active, c.inverted, c.transformation]
  | rectangular w c => [w, c.active, c.inverted, c.transformation]
  | regular r c => [r, c.active, c.inverted, c.transformation]
  | octagonal r c => [r, c.active, c.inverted, c.transformation]
  | trapezoidal l r a c => [l, r, a, c.active, c.inverted, c.transformation]

/-- The parts of a ruling spacing. -/
def SpacingShapes.parts : SpacingShapes → List ArrayShape
  | array s => [s]
  | constant c n => [c, n]
  | polynomial cs n t => cs ++ [n, t]
  | holographic x1 x2 w d1 d2 => [x1, x2, w, d1, d2]

/-- The parts of rulings; the wavelengths of a measurement are not separate rulings. -/
def RulingShapes.parts : RulingShapes → List ArrayShape
  | ideal s m => s.parts ++ [m]
  | measured s m o axes => s.parts ++ [m, o.without axes]
  | profile s d m => s.parts ++ [d, m]
  | rectangular s d r m => s.parts ++ [d, r, m]

/-- The parts of a chemical. -/
def ChemicalShapes.parts (c : ChemicalShapes) : List ArrayShape := [c.formula, c.isAmorphous, c.table]

mutual
/-- The parts of a layer and of all layers in a sequence. -/
def LayerShapes.parts : LayerShapes → List ArrayShape
  | .layer c t i => c.elim [] ChemicalShapes.parts ++ t :: i.elim [] fun w => [w]
  | .sequence ls => layerParts ls
  | .periodic ls => layerParts ls

/-- The parts of a list of layers. -/
def layerParts : List LayerShapes → List ArrayShape
  | [] => []
  | l :: ls => l.parts ++ layerParts ls
end

/-- The parts of the layers of a multilayer. -/
def LayersArg.parts : LayersArg → List ArrayShape
  | .list ls => layerParts ls
  | .one l => l.parts

/-- The parts of a mesh. -/
def MeshShapes.parts (m : MeshShapes) : List ArrayShape :=
  m.chemical.elim [] ChemicalShapes.parts ++ [m.efficiency, m.pitch]

/-- The parts of a material. -/
def MaterialShapes.parts : MaterialShapes → List ArrayShape
  | vacuum => []
  | mirror s => s.elim [] LayerShapes.parts
  | measuredMirror o axes s n => o.without axes :: (s.elim [] LayerShapes.parts ++ [n])
  | glass b1 b2 b3 c1 c2 c3 => [b1, b2, b3, c1, c2, c3]
  | film l => l.parts
  | multilayerMirror l s => l.parts ++ s.elim [] LayerShapes.parts
  | thinFilm l o m => l.parts ++ (o.elim [] LayerShapes.parts ++ m.elim [] MeshShapes.parts)
  | silicon t o i s r q e => [t, o, i, s, r, q, e]

/-- The parts of a surface. -/
def SurfaceShapes.parts (s : SurfaceShapes) : List ArrayShape :=
  s.name :: (s.sag.elim [] SagShapes.parts ++ (s.material.elim [] MaterialShapes.parts ++
    (s.aperture.elim [] ApertureShapes.parts ++ (s.rulings.elim [] RulingShapes.parts ++
      [s.transformation]))))

/-- The parts of a sensor. -/
def SensorShapes.parts (s : SensorShapes) : List ArrayShape :=
  [s.name, s.widthPixel, s.numPixel, s.timedeltaExposure, s.readNoise, s.transformation] ++
    s.material.elim [] MaterialShapes.parts

/-- The parts of a system. -/
def SystemShapes.parts (s : SystemShapes) : List ArrayShape :=
  s.surfaces.flatMap SurfaceShapes.parts ++ (s.object.elim [] SurfaceShapes.parts ++
    (s.sensor.elim [] SensorShapes.parts ++ [s.transformation]))

/-! ## Objects whose shape is complete -/

/-- A shape without axes. -/
def ArrayShape.IsScalar (s : ArrayShape) : Prop := s.entries = []

/-- The transformation of a flat sag has no axes. -/
def SagShapes.Complete : SagShapes → Prop
  | flat c => c.transformation.IsScalar
  | _ => True

/-- The vertices of a polygon lie along the axis `"vertex"`. -/
def ApertureShapes.Complete : ApertureShapes → Prop
  | polygonal v _ => ∃ n, v.size "vertex" = some n
  | _ => True

/-- The coefficients of a polynomial and the wavelength of a hologram have no axes. -/
def SpacingShapes.Complete : SpacingShapes → Prop
  | polynomial cs _ _ => ∀ c ∈ cs, c.IsScalar
  | holographic _ _ w _ _ => w.IsScalar
  | _ => True

/-- The spacing is complete. -/
def RulingShapes.Complete : RulingShapes → Prop
  | ideal s _ => s.Complete
  | measured s _ _ _ => s.Complete
  | profile s _ _ => s.Complete
  | rectangular s _ _ _ => s.Complete

/-- The parameters of a silicon sensor have no axes. -/
def MaterialShapes.Complete : MaterialShapes → Prop
  | silicon t o i s r q e => ∀ x ∈ [t, o, i, s, r, q, e], ArrayShape.IsScalar x
  | _ => True

/-- All elements of a surface are complete. -/
def SurfaceShapes.Complete (s : SurfaceShapes) : Prop :=
  (∀ x ∈ s.sag, x.Complete) ∧ (∀ x ∈ s.material, x.Complete) ∧ (∀ x ∈ s.aperture, x.Complete) ∧
    ∀ x ∈ s.rulings, x.Complete

/-- The material of a sensor has no axes. -/
def SensorShapes.Complete (s : SensorShapes) : Prop :=
  ∀ x ∈ s.material, ∀ p ∈ x.parts, ArrayShape.IsScalar p

/-- All surfaces and the sensor of a system are complete. -/
def SystemShapes.Complete (s : SystemShapes) : Prop :=
  (∀ x ∈ s.surfaces, x.Complete) ∧ (∀ x ∈ s.object, x.Complete) ∧ ∀ x ∈ s.sensor, x.Complete

/-! ## Lemmas -/

theorem ArrayShape.IsScalar.fits {s : ArrayShape} (h : s.IsScalar) (t : ArrayShape) : Fits s t := by
  rw [fits_iff, h]
  simp

theorem Upper.of_eq {x : Option ArrayShape} {P Q : List ArrayShape} (h : Upper x P) (e : P = Q) :
    Upper x Q := e ▸ h

theorem ArrayShape.size_pop (s : ArrayShape) (b a : String) :
    (s.pop b).size a = if a = b then none else s.size a := by
  apply Option.ext
  intro n
  rw [ArrayShape.size_eq_some]
  simp only [ArrayShape.pop, List.mem_filter, ← ArrayShape.size_eq_some]
  by_cases h : a = b <;> simp [h]

theorem ArrayShape.size_without (s : ArrayShape) (axes : List String) (a : String) :
    (s.without axes).size a = if a ∈ axes then none else s.size a := by
  apply Option.ext
  intro n
  rw [ArrayShape.size_eq_some]
  simp only [ArrayShape.without, List.mem_filter, ← ArrayShape.size_eq_some]
  by_cases h : a ∈ axes <;> simp [h]

theorem ArrayShape.size_popAll (s : ArrayShape) (axes : List String) (a : String) :
    (s.popAll axes).size a = (s.without axes).size a := by
  rw [ArrayShape.size_without]
  unfold ArrayShape.popAll
  induction axes generalizing s with
  | nil => simp
  | cons b l ih =>
    rw [List.foldl_cons, ih, ArrayShape.size_pop]
    by_cases h : a = b <;> by_cases h' : a ∈ l <;> simp [h, h']

theorem Fits.congr {p q : ArrayShape} (h : ∀ a, p.size a = q.size a) (t : ArrayShape) :
    Fits p t ↔ Fits q t := by
  unfold Fits
  simp only [h]

theorem upper_popAll (s : ArrayShape) (axes : List String) : Upper (some (s.popAll axes)) [s.without axes] :=
  (Upper.single _).of_iff fun t => by simp [CommonShape, Fits.congr (s.size_popAll axes) t]

theorem pair_upper (p : Option (ArrayShape × ArrayShape)) :
    Upper (optShape pairShape p) (pairParts p) := by
  cases p with
  | none => exact Upper.scalar
  | some p => exact broadcastShapes_upper _

theorem layers_forall {ls : List LayerShapes} (h : ∀ l ∈ ls, Upper l.shape l.parts) :
    Upper (broadcastAll (layerShapes ls)) (layerParts ls) := by
  suffices h' : ∃ Ps, List.Forall₂ Upper (layerShapes ls) Ps ∧ Ps.flatten = layerParts ls by
    obtain ⟨Ps, h1, h2⟩ := h'
    exact (broadcastAll_upper h1).of_eq h2
  induction ls with
  | nil => exact ⟨[], by simpa [layerShapes] using List.Forall₂.nil, by simp [layerParts]⟩
  | cons l ls ih =>
    obtain ⟨Ps, h1, h2⟩ := ih fun l' hl' => h l' (List.mem_cons_of_mem _ hl')
    refine ⟨l.parts :: Ps, ?_, ?_⟩
    · rw [layerShapes]
      exact .cons (h l List.mem_cons_self) h1
    · rw [layerParts, List.flatten_cons, h2]

theorem chemical_upper (c : ChemicalShapes) : Upper c.shape c.parts := broadcastShapes_upper _

theorem simpleLayer_upper (c : Option ChemicalShapes) (t : ArrayShape) (i : Option ArrayShape) :
    Upper (LayerShapes.layer c t i).shape (LayerShapes.layer c t i).parts := by
  rw [LayerShapes.shape, LayerShapes.parts]
  refine (broadcastAll_upper (.cons (optShape_upper chemical_upper c) (.cons (Upper.single t)
    (.cons (optShape_upper (fun w => broadcastShapes_upper [w]) i) .nil)))).of_eq ?_
  simp

mutual
theorem layer_upper : ∀ l : LayerShapes, Upper l.shape l.parts
  | .layer c t i => simpleLayer_upper c t i
  | .sequence ls => by
    rw [LayerShapes.shape, LayerShapes.parts]
    exact layers_forall (layerList_upper ls)
  | .periodic ls => by
    rw [LayerShapes.shape, LayerShapes.parts]
    exact layers_forall (layerList_upper ls)

theorem layerList_upper : ∀ ls : List LayerShapes, ∀ l ∈ ls, Upper l.shape l.parts
  | [] => fun l hl => absurd hl (by simp)
  | l' :: ls => fun l hl => by
    rcases List.mem_cons.1 hl with h | hl
    · rw [h]
      exact layer_upper l'
    · exact layerList_upper ls l hl
end

theorem layersArg_upper (l : LayersArg) : Upper l.shape l.parts := by
  cases l with
  | list ls => exact layers_forall (layerList_upper ls)
  | one l =>
    cases l with
    | layer c t i => exact layer_upper _
    | sequence ls =>
      rw [LayersArg.shape, LayersArg.parts, LayerShapes.parts]
      exact layers_forall (layerList_upper ls)
    | periodic ls => exact layer_upper _

theorem mesh_upper (m : MeshShapes) : Upper m.shape m.parts :=
  (broadcastAll_upper (.cons (optShape_upper chemical_upper m.chemical) (.cons (Upper.single _)
    (.cons (Upper.single _) .nil)))).of_eq (by simp [MeshShapes.parts])

theorem errors_forall (c : SagCommon) : List.Forall₂ Upper c.errors
    [pairParts c.slopeError, pairParts c.roughness, pairParts c.microroughness] :=
  .cons (pair_upper _) (.cons (pair_upper _) (.cons (pair_upper _) .nil))

theorem sag_upper {s : SagShapes} (h : s.Complete) : Upper s.shape s.parts := by
  cases s with
  | flat c =>
    refine (broadcastAll_upper (errors_forall c)).of_iff fun t => ?_
    have ht := ArrayShape.IsScalar.fits h t
    simp [SagShapes.parts, SagCommon.parts, CommonShape, ht]
  | spherical r c =>
    exact (broadcastAll_upper (.cons (Upper.single r) (.cons (Upper.single _) (errors_forall c)))).of_eq
      (by simp [SagShapes.parts, SagCommon.parts])
  | conic r k c =>
    exact (broadcastAll_upper (.cons (Upper.single r) (.cons (Upper.single k)
      (.cons (Upper.single _) (errors_forall c))))).of_eq (by simp [SagShapes.parts, SagCommon.parts])
  | parabolic r c =>
    exact (broadcastAll_upper (.cons (Upper.single r) (.cons (Upper.single _) (errors_forall c)))).of_eq
      (by simp [SagShapes.parts, SagCommon.parts])
  | cylindrical r c =>
    exact (broadcastAll_upper (.cons (Upper.single r) (.cons (Upper.single _) (errors_forall c)))).of_eq
      (by simp [SagShapes.parts, SagCommon.parts])
  | toroidal r k c =>
    exact (broadcastAll_upper (.cons (Upper.single r) (.cons (Upper.single k)
      (.cons (Upper.single _) (errors_forall c))))).of_eq (by simp [SagShapes.parts, SagCommon.parts])

theorem aperture_upper {a : ApertureShapes} (h : a.Complete) : Upper a.shape a.parts := by
  cases a with
  | polygonal v c =>
    obtain ⟨n, hn⟩ := h
    simp only [ApertureShapes.shape, hn]
    refine (broadcastShapes_upper _).of_iff fun t => ?_
    have := Fits.congr (v.size_popAll ["vertex"]) t
    simp only [ArrayShape.popAll, List.foldl_cons, List.foldl_nil] at this
    simp [ApertureShapes.parts, ApertureCommon.list, CommonShape, this]
  | _ => exact broadcastShapes_upper _

theorem spacing_upper {s : SpacingShapes} (h : s.Complete) : Upper s.shape s.parts := by
  cases s with
  | array s => exact Upper.single s
  | constant c n => exact broadcastShapes_upper _
  | polynomial cs n t =>
    refine (broadcastShapes_upper _).of_iff fun u => ?_
    have h1 : ∀ c ∈ cs, Fits c u := fun c hc => ArrayShape.IsScalar.fits (h c hc) u
    have h2 : Fits ArrayShape.scalar u := ArrayShape.IsScalar.fits (show ArrayShape.scalar.IsScalar from rfl) u
    rw [SpacingShapes.parts, commonShape_append]
    simp only [CommonShape, List.forall_mem_cons, h2, true_and]
    exact ⟨fun h => ⟨h1, h⟩, fun h => h.2⟩
  | holographic x1 x2 w d1 d2 =>
    refine (broadcastShapes_upper _).of_iff fun u => ?_
    have h1 : Fits w u := ArrayShape.IsScalar.fits h u
    simp [SpacingShapes.parts, CommonShape, h1]

theorem ruling_upper {r : RulingShapes} (h : r.Complete) : Upper r.shape r.parts := by
  cases r with
  | ideal s m =>
    exact (broadcastAll_upper (.cons (spacing_upper h) (.cons (Upper.single m) .nil))).of_eq
      (by simp [RulingShapes.parts])
  | measured s m o axes =>
    exact (broadcastAll_upper (.cons (spacing_upper h) (.cons (Upper.single m)
      (.cons (upper_popAll _ _) .nil)))).of_eq (by simp [RulingShapes.parts])
  | profile s d m =>
    exact (broadcastAll_upper (.cons (spacing_upper h) (.cons (Upper.single d)
      (.cons (Upper.single m) .nil)))).of_eq (by simp [RulingShapes.parts])
  | rectangular s d r m =>
    exact (broadcastAll_upper (.cons (spacing_upper h) (.cons (Upper.single d)
      (.cons (Upper.single r) (.cons (Upper.single m) .nil))))).of_eq (by simp [RulingShapes.parts])

theorem material_upper {m : MaterialShapes} (h : m.Complete) : Upper m.shape m.parts := by
  cases m with
  | vacuum => exact Upper.scalar
  | mirror s =>
    exact (broadcastAll_upper (.cons (optShape_upper layer_upper s) .nil)).of_eq
      (by simp [MaterialShapes.parts])
  | measuredMirror o axes s n =>
    exact (broadcastAll_upper (.cons (upper_popAll _ _) (.cons (optShape_upper layer_upper s)
      (.cons (Upper.single n) .nil)))).of_eq (by simp [MaterialShapes.parts])
  | glass => exact broadcastShapes_upper _
  | film l => exact layersArg_upper l
  | multilayerMirror l s =>
    exact (broadcastAll_upper (.cons (layersArg_upper l) (.cons (optShape_upper layer_upper s)
      .nil))).of_eq (by simp [MaterialShapes.parts])
  | thinFilm l o m =>
    exact (broadcastAll_upper (.cons (layer_upper l) (.cons (optShape_upper layer_upper o)
      (.cons (optShape_upper mesh_upper m) .nil)))).of_eq (by simp [MaterialShapes.parts])
  | silicon t o i s r q e =>
    refine Upper.scalar.of_iff fun u => ?_
    refine ⟨fun _ p hp => ArrayShape.IsScalar.fits (h p hp) u, fun _ p hp => absurd hp (by simp)⟩

theorem optShape_upper' {α : Type} {f : α → Option ArrayShape} {P : α → List ArrayShape} (x : Option α)
    (h : ∀ y ∈ x, Upper (f y) (P y)) : Upper (optShape f x) (x.elim [] P) := by
  cases x with
  | none => exact Upper.scalar
  | some x => exact h x rfl

theorem surface_upper {s : SurfaceShapes} (h : s.Complete) : Upper s.shape s.parts := by
  obtain ⟨h1, h2, h3, h4⟩ := h
  exact (broadcastAll_upper (.cons (Upper.single _)
    (.cons (optShape_upper' s.sag fun y hy => sag_upper (h1 y hy))
    (.cons (optShape_upper' s.material fun y hy => material_upper (h2 y hy))
    (.cons (optShape_upper' s.aperture fun y hy => aperture_upper (h3 y hy))
    (.cons (optShape_upper' s.rulings fun y hy => ruling_upper (h4 y hy))
    (.cons (Upper.single _) .nil))))))).of_eq (by simp [SurfaceShapes.parts])

theorem sensor_upper {s : SensorShapes} (h : s.Complete) : Upper s.shape s.parts := by
  refine (broadcastShapes_upper _).of_iff fun t => ?_
  rw [SensorShapes.parts, commonShape_append]
  refine ⟨fun ht => ⟨ht, ?_⟩, fun ht => ht.1⟩
  intro p hp
  cases hm : s.material with
  | none => rw [hm] at hp; simp at hp
  | some m => rw [hm] at hp; exact ArrayShape.IsScalar.fits (h m hm p hp) t

theorem system_upper {s : SystemShapes} (h : s.Complete) : Upper s.shape s.parts := by
  obtain ⟨h1, h2, h3⟩ := h
  have hl : List.Forall₂ Upper (s.surfaces.map SurfaceShapes.shape) (s.surfaces.map SurfaceShapes.parts) := by
    rw [List.forall₂_map_left_iff, List.forall₂_map_right_iff, List.forall₂_same]
    exact fun x hx => surface_upper (h1 x hx)
  have hr : List.Forall₂ Upper [optShape SurfaceShapes.shape s.object, optShape SensorShapes.shape s.sensor,
      some s.transformation] [s.object.elim [] SurfaceShapes.parts, s.sensor.elim [] SensorShapes.parts,
      [s.transformation]] :=
    .cons (optShape_upper' s.object fun y hy => surface_upper (h2 y hy))
      (.cons (optShape_upper' s.sensor fun y hy => sensor_upper (h3 y hy)) (.cons (Upper.single _) .nil))
  exact (broadcastAll_upper (List.rel_append hl hr)).of_eq
    (by simp [SystemShapes.parts, List.flatMap, List.flatten_append])

/-! ## C84 -/

/-- `broadcast_shapes` computes the smallest common shape. -/
theorem C84_broadcast (shapes : List ArrayShape) : IsShapeOf (broadcastShapes shapes) shapes :=
  upper_iff.1 (broadcastShapes_upper shapes)

/-- The smallest common shape is unique up to the order of its axes. -/
theorem C84_unique {s t : ArrayShape} {parts : List ArrayShape} (hs : LeastShape s parts)
    (ht : LeastShape t parts) (a : String) : s.size a = t.size a := hs.unique ht a

/-- Chemicals, layers, nested and periodic ones included, and meshes. -/
theorem C84_layers (c : ChemicalShapes) (l : LayerShapes) (m : MeshShapes) :
    IsShapeOf c.shape c.parts ∧ IsShapeOf l.shape l.parts ∧ IsShapeOf m.shape m.parts :=
  ⟨upper_iff.1 (chemical_upper c), upper_iff.1 (layer_upper l), upper_iff.1 (mesh_upper m)⟩

/-- Sags with a surface that is not flat, or whose transformation has no axes. -/
theorem C84_sag_partial {s : SagShapes} (h : s.Complete) : IsShapeOf s.shape s.parts :=
  upper_iff.1 (sag_upper h)

/-- Apertures; those of a polygon need an axis `"vertex"`. -/
theorem C84_aperture {a : ApertureShapes} (h : a.Complete) : IsShapeOf a.shape a.parts :=
  upper_iff.1 (aperture_upper h)

/-- Rulings, if the coefficients of polynomials and the wavelengths of holograms have no axes. -/
theorem C84_rulings_partial {r : RulingShapes} (h : r.Complete) : IsShapeOf r.shape r.parts :=
  upper_iff.1 (ruling_upper h)

/-- Materials, if the parameters of silicon have no axes. -/
theorem C84_material_partial {m : MaterialShapes} (h : m.Complete) : IsShapeOf m.shape m.parts :=
  upper_iff.1 (material_upper h)

/-- Surfaces made of such elements. -/
theorem C84_surface_partial {s : SurfaceShapes} (h : s.Complete) : IsShapeOf s.shape s.parts :=
  upper_iff.1 (surface_upper h)

/-- Systems of such surfaces. -/
theorem C84_system_partial {s : SystemShapes} (h : s.Complete) : IsShapeOf s.shape s.parts :=
  upper_iff.1 (system_upper h)

theorem axis_size (a : String) (n : ℕ) : (ArrayShape.axis a n).size a = some n := by
  simp [ArrayShape.axis, ArrayShape.size]

theorem not_shape_of_axis {x : Option ArrayShape} {P : List ArrayShape} {a : String} {n : ℕ}
    (hx : x = some ArrayShape.scalar) (hP : ArrayShape.axis a n ∈ P) : ¬ IsShapeOf x P := by
  subst hx
  intro h
  rcases h.1 _ hP a n (axis_size a n) with h | ⟨_, m, h⟩ <;>
    simp [ArrayShape.scalar, ArrayShape.size] at h

/-- The shape of a flat sag misses the axes of its transformation. -/
theorem C84_flat_counterexample : ∃ s : SagShapes, ¬ IsShapeOf s.shape s.parts :=
  ⟨.flat ⟨.axis "x" 2, none, none, none⟩, not_shape_of_axis (a := "x") (n := 2) rfl
    (by simp [SagShapes.parts, SagCommon.parts])⟩

/-- The shape of a polynomial spacing misses the axes of its coefficients. -/
theorem C84_polynomial_counterexample : ∃ s : SpacingShapes, ¬ IsShapeOf s.shape s.parts :=
  ⟨.polynomial [.axis "x" 2] .scalar .scalar, not_shape_of_axis (a := "x") (n := 2) rfl
    (by simp [SpacingShapes.parts])⟩

/-- The shape of a holographic spacing misses the axes of its wavelength. -/
theorem C84_holographic_counterexample : ∃ x1 x2 w d1 d2 : ArrayShape,
    ¬ IsShapeOf (SpacingShapes.holographic x1 x2 w d1 d2).shape
      (SpacingShapes.holographic x1 x2 w d1 d2).parts :=
  ⟨.scalar, .scalar, .axis "x" 2, .scalar, .scalar, not_shape_of_axis (a := "x") (n := 2) rfl
    (by simp [SpacingShapes.parts])⟩

/-- The shape of the silicon of a sensor misses the axes of all its parameters. -/
theorem C84_silicon_counterexample : ∃ t o i s r q e : ArrayShape,
    ¬ IsShapeOf (MaterialShapes.silicon t o i s r q e).shape (MaterialShapes.silicon t o i s r q e).parts :=
  ⟨.axis "x" 2, .scalar, .scalar, .scalar, .scalar, .scalar, .scalar,
    not_shape_of_axis (a := "x") (n := 2) rfl (by simp [MaterialShapes.parts])⟩

/-- The shape of a sensor misses the axes of its material, even if the shape of the material does not. -/
theorem C84_sensor_counterexample : ∃ (s : SensorShapes) (m : MaterialShapes), s.material = some m ∧
    IsShapeOf m.shape m.parts ∧ ¬ IsShapeOf s.shape s.parts :=
  ⟨⟨.scalar, .scalar, .scalar, .scalar, .scalar,
      some (.glass (.axis "x" 2) .scalar .scalar .scalar .scalar .scalar), .scalar⟩, _, rfl,
    C84_material_partial trivial, not_shape_of_axis (a := "x") (n := 2) rfl
      (by simp [SensorShapes.parts, MaterialShapes.parts])⟩

/-- A flat mirror shifted along an axis spoils the shape of the system. -/
theorem C84_system_counterexample : ∃ s : SystemShapes, ¬ IsShapeOf s.shape s.parts :=
  ⟨⟨[⟨.scalar, some (.flat ⟨.axis "x" 2, none, none, none⟩), none, none, none, .scalar⟩], none, none,
      .scalar⟩, not_shape_of_axis (a := "x") (n := 2) rfl
    (by simp [SystemShapes.parts, SurfaceShapes.parts, SagShapes.parts, SagCommon.parts])⟩

/-- A system of a spherical mirror of several radii with a nested coating, behind an aperture of several
sizes, meets the hypotheses and has a shape with both axes. -/
example : ∃ s : SystemShapes, s.Complete ∧
    (∃ t, s.shape = some t ∧ t.size "r" = some 3 ∧ t.size "w" = some 2) :=
  ⟨⟨[⟨.scalar, some (.spherical (.axis "r" 3) ⟨.scalar, none, none, none⟩),
      some (.multilayerMirror (.list [.periodic [.layer none (.axis "w" 1) none]]) none),
      some (.circular (.axis "w" 2) ⟨.scalar, .scalar, .scalar⟩), none, .scalar⟩], none, none, .scalar⟩, by
    simp [SystemShapes.Complete, SurfaceShapes.Complete, SagShapes.Complete, MaterialShapes.Complete,
      ApertureShapes.Complete], _, rfl, rfl, rfl⟩

/-- Shapes that cannot be broadcast are refused. -/
example : broadcastShapes [.axis "x" 2, .axis "x" 3] = none := rfl

end Optika
