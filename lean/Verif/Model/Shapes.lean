import Verif.Spec.Shapes

/-!
# Shapes of optical elements

The `shape` properties of the library and `optika.shape` (`optika/_util.py` lines 21–38): the shape of an
array, a transformation or a shaped object is its `shape`, that of anything else (`None`, numbers, strings,
`dict`) is that of a scalar.  Objects are represented by the shapes of their fields; `none` is an exception.
-/

namespace Optika

namespace ArrayShape

/-- Assignment to an axis that is already there. -/
def set (s : ArrayShape) (a : String) (n : ℕ) : ArrayShape :=
  ⟨s.entries.map fun p => (p.1, if p.1 = a then n else p.2), by
    rw [List.map_map]
    exact s.nodup⟩

/-- `dict.pop(axis, None)`. -/
def pop (s : ArrayShape) (a : String) : ArrayShape :=
  ⟨s.entries.filter fun p => p.1 ≠ a, s.nodup.sublist ((List.filter_sublist).map _)⟩

/-- `pop` of several axes. -/
def popAll (s : ArrayShape) (axes : List String) : ArrayShape := axes.foldl pop s

theorem not_mem_of_size_none {s : ArrayShape} {a : String} (h : s.size a = none) :
    a ∉ s.entries.map Prod.fst := by
  unfold size at h
  intro hm
  obtain ⟨p, hp, rfl⟩ := List.mem_map.1 hm
  exact absurd h (by
    rw [List.lookup_eq_none_iff]
    push Not
    exact ⟨p, hp, by simp⟩)

/-- One step of `named_arrays.broadcast_shapes`: a new axis is added; an axis of length one gives way to
another length; different lengths are an error. -/
def addAxis (s : ArrayShape) (a : String) (n : ℕ) : Option ArrayShape :=
  match h : s.size a with
  | none => some ⟨s.entries ++ [(a, n)], by
      rw [List.map_append, List.nodup_append]
      refine ⟨s.nodup, by simp, ?_⟩
      intro x hx y hy
      simp only [List.map_cons, List.map_nil, List.mem_singleton] at hy
      subst hy
      rintro rfl
      exact not_mem_of_size_none h hx⟩
  | some m => if m = n then some s else if m = 1 then some (s.set a n) else if n = 1 then some s else none

end ArrayShape

/-- `named_arrays.broadcast_shapes`, as documented there. -/
def broadcastShapes (shapes : List ArrayShape) : Option ArrayShape :=
  (shapes.flatMap ArrayShape.entries).foldlM (fun s e => s.addAxis e.1 e.2) ArrayShape.scalar

/-- `broadcast_shapes` of shapes whose evaluation may fail. -/
def broadcastAll (shapes : List (Option ArrayShape)) : Option ArrayShape :=
  (shapes.mapM id).bind broadcastShapes

/-- `optika.shape` of an optional object. -/
def optShape {α : Type} (f : α → Option ArrayShape) : Option α → Option ArrayShape
  | none => some .scalar
  | some x => f x

/-! ## Sags -/

/-- `SlopeErrorParameters` and `RoughnessParameters` have two fields each, `optika/metrology/_slope_error.py`
lines 25–29 and `optika/metrology/_roughness.py` lines 25–29. -/
def pairShape (p : ArrayShape × ArrayShape) : Option ArrayShape := broadcastShapes [p.1, p.2]

/-- The fields of `AbstractSag`, `optika/sags/_abc.py`. -/
structure SagCommon where
  transformation : ArrayShape
  slopeError : Option (ArrayShape × ArrayShape)
  roughness : Option (ArrayShape × ArrayShape)
  microroughness : Option (ArrayShape × ArrayShape)

/-- The kinds of sags and the shapes of their fields. -/
inductive SagShapes
  | flat (c : SagCommon)
  | spherical (radius : ArrayShape) (c : SagCommon)
  | conic (radius conic : ArrayShape) (c : SagCommon)
  | parabolic (focalLength : ArrayShape) (c : SagCommon)
  | cylindrical (radius : ArrayShape) (c : SagCommon)
  | toroidal (radius radiusOfRotation : ArrayShape) (c : SagCommon)

/-- The last three entries of the `shape` of a sag. -/
def SagCommon.errors (c : SagCommon) : List (Option ArrayShape) :=
  [optShape pairShape c.slopeError, optShape pairShape c.roughness, optShape pairShape c.microroughness]

/-- `shape` of the sags: `_flat.py` lines 19–24, `_spherical.py` 91–98, `_conic.py` 244–252,
`_parabolic.py` 23–30, `_cylindrical.py` 66–73, `_toroidal.py` 28–36.  That of `NoSag` leaves out the
transformation. -/
def SagShapes.shape : SagShapes → Option ArrayShape
  | flat c => broadcastAll c.errors
  | spherical r c => broadcastAll (some r :: some c.transformation :: c.errors)
  | conic r k c => broadcastAll (some r :: some k :: some c.transformation :: c.errors)
  | parabolic f c => broadcastAll (some f :: some c.transformation :: c.errors)
  | cylindrical r c => broadcastAll (some r :: some c.transformation :: c.errors)
  | toroidal r s c => broadcastAll (some r :: some s :: some c.transformation :: c.errors)

/-! ## Apertures -/

/-- `active`, `inverted` and `transformation` of `AbstractAperture`, `optika/apertures/_apertures.py`. -/
structure ApertureCommon where
  active : ArrayShape
  inverted : ArrayShape
  transformation : ArrayShape

/-- The kinds of apertures and the shapes of their fields. -/
inductive ApertureShapes
  | circular (radius : ArrayShape) (c : ApertureCommon)
  | sector (radius angleStart angleStop : ArrayShape) (c : ApertureCommon)
  | elliptical (radius : ArrayShape) (c : ApertureCommon)
  | polygonal (vertices : ArrayShape) (c : ApertureCommon)
  | rectangular (halfWidth : ArrayShape) (c : ApertureCommon)
  | regular (radius : ArrayShape) (c : ApertureCommon)
  | octagonal (radius : ArrayShape) (c : ApertureCommon)
  | trapezoidal (xLeft xRight angle : ArrayShape) (c : ApertureCommon)

/-- The last three entries of the `shape` of an aperture. -/
def ApertureCommon.list (c : ApertureCommon) : List ArrayShape := [c.active, c.inverted, c.transformation]

/-- `shape` of the apertures, `optika/apertures/_apertures.py` lines 284–290, 428–436, 632–638, 848–856
(`pop` without default raises if there is no axis `"vertex"`), 933–939, 1043–1049, 1073–1079 and
1185–1193. -/
def ApertureShapes.shape : ApertureShapes → Option ArrayShape
  | circular r c => broadcastShapes (r :: c.list)
  | sector r a b c => broadcastShapes (r :: a :: b :: c.list)
  | elliptical r c => broadcastShapes (r :: c.list)
  | polygonal v c =>
    match v.size "vertex" with
    | none => none
    | some _ => broadcastShapes (v.pop "vertex" :: c.list)
  | rectangular w c => broadcastShapes (w :: c.list)
  | regular r c => broadcastShapes (r :: c.list)
  | octagonal r c => broadcastShapes (r :: c.list)
  | trapezoidal l r a c => broadcastShapes (l :: r :: a :: c.list)

/-! ## Rulings -/

/-- The spacing of rulings: a number or an object. -/
inductive SpacingShapes
  | array (s : ArrayShape)
  | constant (constant normal : ArrayShape)
  | polynomial (coefficients : List ArrayShape) (normal transformation : ArrayShape)
  | holographic (x1 x2 wavelength isDiverging1 isDiverging2 : ArrayShape)

/-- `shape` of the spacings, `optika/rulings/_spacing.py` lines 59–63, 102–107 and 287–293.  The
coefficients of the polynomial are a `dict`, whose `optika.shape` is that of a scalar; the holographic
spacing leaves out the wavelength. -/
def SpacingShapes.shape : SpacingShapes → Option ArrayShape
  | array s => some s
  | constant c n => broadcastShapes [c, n]
  | polynomial _ n t => broadcastShapes [.scalar, n, t]
  | holographic x1 x2 _ d1 d2 => broadcastShapes [x1, x2, d1, d2]

/-- The kinds of rulings and the shapes of their fields. -/
inductive RulingShapes
  | ideal (spacing : SpacingShapes) (order : ArrayShape)
  | measured (spacing : SpacingShapes) (order outputs : ArrayShape) (axisWavelength : List String)
  | profile (spacing : SpacingShapes) (depth order : ArrayShape)
  | rectangular (spacing : SpacingShapes) (depth ratioDuty order : ArrayShape)

/-- `shape` of the rulings, `optika/rulings/_rulings.py` lines 240–244, 276–285, 397–402 (and the same for
square, sawtooth and triangular profiles) and 1000–1006. -/
def RulingShapes.shape : RulingShapes → Option ArrayShape
  | ideal s m => broadcastAll [s.shape, some m]
  | measured s m o axes => broadcastAll [s.shape, some m, some (o.popAll axes)]
  | profile s d m => broadcastAll [s.shape, some d, some m]
  | rectangular s d r m => broadcastAll [s.shape, some d, some r, some m]

/-! ## Materials -/

/-- A chemical given by its formula (`none`) or as a `Chemical` with formula, amorphousness and table. -/
structure ChemicalShapes where
  formula : ArrayShape
  isAmorphous : ArrayShape
  table : ArrayShape

/-- `Chemical.shape`, `optika/chemicals/_chemicals.py` lines 260–265. -/
def ChemicalShapes.shape (c : ChemicalShapes) : Option ArrayShape :=
  broadcastShapes [c.formula, c.isAmorphous, c.table]

/-- Layers and sequences of layers; the interface has a single field `width`
(`optika/materials/profiles.py` lines 208–211, 307–310, 410–413 and 518–521). -/
inductive LayerShapes
  | layer (chemical : Option ChemicalShapes) (thickness : ArrayShape) (interface : Option ArrayShape)
  | sequence (layers : List LayerShapes)
  | periodic (layers : List LayerShapes)

mutual
/-- `shape` of layers, `optika/materials/_layers.py` lines 195–200, 437–440 and 584–587. -/
def LayerShapes.shape : LayerShapes → Option ArrayShape
  | .layer c t i => broadcastAll [optShape ChemicalShapes.shape c, some t,
      optShape (fun w => broadcastShapes [w]) i]
  | .sequence ls => broadcastAll (layerShapes ls)
  | .periodic ls => broadcastAll (layerShapes ls)

/-- The comprehension over the layers. -/
def layerShapes : List LayerShapes → List (Option ArrayShape)
  | [] => []
  | l :: ls => l.shape :: layerShapes ls
end

/-- The layers of a multilayer are a list or a single object. -/
inductive LayersArg
  | list (layers : List LayerShapes)
  | one (layer : LayerShapes)

/-- The shape of the layers of a multilayer, `optika/materials/_multilayers.py` lines 892–897 and
1113–1118: a `LayerSequence` can be iterated over as it has `__getitem__`, the others raise `TypeError`. -/
def LayersArg.shape : LayersArg → Option ArrayShape
  | .list ls => broadcastAll (layerShapes ls)
  | .one (.sequence ls) => broadcastAll (layerShapes ls)
  | .one (.layer c t i) => (LayerShapes.layer c t i).shape
  | .one (.periodic ls) => (LayerShapes.periodic ls).shape

/-- `Mesh`, `optika/materials/meshes.py` lines 61–66. -/
structure MeshShapes where
  chemical : Option ChemicalShapes
  efficiency : ArrayShape
  pitch : ArrayShape

/-- `Mesh.shape`. -/
def MeshShapes.shape (m : MeshShapes) : Option ArrayShape :=
  broadcastAll [optShape ChemicalShapes.shape m.chemical, some m.efficiency, some m.pitch]

/-- The kinds of materials and the shapes of their fields. -/
inductive MaterialShapes
  | vacuum
  | mirror (substrate : Option LayerShapes)
  | measuredMirror (outputs : ArrayShape) (axisWavelength : List String) (substrate : Option LayerShapes)
      (serialNumber : ArrayShape)
  | glass (b1 b2 b3 c1 c2 c3 : ArrayShape)
  | film (layers : LayersArg)
  | multilayerMirror (layers : LayersArg) (substrate : Option LayerShapes)
  | thinFilm (layer : LayerShapes) (oxide : Option LayerShapes) (mesh : Option MeshShapes)
  | silicon (temperature thicknessOxide thicknessImplant thicknessSubstrate roughnessOxide
      roughnessSubstrate cceBacksurface : ArrayShape)

/-- `shape` of the materials: `optika/materials/_materials.py` lines 88–89, 170–173, 268–277 and 414–422,
`_multilayers.py` 891–898 and 1112–1122, `_thin_films.py` 132–137, and
`optika/sensors/materials/_materials.py` 2280–2281, which is always that of a scalar. -/
def MaterialShapes.shape : MaterialShapes → Option ArrayShape
  | vacuum => some .scalar
  | mirror s => broadcastAll [optShape LayerShapes.shape s]
  | measuredMirror o axes s n => broadcastAll [some (o.popAll axes), optShape LayerShapes.shape s, some n]
  | glass b1 b2 b3 c1 c2 c3 => broadcastShapes [b1, b2, b3, c1, c2, c3]
  | film l => l.shape
  | multilayerMirror l s => broadcastAll [l.shape, optShape LayerShapes.shape s]
  | thinFilm l o m => broadcastAll [l.shape, optShape LayerShapes.shape o, optShape MeshShapes.shape m]
  | silicon .. => some .scalar

/-! ## Surfaces, sensors and systems -/

/-- The fields of a `Surface`. -/
structure SurfaceShapes where
  name : ArrayShape
  sag : Option SagShapes
  material : Option MaterialShapes
  aperture : Option ApertureShapes
  rulings : Option RulingShapes
  transformation : ArrayShape

/-- `Surface.shape`, `optika/surfaces.py` lines 387–395. -/
def SurfaceShapes.shape (s : SurfaceShapes) : Option ArrayShape :=
  broadcastAll [some s.name, optShape SagShapes.shape s.sag, optShape MaterialShapes.shape s.material,
    optShape ApertureShapes.shape s.aperture, optShape RulingShapes.shape s.rulings,
    some s.transformation]

/-- The fields of an `ImagingSensor`. -/
structure SensorShapes where
  name : ArrayShape
  widthPixel : ArrayShape
  numPixel : ArrayShape
  timedeltaExposure : ArrayShape
  readNoise : ArrayShape
  material : Option MaterialShapes
  transformation : ArrayShape

/-- `ImagingSensor.shape`, `optika/sensors/_sensors.py` lines 492–500, which leaves out the material. -/
def SensorShapes.shape (s : SensorShapes) : Option ArrayShape :=
  broadcastShapes [s.name, s.widthPixel, s.numPixel, s.timedeltaExposure, s.readNoise, s.transformation]

/-- The fields of a `SequentialSystem`. -/
structure SystemShapes where
  surfaces : List SurfaceShapes
  object : Option SurfaceShapes
  sensor : Option SensorShapes
  transformation : ArrayShape

/-- `SequentialSystem.shape`, `optika/systems/_sequential.py` lines 2126–2132. -/
def SystemShapes.shape (s : SystemShapes) : Option ArrayShape :=
  broadcastAll (s.surfaces.map SurfaceShapes.shape ++
    [optShape SurfaceShapes.shape s.object, optShape SensorShapes.shape s.sensor, some s.transformation])

end Optika
