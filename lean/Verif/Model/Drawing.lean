import Verif.Model.System

/-!
# Drawings

`plot` and `_write_to_dxf` of apertures, surfaces, rays and sequential systems: which polylines they
draw, as lists of vertices. The style, the projection of `plot` onto the selected components and the
file format are not modelled. A vertex whose coordinates are not finite is `none`.
-/

namespace Optika

/-- A polyline. -/
abbrev Polyline := List (Option V3)

/-- What is drawn of an aperture: its unit and `wire()`, in surface coordinates. -/
structure Outline where
  unit : ApertureUnit
  wire : List V3

/-- `transformation @ self.transformation`, either of which may be missing: `optika/surfaces.py` lines
211–216 and 253–257, `_sequential.py` lines 1619–1623 and 1801–1805. -/
def composeTransformation (outer inner : Option Rigid) : Option Rigid :=
  match outer, inner with
  | some g, some h => some (g.comp h)
  | some g, none => some g
  | none, t => t

/-- `AbstractAperture.plot` and `_write_to_dxf`, `optika/apertures/_apertures.py` lines 132–165 and
167–217: nothing unless the wire is a length; the sag gives the `z` component. -/
def Outline.draw (o : Outline) (sag : Sag) (transformation : Option Rigid) : Option Polyline :=
  match o.unit with
  | .length => some (o.wire.map fun p => (sag.height p).map fun z =>
      let v : V3 := ⟨p.x, p.y, z⟩
      transformation.elim v fun g => g.point v)
  | _ => none

/-- `AbstractSurface.plot` and `_write_to_dxf`, `optika/surfaces.py` lines 200–281; `outlines` are
`aperture` and `aperture_mechanical`, without those that are missing. -/
def drawSurface (s : Surface) (outlines : List Outline) (transformation : Option Rigid) :
    List Polyline :=
  let transformation := composeTransformation transformation s.transformation
  outlines.filterMap fun o => o.draw s.sag transformation

/-- The vertices of one ray, `_sequential.py` lines 1641–1659 and `_ray_vectors.py` lines 188–229:
`raytrace` accumulates one ray for each surface, and the ray is selected by `unvignetted` at the last of
them. Simplified: a ray that is not finite at the last surface is not drawn. -/
def drawRay (rays : List (Option Ray)) (transformation : Option Rigid) (vignetted : Bool) :
    List Polyline :=
  match rays.getLast? with
  | some (some last) =>
    if vignetted || last.unvignetted then
      [rays.map fun r => r.map fun r => transformation.elim r.position fun g => g.point r.position]
    else []
  | _ => []

/-- `AbstractSequentialSystem.plot` and `_write_to_dxf`, `_sequential.py` lines 1584–1661 and 1793–1823:
the polylines of each surface, and those of the default ray trace. `outlines i` belongs to surface `i`
of `surfaces_all`. -/
noncomputable def System.draw (s : System) (outlines : ℕ → List Outline) (transformation : Option Rigid)
    (vignetted : Bool) (cache : Option Ray) : Option (List (List Polyline) × List Polyline) := do
  let transformation := composeTransformation transformation s.transformation
  let all ← s.all
  let surfaces := all.zipIdx.map fun x => drawSurface x.1 (outlines x.2) transformation
  let rays ← (s.raytrace ⟨none, none, none, none, true, true⟩ cache).1
  return (surfaces, drawRay rays transformation vignetted)

/-! ### Keyword arguments -/

/-- Keyword arguments: the value of each name that is given. -/
abbrev Keywords := String → Option String

/-- `a | b` of two dictionaries: the values of the second one prevail. -/
def Keywords.union (a b : Keywords) : Keywords := fun k => (b k).orElse fun _ => a k

/-- `kwargs = kwargs_plot | kwargs` of apertures, `_apertures.py` lines 151–155. -/
def apertureKeywords (kwargsPlot kwargs : Keywords) : Keywords := kwargsPlot.union kwargs

/-- `kwargs = kwargs | kwargs_plot` of surfaces and systems, `surfaces.py` lines 218–219 and
`_sequential.py` lines 1625–1626, which pass the result to their parts: the arguments with which the
outline of a surface is finally drawn. -/
def drawnKeywords (system surface aperture kwargs : Keywords) : Keywords :=
  apertureKeywords aperture ((kwargs.union system).union surface)

end Optika
