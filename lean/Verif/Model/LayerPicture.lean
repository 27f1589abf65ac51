import Verif.Model.Layers

/-!
# Pictures of layers

`AbstractLayer.plot`, `optika/materials/_layers.py` lines 279–362, 501–523 and 647–675, and `plot_layers`
of coatings, `optika/materials/_multilayers.py` lines 868–877 and 937–981: the rectangles that are drawn
and the points that labels refer to.

Not modelled: colours, texts, and layers without thickness.
-/

namespace Optika

/-- A rectangle that stands for a layer. -/
structure Bar where
  layer : Layer
  x : ℝ
  width : ℝ
  bottom : ℝ
  height : ℝ

/-- `Layer.plot`, lines 323–333. -/
def Layer.bar (l : Layer) (x width z : ℝ) : Bar := ⟨l, x, width, z, l.thickness⟩

/-- `_thickness_plot`, lines 202–204, 455–457 and 599–601. -/
def Stack.thicknessPlot : Stack → ℝ
  | .layer l => l.thickness
  | .sequence ls => (Stack.sequence ls).thickness
  | .periodic ls _ => (Stack.sequence ls).thickness

mutual

/-- `plot` of a layer (lines 279–362), of a sequence (lines 501–523) and of a periodic sequence (lines
647–675), with the lower edge at `z`. -/
def Stack.plot (x width : ℝ) : Stack → ℝ → List Bar
  | .layer l, z => [l.bar x width z]
  | .sequence ls, z => (plotAll x width ls z).1
  | .periodic ls _, z => (plotAll x width ls z).1

/-- The loop of `LayerSequence.plot`, lines 509–521, over the layers from the last to the first: what is
drawn, and the height that has been reached. -/
def plotAll (x width : ℝ) : List Stack → ℝ → List Bar × ℝ
  | [], z => ([], z)
  | s :: ls, z =>
    let below := plotAll x width ls z
    (below.1 ++ s.plot x width below.2, below.2 + s.thicknessPlot)

end

/-- The ends of the brace beside a periodic sequence, lines 666–676. -/
def braceEnds (ls : List Stack) (z : ℝ) : ℝ × ℝ := (z, z + (Stack.sequence ls).thickness)

/-- The horizontal positions of a label and of the tip of its arrow, `Layer.plot` lines 315–318 and
337–345. -/
noncomputable def labelPositions (label : Option ℝ) (x width : ℝ) : ℝ × ℝ :=
  let position := match label with
    | none => x + width / 2
    | some f => f * width
  (position, if position ≤ x then 0 else if x < position ∧ position < x + width then position else width)

/-- The height of label and arrow, line 347. -/
noncomputable def Layer.labelHeight (l : Layer) (z : ℝ) : ℝ := z + l.thickness / 2

/-- The lower edge of the substrate in `AbstractMultilayerMirror.plot_layers`, `_multilayers.py` lines
956–959; the upper edge is at zero, as is the lower edge of the layers. -/
noncomputable def substrateEdge (thicknessSubstrate width x : ℝ) : ℝ :=
  let amplitude := 0.1 * thicknessSubstrate
  amplitude * Real.sin (2 * Real.pi * x / width) - thicknessSubstrate

end Optika
