import Verif.Model.LayerPicture

/-! # C117 -/

namespace Optika

mutual

/-- The layers of a stack in the order in which light strikes them, of periodic sequences one period. -/
def Stack.once : Stack → List Layer
  | .layer l => [l]
  | .sequence ls => onceAll ls
  | .periodic ls _ => onceAll ls

/-- The same for a list. -/
def onceAll : List Stack → List Layer
  | [] => []
  | s :: ls => s.once ++ onceAll ls

end

mutual

/-- No part of the stack is a periodic sequence. -/
def Stack.Aperiodic : Stack → Prop
  | .layer _ => True
  | .sequence ls => AperiodicAll ls
  | .periodic _ _ => False

/-- The same for a list. -/
def AperiodicAll : List Stack → Prop
  | [] => True
  | s :: ls => s.Aperiodic ∧ AperiodicAll ls

end

/-- Rectangles that lie on top of each other without gap or overlap, from one height to another. -/
inductive Stacked : ℝ → List Bar → ℝ → Prop
  | nil (z : ℝ) : Stacked z [] z
  | cons {b : Bar} {bs : List Bar} {z z' : ℝ} (h : b.bottom = z) (hs : Stacked (z + b.height) bs z') :
      Stacked z (b :: bs) z'

theorem Stacked.append {z z' z'' : ℝ} {a b : List Bar} (ha : Stacked z a z') (hb : Stacked z' b z'') :
    Stacked z (a ++ b) z'' := by
  induction ha with
  | nil => exact hb
  | cons h _ ih => exact .cons h (ih hb)

mutual

theorem plot_order (x w : ℝ) : ∀ (s : Stack) (z : ℝ), (s.plot x w z).map (·.layer) = s.once.reverse
  | .layer l, z => by simp [Stack.plot, Stack.once, Layer.bar]
  | .sequence ls, z => by
    simp only [Stack.plot, Stack.once]
    exact plotAll_order x w ls z
  | .periodic ls _, z => by
    simp only [Stack.plot, Stack.once]
    exact plotAll_order x w ls z

theorem plotAll_order (x w : ℝ) : ∀ (ls : List Stack) (z : ℝ),
    (plotAll x w ls z).1.map (·.layer) = (onceAll ls).reverse
  | [], z => by simp [plotAll, onceAll]
  | s :: ls, z => by
    simp only [plotAll, onceAll, List.map_append, List.reverse_append]
    rw [plotAll_order x w ls z, plot_order x w s]

end

mutual

theorem plot_shape (x w : ℝ) : ∀ (s : Stack) (z : ℝ), ∀ b ∈ s.plot x w z,
    b.height = b.layer.thickness ∧ b.x = x ∧ b.width = w
  | .layer l, z => by
    intro b hb
    simp only [Stack.plot, List.mem_singleton] at hb
    subst hb
    exact ⟨rfl, rfl, rfl⟩
  | .sequence ls, z => by
    simp only [Stack.plot]
    exact plotAll_shape x w ls z
  | .periodic ls _, z => by
    simp only [Stack.plot]
    exact plotAll_shape x w ls z

theorem plotAll_shape (x w : ℝ) : ∀ (ls : List Stack) (z : ℝ), ∀ b ∈ (plotAll x w ls z).1,
    b.height = b.layer.thickness ∧ b.x = x ∧ b.width = w
  | [], z => by simp [plotAll]
  | s :: ls, z => by
    intro b hb
    simp only [plotAll, List.mem_append] at hb
    rcases hb with hb | hb
    · exact plotAll_shape x w ls z b hb
    · exact plot_shape x w s _ b hb

end

/-- **C117**: the picture of a stack shows one rectangle for every layer, of periodic sequences one period,
in the order in which light from above strikes them, each as high as the layer is thick. -/
theorem C117_order (x w : ℝ) (s : Stack) (z : ℝ) :
    (s.plot x w z).reverse.map (·.layer) = s.once ∧
      ∀ b ∈ s.plot x w z, b.height = b.layer.thickness ∧ b.x = x ∧ b.width = w := by
  refine ⟨?_, plot_shape x w s z⟩
  rw [List.map_reverse, plot_order, List.reverse_reverse]

theorem thicknessAll_start : ∀ (ls : List Stack) (a : ℝ), thicknessAll ls a = a + thicknessAll ls 0
  | [], a => by simp [thicknessAll]
  | s :: ls, a => by
    simp only [thicknessAll]
    rw [thicknessAll_start ls (a + s.thickness), thicknessAll_start ls (0 + s.thickness)]
    ring

theorem thicknessAll_cons (s : Stack) (ls : List Stack) :
    thicknessAll (s :: ls) 0 = s.thickness + thicknessAll ls 0 := by
  rw [thicknessAll, thicknessAll_start]
  ring

theorem sequence_thickness (ls : List Stack) : (Stack.sequence ls).thickness = thicknessAll ls 0 := by
  simp only [Stack.thickness]

theorem aperiodic_thicknessPlot {s : Stack} (h : s.Aperiodic) : s.thicknessPlot = s.thickness := by
  cases s with
  | layer l => simp only [Stack.thicknessPlot, Stack.thickness]
  | sequence ls => rfl
  | periodic ls n => simp only [Stack.Aperiodic] at h

mutual

theorem aperiodic_once : ∀ s : Stack, s.Aperiodic → s.thickness = (s.once.map (·.thickness)).sum
  | .layer l, _ => by simp [Stack.thickness, Stack.once]
  | .sequence ls, h => by
    simp only [Stack.Aperiodic] at h
    simp only [Stack.thickness, Stack.once]
    exact aperiodicAll_once ls h
  | .periodic _ _, h => by simp only [Stack.Aperiodic] at h

theorem aperiodicAll_once : ∀ ls : List Stack, AperiodicAll ls →
    thicknessAll ls 0 = ((onceAll ls).map (·.thickness)).sum
  | [], _ => by simp [thicknessAll, onceAll]
  | s :: ls, h => by
    simp only [AperiodicAll] at h
    rw [thicknessAll_cons, aperiodic_once s h.1, aperiodicAll_once ls h.2, onceAll, List.map_append,
      List.sum_append]

end

mutual

theorem aperiodic_stacked (x w : ℝ) : ∀ (s : Stack) (z : ℝ), s.Aperiodic →
    Stacked z (s.plot x w z) (z + s.thickness)
  | .layer l, z, _ => by
    simp only [Stack.plot, Stack.thickness]
    exact .cons rfl (.nil _)
  | .sequence ls, z, h => by
    simp only [Stack.Aperiodic] at h
    simp only [Stack.plot, Stack.thickness]
    have := aperiodicAll_stacked x w ls z h
    rw [this.2] at this
    exact this.1
  | .periodic _ _, z, h => by simp only [Stack.Aperiodic] at h

theorem aperiodicAll_stacked (x w : ℝ) : ∀ (ls : List Stack) (z : ℝ), AperiodicAll ls →
    Stacked z (plotAll x w ls z).1 (plotAll x w ls z).2 ∧
      (plotAll x w ls z).2 = z + thicknessAll ls 0
  | [], z, _ => by
    simp only [plotAll, thicknessAll, add_zero, and_true]
    exact .nil z
  | s :: ls, z, h => by
    simp only [AperiodicAll] at h
    obtain ⟨h1, h2⟩ := aperiodicAll_stacked x w ls z h.2
    have h3 := aperiodic_stacked x w s (plotAll x w ls z).2 h.1
    simp only [plotAll]
    rw [aperiodic_thicknessPlot h.1]
    refine ⟨h1.append h3, ?_⟩
    rw [h2, thicknessAll_cons]
    ring

end

/-- A stack is simple if only the elements of its outermost list are periodic sequences. -/
def Stack.Simple : Stack → Prop
  | .layer _ => True
  | .periodic ls _ => AperiodicAll ls
  | .sequence ls => ∀ s ∈ ls, s.Aperiodic ∨ ∃ ms n, s = .periodic ms n ∧ AperiodicAll ms

/-- The thickness of a list of layers. -/
noncomputable def totalThickness (ls : List Layer) : ℝ := (ls.map (·.thickness)).sum

theorem simple_element (x w : ℝ) {s : Stack}
    (h : s.Aperiodic ∨ ∃ ms n, s = .periodic ms n ∧ AperiodicAll ms) (z : ℝ) :
    Stacked z (s.plot x w z) (z + s.thicknessPlot) ∧ s.thicknessPlot = totalThickness s.once := by
  rcases h with h | ⟨ms, n, rfl, h⟩
  · rw [aperiodic_thicknessPlot h]
    exact ⟨aperiodic_stacked x w s z h, aperiodic_once s h⟩
  · have := aperiodicAll_stacked x w ms z h
    rw [this.2] at this
    have e : (Stack.periodic ms n).thicknessPlot = thicknessAll ms 0 := sequence_thickness ms
    rw [e]
    simp only [Stack.plot, Stack.once]
    exact ⟨this.1, aperiodicAll_once ms h⟩

theorem simple_list (x w : ℝ) : ∀ (ls : List Stack) (z : ℝ),
    (∀ s ∈ ls, s.Aperiodic ∨ ∃ ms n, s = .periodic ms n ∧ AperiodicAll ms) →
    Stacked z (plotAll x w ls z).1 (plotAll x w ls z).2 ∧
      (plotAll x w ls z).2 = z + totalThickness (onceAll ls)
  | [], z, _ => by
    simp only [plotAll, onceAll, totalThickness, List.map_nil, List.sum_nil, add_zero, and_true]
    exact .nil z
  | s :: ls, z, h => by
    obtain ⟨h1, h2⟩ := simple_list x w ls z fun s hs => h s (List.mem_cons_of_mem _ hs)
    obtain ⟨h3, h4⟩ := simple_element x w (h s List.mem_cons_self) (plotAll x w ls z).2
    simp only [plotAll]
    refine ⟨h1.append h3, ?_⟩
    rw [h2, h4, onceAll]
    unfold totalThickness
    rw [List.map_append, List.sum_append]
    ring

/-- **C117**: the layers of a simple stack are drawn on top of each other without gap or overlap, from the
given height on, as high as they are thick together. -/
theorem C117_stacked_partial (x w : ℝ) {s : Stack} (h : s.Simple) (z : ℝ) :
    Stacked z (s.plot x w z) (z + totalThickness s.once) := by
  cases s with
  | layer l =>
    have := simple_element x w (s := .layer l) (.inl (by simp only [Stack.Aperiodic])) z
    rw [this.2] at this
    exact this.1
  | sequence ls =>
    simp only [Stack.Simple] at h
    simp only [Stack.plot, Stack.once]
    have := simple_list x w ls z h
    rw [this.2] at this
    exact this.1
  | periodic ls n =>
    simp only [Stack.Simple] at h
    have := simple_element x w (.inr ⟨ls, n, rfl, h⟩) z
    rw [this.2] at this
    exact this.1

/-- **C117**: the brace beside a periodic sequence reaches from the lower edge of its last layer to the
upper edge of its first layer. -/
theorem C117_brace_partial (x w : ℝ) {ls : List Stack} (h : AperiodicAll ls) (n : ℕ) (z : ℝ) :
    Stacked (braceEnds ls z).1 ((Stack.periodic ls n).plot x w z) (braceEnds ls z).2 := by
  have := aperiodicAll_stacked x w ls z h
  rw [this.2] at this
  simp only [Stack.plot, braceEnds, sequence_thickness]
  exact this.1

/-- **C117**: the label of a layer that is drawn at the left edge, as in all pictures of coatings, has an
arrow that points to the layer. -/
theorem C117_label_partial (label : Option ℝ) {w : ℝ} (hw : 0 < w) (l : Layer) (ht : 0 ≤ l.thickness)
    (z : ℝ) :
    0 ≤ (labelPositions label 0 w).2 ∧ (labelPositions label 0 w).2 ≤ 0 + w ∧
      (l.bar 0 w z).bottom ≤ l.labelHeight z ∧
      l.labelHeight z ≤ (l.bar 0 w z).bottom + (l.bar 0 w z).height := by
  unfold labelPositions Layer.labelHeight Layer.bar
  refine ⟨?_, ?_, by simp only; linarith, by simp only; linarith⟩
  · dsimp only
    split_ifs with h1 h2
    · exact le_refl 0
    · exact h2.1.le
    · exact hw.le
  · dsimp only
    split_ifs with h1 h2
    · linarith
    · exact h2.2.le
    · linarith

/-- **C117**: the substrate of a mirror is drawn below all of its layers. -/
theorem C117_substrate {t : ℝ} (ht : 0 < t) (w x : ℝ) : substrateEdge t w x < 0 := by
  unfold substrateEdge
  have := Real.sin_le_one (2 * Real.pi * x / w)
  nlinarith

/-! ### Cases -/

/-- A layer of some thickness. -/
noncomputable def slab (thickness : ℝ) : Layer := ⟨fun _ => 1, thickness, none⟩

example : (Stack.sequence [.layer (slab 4), .periodic [.layer (slab 1), .layer (slab 2)] 10]).plot 0 5 0 =
    [⟨slab 2, 0, 5, 0, 2⟩, ⟨slab 1, 0, 5, 2, 1⟩, ⟨slab 4, 0, 5, 3, 4⟩] := by
  simp [Stack.plot, plotAll, Stack.thicknessPlot, Stack.thickness, thicknessAll, Layer.bar, slab]
  norm_num

example : (Stack.sequence [.layer (slab 4), .periodic [.layer (slab 1), .layer (slab 2)] 10]).Simple := by
  intro s hs
  simp only [List.mem_cons, List.not_mem_nil, or_false] at hs
  rcases hs with rfl | rfl
  · exact .inl trivial
  · exact .inr ⟨_, _, rfl, by simp [AperiodicAll, Stack.Aperiodic]⟩

/-- **C117**: a periodic sequence inside of a sequence inside of a sequence is drawn as one period and
leaves room for all of them, so that the next layer floats above a gap. -/
theorem C117_nested_counterexample :
    (Stack.sequence [.layer (slab 4), .sequence [.periodic [.layer (slab 1)] 10]]).plot 0 5 0 =
      [⟨slab 1, 0, 5, 0, 1⟩, ⟨slab 4, 0, 5, 10, 4⟩] ∧
    ∀ z, ¬ Stacked 0
      ((Stack.sequence [.layer (slab 4), .sequence [.periodic [.layer (slab 1)] 10]]).plot 0 5 0) z := by
  have h : (Stack.sequence [.layer (slab 4), .sequence [.periodic [.layer (slab 1)] 10]]).plot 0 5 0 =
      [⟨slab 1, 0, 5, 0, 1⟩, ⟨slab 4, 0, 5, 10, 4⟩] := by
    simp [Stack.plot, plotAll, Stack.thicknessPlot, Stack.thickness, thicknessAll, Layer.bar, slab]
  refine ⟨h, fun z hz => ?_⟩
  rw [h] at hz
  cases hz with
  | cons _ hs =>
    cases hs with
    | cons h _ => norm_num at h

/-- **C117**: the brace beside a periodic sequence that contains another one is longer than the layers that
are drawn. -/
theorem C117_brace_counterexample :
    (Stack.periodic [.periodic [.layer (slab 1)] 10] 2).plot 0 5 0 = [⟨slab 1, 0, 5, 0, 1⟩] ∧
      braceEnds [.periodic [.layer (slab 1)] 10] 0 = (0, 10) := by
  constructor
  · simp [Stack.plot, plotAll, Layer.bar, slab]
  · simp [braceEnds, Stack.thickness, thicknessAll, slab]

/-- **C117**: a label to the left of a layer that is drawn from five to six has an arrow that points to
zero. -/
theorem C117_label_counterexample :
    (labelPositions (some 1) 5 1).2 = 0 ∧ ¬ (5 : ℝ) ≤ (labelPositions (some 1) 5 1).2 := by
  have : (labelPositions (some 1) 5 1).2 = 0 := by
    unfold labelPositions
    norm_num
  rw [this]
  norm_num

end Optika
