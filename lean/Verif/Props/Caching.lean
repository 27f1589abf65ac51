import Verif.Model.Caching
import Verif.Props.System

/-!
# C74: results follow the parameters of the system

What a user expects from an object: `rayfunction_default` and `rayfunction(...)` give what a new
object with the present parameters would give.
-/

namespace Optika
open V3

/-- The answer of a new object with the given parameters. -/
noncomputable def freshAnswer (s : System) (c : Call) : Option Ray := s.rayfunction c none

/-- The caches hold nothing, or what the present parameters give. -/
def SystemObject.Current (o : SystemObject) : Prop :=
  (o.input = none ∨ o.input = o.params.calcInput o.params.gridInput true true) ∧
  (o.default = none ∨ o.default = freshAnswer o.params noArguments)

theorem noArguments_default : noArguments.IsDefault := ⟨rfl, rfl, rfl⟩

/-- Traces from the current cache are those of a new object. -/
theorem raytrace_current (s : System) (c : Call) (cache : Option Ray)
    (h : cache = none ∨ cache = s.calcInput s.gridInput true true) :
    (s.raytrace c cache).1 = (s.raytrace c none).1 ∧
    s.rayfunction c cache = freshAnswer s c := by
  have h1 : (s.raytrace c cache).1 = (s.raytrace c none).1 := by
    by_cases hc : c.IsDefault
    · rw [raytrace_default s c hc, raytrace_default s c hc]
      rcases h with rfl | rfl
      · rfl
      · cases s.calcInput s.gridInput true true <;> simp
    · exact (C23_explicit_grid s c hc _).1
  refine ⟨h1, ?_⟩
  unfold freshAnswer System.rayfunction
  rw [h1]

theorem cache_current (s : System) (c : Call) (cache : Option Ray)
    (h : cache = none ∨ cache = s.calcInput s.gridInput true true)
    (hi : c.IsDefault → c.intensity = none) :
    (s.raytrace c cache).2 = none ∨
      (s.raytrace c cache).2 = s.calcInput s.gridInput true true := by
  by_cases hc : c.IsDefault
  · rw [raytrace_default s c hc, hi hc]
    rcases h with rfl | rfl <;> cases s.calcInput s.gridInput true true <;> simp [setIntensity]
  · rw [(C23_explicit_grid s c hc cache).2.1]; exact h

/-- Operations after which the caches agree with the parameters: no attribute is assigned, and no
intensity is given together with the default grid (see `C23_history_counterexample`). -/
def SystemObject.Op.Harmless : SystemObject.Op → Prop
  | .assign _ => False
  | .call c => c.IsDefault → c.intensity = none
  | _ => True

theorem step_current (o : SystemObject) (op : SystemObject.Op) (h : o.Current)
    (hop : op.Harmless) : (o.step op).1.Current := by
  obtain ⟨hi, hd⟩ := h
  cases op with
  | replace s => exact ⟨.inl rfl, .inl rfl⟩
  | assign s => exact hop.elim
  | delDefault => exact ⟨hi, .inl rfl⟩
  | delInput => exact ⟨.inl rfl, hd⟩
  | call c => exact ⟨cache_current _ _ _ hi hop, hd⟩
  | read =>
    unfold SystemObject.step
    cases hdef : o.default with
    | some r => exact ⟨hi, hd⟩
    | none =>
      exact ⟨cache_current _ _ _ hi fun _ => rfl, .inr (raytrace_current _ _ _ hi).2⟩

theorem run_current (o : SystemObject) (ops : List SystemObject.Op) (h : o.Current)
    (hops : ∀ op ∈ ops, op.Harmless) : (o.run ops).Current := by
  induction ops generalizing o with
  | nil => exact h
  | cons op ops ih =>
    exact ih _ (step_current o op h (hops _ List.mem_cons_self))
      fun op' h' => hops op' (List.mem_cons_of_mem _ h')

theorem read_current (o : SystemObject) (h : o.Current) :
    (o.step .read).2 = freshAnswer o.params noArguments := by
  obtain ⟨hi, hd⟩ := h
  unfold SystemObject.step
  cases hdef : o.default with
  | some r =>
    rcases hd with hd | hd
    · rw [hdef] at hd; cases hd
    · rw [hdef] at hd; exact hd
  | none => exact (raytrace_current _ _ _ hi).2

/-- **C74** (partial): whatever was read, called, cleared or replaced before, the cached property
and every call answer as a new object with the present parameters does.  Missing: histories in
which an attribute is assigned; there it is false, see below. -/
theorem C74_history_partial (s : System) (ops : List SystemObject.Op)
    (h : ∀ op ∈ ops, op.Harmless) (c : Call) :
    let o := (SystemObject.new s).run ops
    (o.step .read).2 = freshAnswer o.params noArguments ∧
    (o.step (.call c)).2 = freshAnswer o.params c := by
  intro o
  have ho : o.Current := run_current _ ops ⟨.inl rfl, .inl rfl⟩ h
  exact ⟨read_current o ho, (raytrace_current _ _ _ ho.1).2⟩

/-- **C74** (partial): a call which gives the wavelength, the field or the pupil uses the present
parameters, whatever was done before, assignments included. -/
theorem C74_explicit (s : System) (ops : List SystemObject.Op) (c : Call) (hc : ¬c.IsDefault) :
    let o := (SystemObject.new s).run ops
    (o.step (.call c)).2 = freshAnswer o.params c := by
  intro o
  exact (C23_explicit_grid _ c hc _).2.2

/-- **C74** (partial): after the attributes were assigned, the property follows them once *both*
caches are cleared, the documented one and the private one, and however it is used from then on. -/
theorem C74_clear_both_partial (s s' : System) (before after : List SystemObject.Op)
    (h : ∀ op ∈ after, op.Harmless) :
    let o := (SystemObject.new s).run (before ++ [.assign s', .delDefault, .delInput] ++ after)
    (o.step .read).2 = freshAnswer o.params noArguments := by
  intro o
  have ho : o = (SystemObject.new s').run after := by
    simp only [o, SystemObject.run, List.foldl_append, List.foldl_cons, List.foldl_nil,
      SystemObject.step, SystemObject.new]
  rw [ho]
  exact (C74_history_partial s' after h noArguments).1

/-- **C74** (partial): before anything was traced, attributes can be assigned freely. -/
theorem C74_assign_first (s s' : System) :
    (((SystemObject.new s).run [.assign s']).step .read).2 = freshAnswer s' noArguments :=
  read_current _ ⟨.inl rfl, .inl rfl⟩

/-! ### The documented way to clear the cache -/

/-- Two planes, with one ray at the given height in the pupil. -/
noncomputable def planesAt (x : ℝ) : System := { planes none with gridInput := ⟨1, ⟨0, 0⟩, ⟨x, 0⟩⟩ }

theorem planesAt_input (x : ℝ) :
    (planesAt x).calcInput (planesAt x).gridInput true true
      = some ⟨1, ⟨x, 0, 0⟩, ⟨0, 0, 1⟩, 1, 0, 1, true⟩ := by
  simp [System.calcInput, planesAt, planes, denormalizeGrid, Extent.denormalize, directionOf]
  ring

theorem planesAt_trace (x y : ℝ) : (planesAt x).trace ⟨1, ⟨y, 0, 0⟩, ⟨0, 0, 1⟩, 1, 0, 1, true⟩ =
    some [some ⟨1, ⟨y, 0, 0⟩, ⟨0, 0, 1⟩, 1, 0, 1, true⟩,
      some ⟨1, ⟨y, 0, 0⟩, ⟨0, 0, 1⟩, 1, 0, 1, true⟩] := by
  have hall : (planesAt x).all =
      some [⟨flatSag, vacuum, none, none, none⟩, ⟨flatSag, vacuum, none, none, none⟩] := by
    simp [System.all, surfacesAll, planesAt, planes]
  have ht : (planesAt x).transformation = none := rfl
  simp [System.trace, hall, accumulateRays, accumulateLoop,
    Propagators.toList, Surface.step, plane_propagate, ht]

theorem planesAt_rayfunction (x : ℝ) (cache : Option Ray) (y : ℝ)
    (h : (cache.orElse fun _ => (planesAt x).calcInput (planesAt x).gridInput true true)
      = some ⟨1, ⟨y, 0, 0⟩, ⟨0, 0, 1⟩, 1, 0, 1, true⟩) :
    (planesAt x).rayfunction noArguments cache
      = some ⟨1, ⟨y, 0, 0⟩, ⟨0, 0, 1⟩, 1, 0, 1, true⟩ ∧
    ((planesAt x).raytrace noArguments cache).2
      = some ⟨1, ⟨y, 0, 0⟩, ⟨0, 0, 1⟩, 1, 0, 1, true⟩ := by
  have hs : (planesAt x).sensor.surface.transformation = none := rfl
  constructor
  · unfold System.rayfunction
    rw [raytrace_default _ _ noArguments_default, h]
    simp [noArguments, setIntensity, planesAt_trace, hs]
  · rw [raytrace_default _ _ noArguments_default, h]
    rfl

/-- Disagreement with C74: the documentation of `rayfunction_default` says that after an update of
`grid_input` the cache is cleared with `del system.rayfunction_default`.  Doing so, the property
still returns the rays of the old grid, because the private cached input was not cleared: the ray
at the centre of the pupil rather than the one at height 1/2. -/
theorem C74_delete_counterexample :
    let o := (SystemObject.new (planesAt 0)).run [.read, .assign (planesAt (1 / 2)), .delDefault]
    o.params = planesAt (1 / 2) ∧
    (o.step .read).2 = some ⟨1, ⟨0, 0, 0⟩, ⟨0, 0, 1⟩, 1, 0, 1, true⟩ ∧
    freshAnswer o.params noArguments = some ⟨1, ⟨1 / 2, 0, 0⟩, ⟨0, 0, 1⟩, 1, 0, 1, true⟩ := by
  have h0 := planesAt_rayfunction 0 none 0 (planesAt_input 0)
  have h1 := planesAt_rayfunction (1 / 2) none (1 / 2) (planesAt_input _)
  have h2 := planesAt_rayfunction (1 / 2) (some ⟨1, ⟨0, 0, 0⟩, ⟨0, 0, 1⟩, 1, 0, 1, true⟩) 0 rfl
  refine ⟨?_, ?_, h1.1⟩
  · simp [SystemObject.run, SystemObject.step, SystemObject.new]
  · simp only [SystemObject.run, SystemObject.step, SystemObject.new, List.foldl, h0.2]
    exact h2.1

/-- Hypotheses of the theorems: a history of reads, calls, clearings and replacements. -/
example : ∀ op ∈ ([.read, .call noArguments, .call ⟨some 2, some 1, none, none, true, true⟩,
    .delDefault, .replace (planesAt 1), .read] : List SystemObject.Op), op.Harmless := by
  simp [SystemObject.Op.Harmless, Call.IsDefault, noArguments]

example : ¬(⟨none, some 1, none, none, true, true⟩ : Call).IsDefault := by simp [Call.IsDefault]

end Optika
