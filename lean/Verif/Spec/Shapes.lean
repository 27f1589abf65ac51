import Mathlib.Data.List.Nodup

/-!
# Shapes of arrays

A shape is a finite map from names of axes to lengths.  What it means for values of some shapes to
broadcast to a common shape is said here without reference to the code.
-/

namespace Optika

/-- A `dict` from axes to lengths. -/
structure ArrayShape where
  entries : List (String × ℕ)
  nodup : (entries.map Prod.fst).Nodup

/-- The shape of a number. -/
def ArrayShape.scalar : ArrayShape := ⟨[], List.nodup_nil⟩

/-- The shape with a single axis. -/
def ArrayShape.axis (a : String) (n : ℕ) : ArrayShape := ⟨[(a, n)], by simp⟩

/-- The shape without the given axes. -/
def ArrayShape.without (s : ArrayShape) (axes : List String) : ArrayShape :=
  ⟨s.entries.filter fun e => e.1 ∉ axes, s.nodup.sublist (List.filter_sublist.map _)⟩

/-- The length along an axis, if there is such an axis. -/
def ArrayShape.size (s : ArrayShape) (a : String) : Option ℕ := s.entries.lookup a

/-- Values of the shape `p` can be broadcast to the shape `s`: every axis of `p` is an axis of `s`, of the
same length unless it has length one. -/
def Fits (p s : ArrayShape) : Prop :=
  ∀ a n, p.size a = some n → s.size a = some n ∨ (n = 1 ∧ ∃ m, s.size a = some m)

/-- All values can be broadcast to the shape `s`. -/
def CommonShape (s : ArrayShape) (parts : List ArrayShape) : Prop := ∀ p ∈ parts, Fits p s

/-- `s` is the smallest shape to which all values can be broadcast. -/
def LeastShape (s : ArrayShape) (parts : List ArrayShape) : Prop :=
  CommonShape s parts ∧ ∀ t, CommonShape t parts → Fits s t

/-- `x` is the shape of an object made of parts of the given shapes: the smallest common shape, or an
exception (`none`) if there is none. -/
def IsShapeOf (x : Option ArrayShape) (parts : List ArrayShape) : Prop :=
  match x with
  | some s => LeastShape s parts
  | none => ¬ ∃ s, CommonShape s parts

end Optika
