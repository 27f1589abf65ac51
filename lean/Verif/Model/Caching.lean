import Verif.Model.System

/-!
# A system as an object with cached properties

`optika/systems/_sequential.py`, lines 830–1002.  The object holds its parameters, which can be
assigned, and the values of two cached properties: `_rayfunction_input` (lines 830–834) and
`rayfunction_default` (lines 990–1001).  An assignment of a parameter leaves both as they are.
-/

namespace Optika

/-- A system object: its parameters and `__dict__["_rayfunction_input"]` and
`__dict__["rayfunction_default"]`. -/
structure SystemObject where
  params : System
  input : Option Ray
  default : Option Ray

/-- What can be done with a system object. -/
inductive SystemObject.Op where
  /-- `system = dataclasses.replace(system, ...)` or a new object. -/
  | replace (s : System)
  /-- Assignment to an attribute, such as `system.grid_input = ...`. -/
  | assign (s : System)
  /-- `del system.rayfunction_default` -/
  | delDefault
  /-- `del system._rayfunction_input` -/
  | delInput
  /-- `system.rayfunction_default` -/
  | read
  /-- `system.rayfunction(...)` -/
  | call (c : Call)

/-- The arguments of `self.rayfunction()`, lines 927–935: all of them have their defaults. -/
def noArguments : Call := ⟨none, none, none, none, true, true⟩

/-- One operation: the object afterwards, and the value of `rayfunction_default` or of
`rayfunction(...)`.  A cached property stores the value only if no exception is raised. -/
noncomputable def SystemObject.step (o : SystemObject) : SystemObject.Op → SystemObject × Option Ray
  | .replace s => (⟨s, none, none⟩, none)
  | .assign s => ({ o with params := s }, none)
  | .delDefault => ({ o with default := none }, none)
  | .delInput => ({ o with input := none }, none)
  | .read =>
    match o.default with
    | some r => (o, some r)
    | none =>
      let r := o.params.rayfunction noArguments o.input
      ({ o with input := (o.params.raytrace noArguments o.input).2, default := r }, r)
  | .call c => ({ o with input := (o.params.raytrace c o.input).2 },
      o.params.rayfunction c o.input)

/-- A new object. -/
def SystemObject.new (s : System) : SystemObject := ⟨s, none, none⟩

/-- The object after a number of operations. -/
noncomputable def SystemObject.run (o : SystemObject) (ops : List SystemObject.Op) : SystemObject :=
  ops.foldl (fun o op => (o.step op).1) o

end Optika
