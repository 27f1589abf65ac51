import Mathlib.Analysis.SpecialFunctions.Exp
import Mathlib.Analysis.SpecialFunctions.Trigonometric.Basic

/-!
# Plane waves in a stack of slabs

In every medium there is a wave that travels towards the substrate and one that travels back, with
amplitudes `f` and `b` of the electric field; in the substrate, there is only the first, with the
amplitude `t`.  The components of the electric and magnetic fields along each boundary are
continuous.  Within a slab the phase of the waves advances by `2π n h c / λ`.
-/

namespace Optika
open Complex

/-- A slab: complex index, cosine of the angle between the wave and the normal, and thickness. -/
structure Slab where
  n : ℂ
  c : ℂ
  h : ℝ

/-- The factor by which the wave towards the substrate changes from one side of the slab to the
other. -/
noncomputable def Slab.phase (w : ℝ) (s : Slab) : ℂ := exp (I * (2 * Real.pi * s.h * s.n * s.c / w))

/-- The electric field is perpendicular to the plane of incidence.  `f` and `b` are the amplitudes on
the left side of the first boundary, in a medium with index `n` and cosine `c`; `ns` and `cs` belong to
the substrate behind the slabs. -/
def WavesS (w : ℝ) (ns cs t : ℂ) : (n c f b : ℂ) → List Slab → Prop
  | n, c, f, b, [] => f + b = t ∧ n * c * (f - b) = ns * cs * t
  | n, c, f, b, s :: L => ∃ f' b', f + b = f' + b' ∧ n * c * (f - b) = s.n * s.c * (f' - b') ∧
      WavesS w ns cs t s.n s.c (f' * s.phase w) (b' / s.phase w) L

/-- The magnetic field is perpendicular to the plane of incidence. -/
def WavesP (w : ℝ) (ns cs t : ℂ) : (n c f b : ℂ) → List Slab → Prop
  | n, c, f, b, [] => n * (f + b) = ns * t ∧ c * (f - b) = cs * t
  | n, c, f, b, s :: L => ∃ f' b', n * (f + b) = s.n * (f' + b') ∧ c * (f - b) = s.c * (f' - b') ∧
      WavesP w ns cs t s.n s.c (f' * s.phase w) (b' / s.phase w) L

end Optika
