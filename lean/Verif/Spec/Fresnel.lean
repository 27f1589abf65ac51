import Mathlib.Data.Complex.Basic

/-!
# Waves at an interface

Amplitudes of the electric field relative to the incident wave: `r` reflected, `t` transmitted, at
the boundary between media of index `n₁` and `n₂`, in which the waves travel at angles with cosine
`c₁` and `c₂` to the normal.  The components of the electric and magnetic fields along the boundary
are continuous.
-/

namespace Optika

/-- The electric field is perpendicular to the plane of incidence. -/
structure ContinuousS (n₁ c₁ n₂ c₂ r t : ℂ) : Prop where
  electric : 1 + r = t
  magnetic : n₁ * c₁ * (1 - r) = n₂ * c₂ * t

/-- The magnetic field is perpendicular to the plane of incidence. -/
structure ContinuousP (n₁ c₁ n₂ c₂ r t : ℂ) : Prop where
  electric : c₁ * (1 - r) = c₂ * t
  magnetic : n₁ * (1 + r) = n₂ * t

end Optika
