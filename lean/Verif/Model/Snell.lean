import Verif.Model.Numeric

/-!
# Vector form of Snell's law

`optika/materials/_snells_law.py`.
-/

namespace Optika

/-- `optika/materials/_snells_law.py` lines 341–366 (`_snells_law_numba`), called by
`snells_law` (lines 271–291) with all units stripped.  `none` stands for a result that is
not finite (square root of a negative number, vanishing index). -/
noncomputable def snellsLaw (a : V3) (n1 n2 : ℝ) (isMirror : Bool) (u : V3) : Option V3 := do
  let a2 := a.x * a.x + a.y * a.y + a.z * a.z
  let r ← div? n1 n2
  let r2 := r * r
  let au := a.x * u.x + a.y * u.y + a.z * u.z
  let au2 := au * au
  let sgn := -copysign1 au
  let q ← div? 1 r2
  let s ← sqrt? (q + au2 - a2)
  let d := -au + sgn * (2 * (if isMirror then 1 else 0) - 1) * s
  return ⟨r * (a.x + d * u.x), r * (a.y + d * u.y), r * (a.z + d * u.z)⟩

/-- `snells_law` with `normal=None`: `optika/materials/_snells_law.py` lines 271–272. -/
noncomputable def snellsLawDefault (a : V3) (n1 n2 : ℝ) (isMirror : Bool) : Option V3 :=
  snellsLaw a n1 n2 isMirror ⟨0, 0, -1⟩

end Optika
