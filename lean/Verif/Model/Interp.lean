import Verif.Model.Surface
import Mathlib.Analysis.SpecialFunctions.Trigonometric.Basic

/-!
# Linear interpolation in tables

`na.interp`, taken to be `numpy.interp` for each element, as used by the measured mirror
(`optika/materials/_materials.py` lines 279–305), measured rulings (`optika/rulings/_rulings.py`
lines 287–313), optical constants (`optika/chemicals/_chemicals.py` lines 101–144), effective areas
(`optika/radiometry/_effective_area.py` lines 93–102) and properties of silicon
(`optika/sensors/materials/_ramanathan_2020/_ramanathan_2020.py`).
-/

namespace Optika

/-- The search for the interval and the interpolation in it, for `x` not before the first point. -/
noncomputable def interpFrom (p : ℝ × ℝ) : List (ℝ × ℝ) → ℝ → ℝ
  | [], _ => p.2
  | q :: r, x =>
    if x < q.1 then (q.2 - p.2) / (q.1 - p.1) * (x - p.1) + p.2 else interpFrom q r x

/-- `numpy.interp(x, xp, fp, left=left, right=right)`: raises an exception for an empty table. -/
noncomputable def interp (left right : Option ℝ) : List (ℝ × ℝ) → ℝ → Option ℝ
  | [], _ => none
  | p :: r, x =>
    if x < p.1 then some (left.getD p.2)
    else if ((p :: r).getLast (List.cons_ne_nil p r)).1 < x then
      some (right.getD ((p :: r).getLast (List.cons_ne_nil p r)).2)
    else some (interpFrom p r x)

/-- `MeasuredMirror.efficiency`, `MeasuredRulings.efficiency`: interpolate in wavelength. -/
noncomputable def measuredEfficiency (table : List (ℝ × ℝ)) (rays : Ray) : Option ℝ :=
  interp none none table rays.wavelength

/-- `InterpolatedEffectiveAreaModel.__call__`. -/
noncomputable def effectiveArea (table : List (ℝ × ℝ)) (wavelength : ℝ) : Option ℝ :=
  interp none none table wavelength

/-- `Chemical.n`: real and imaginary part are interpolated; `table` has wavelength, `n` and `k`. -/
noncomputable def chemicalN (table : List (ℝ × ℝ × ℝ)) (wavelength : ℝ) : Option (ℝ × ℝ) := do
  let n ← interp none none (table.map fun t => (t.1, t.2.1)) wavelength
  let k ← interp none none (table.map fun t => (t.1, t.2.2)) wavelength
  return (n, k)

/-- `Chemical.absorption`, lines 164–178. -/
noncomputable def chemicalAbsorption (table : List (ℝ × ℝ × ℝ)) (wavelength : ℝ) : Option ℝ := do
  let (_, k) ← chemicalN table wavelength
  div? (4 * Real.pi * k) wavelength

end Optika
