import Verif.Model.Sags

/-!
# Sags whose intercept is solved for

`AbstractSag.intercept`, `optika/sags/_abc.py` lines 76–110, which `ToroidalSag` and sags defined by a
user inherit.
-/

namespace Optika

/-- `na.optimize.root_secant`: raises an exception (`none`) if it does not converge. Idealised: the
residual at the result is zero, whereas the iteration stops at a step below `min_step_size`
(`TolerantLineSolver`). -/
structure LineSolver where
  find : (ℝ → Option ℝ) → ℝ → Option ℝ
  root : ∀ f guess t, find f guess = some t → f t = some 0

/-- `na.optimize.root_secant` with a residual that is at most `error`. -/
structure TolerantLineSolver (error : ℝ) where
  find : (ℝ → Option ℝ) → ℝ → Option ℝ
  close : ∀ f guess t, find f guess = some t → ∃ e, f t = some e ∧ |e| ≤ error

/-- `AbstractSag.intercept`, `optika/sags/_abc.py` lines 76–107: `line`, `func`, and the root found from
the guess zero. `height` is `__call__`, including what it does with the transformation. -/
noncomputable def solvedInterceptFound (find : (ℝ → Option ℝ) → ℝ → Option ℝ) (height : V3 → Option ℝ)
    (o u : V3) : Option V3 := do
  let line (t : ℝ) : V3 := o + t • u
  let func (t : ℝ) : Option ℝ := do
    let z ← height (line t)
    return (line t).z - z
  let t ← find func 0
  return line t

/-- `AbstractSag.intercept` with exact roots. -/
noncomputable abbrev solvedIntercept (solver : LineSolver) := solvedInterceptFound solver.find

/-- `ToroidalSag` with its `transformation`, `optika/sags/_toroidal.py` lines 13–88: height and normal
are those of the position in the local frame; the intercept is inherited from `AbstractSag`. -/
noncomputable def torusSag (solver : LineSolver) (radius r : ℝ) (transformation : Option Rigid) : Sag where
  height p := torusHeight radius r (transformation.elim p fun g => g.ipoint p)
  normal p := torusNormal radius r (transformation.elim p fun g => g.ipoint p)
  intercept o u := solvedIntercept solver
    (fun p => torusHeight radius r (transformation.elim p fun g => g.ipoint p)) o u

end Optika
