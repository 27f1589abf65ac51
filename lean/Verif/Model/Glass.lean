import Verif.Model.Surface

/-!
# Glass

`optika/materials/_materials.py` lines 308–455.
-/

namespace Optika

/-- `Glass`, lines 365–381: the Sellmeier coefficients. -/
structure Glass where
  b1 : ℝ
  b2 : ℝ
  b3 : ℝ
  c1 : ℝ
  c2 : ℝ
  c3 : ℝ

/-- `Glass.n_bk7`, lines 383–396, with lengths in micrometres. -/
noncomputable def nBk7 : Glass where
  b1 := 1.03961212
  b2 := 0.231792344
  b3 := 1.01046945
  c1 := 0.00600069867
  c2 := 0.0200179144
  c3 := 103.560653

/-- `Glass.f2`, lines 398–411, with lengths in micrometres. -/
noncomputable def f2 : Glass where
  b1 := 1.34533359
  b2 := 0.209073176
  b3 := 0.937357162
  c1 := 0.00997743871
  c2 := 0.0470450767
  c3 := 111.886764

/-- `Glass.index_refraction`, lines 428–438. -/
noncomputable def Glass.index (g : Glass) (rays : Ray) : Option ℝ := do
  let w2 := rays.wavelength ^ 2
  let t1 ← div? (g.b1 * w2) (w2 - g.c1)
  let t2 ← div? (g.b2 * w2) (w2 - g.c2)
  let t3 ← div? (g.b3 * w2) (w2 - g.c3)
  sqrt? (1 + (t1 + t2 + t3))

/-- `Glass` as a material, lines 440–455. -/
noncomputable def Glass.material (g : Glass) : Material where
  index := g.index
  attenuation _ := some 0
  efficiency _ _ := some 1
  isMirror := false

end Optika
