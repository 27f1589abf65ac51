import Verif.Model.Snell

/-!
# Diffraction gratings: effective incident direction and ruling spacings

`optika/rulings/_rulings.py` and `optika/rulings/_spacing.py`.
-/

namespace Optika

/-- `incident_effective`, `optika/rulings/_rulings.py` lines 107–128.
`w` wavelength, `a` direction, `n` index of refraction, `u` surface normal, `m` diffraction
order, `d` spacing of the rulings, `g` normal of the ruling planes. -/
noncomputable def incidentEffective (w : ℝ) (a : V3) (n : ℝ) (u : V3) (m d : ℝ) (g : V3) :
    Option V3 := do
  let s := sgn (a.x * u.x + a.y * u.y + a.z * u.z)
  let gx ← div? (s * m * w * g.x) (n * d)
  let gy ← div? (s * m * w * g.y) (n * d)
  let gz ← div? (s * m * w * g.z) (n * d)
  return ⟨a.x + gx, a.y + gy, a.z + gz⟩

/-- `AbstractRulings.incident_effective`, `optika/rulings/_rulings.py` lines 187–204, for a
ruling vector `kappa` returned by the spacing object: the spacing is the length of the
vector and the normal of the rulings its direction. -/
noncomputable def rulingsIncidentEffective (kappa : Option V3) (m w : ℝ) (a : V3) (n : ℝ)
    (u : V3) : Option V3 := do
  let k ← kappa
  let d := k.len
  let gx ← div? k.x d
  let gy ← div? k.y d
  let gz ← div? k.z d
  incidentEffective w a n u m d ⟨gx, gy, gz⟩

/-- `ConstantRulingSpacing.__call__`, `optika/rulings/_spacing.py` lines 69–74. -/
noncomputable def constantSpacing (constant : ℝ) (normal : V3) (_position _normal : V3) :
    Option V3 :=
  some (constant • normal)

/-- Lines 124–126 of `optika/rulings/_spacing.py`: the sum over the items of the dictionary
of coefficients (powers are natural numbers here). -/
noncomputable def polyEval (coefficients : List (ℕ × ℝ)) (x : ℝ) : ℝ :=
  coefficients.foldl (fun result pc => result + pc.2 * x ^ pc.1) 0

/-- `Polynomial1dRulingSpacing.__call__`, `optika/rulings/_spacing.py` lines 109–128;
`transformation` is the (optional) coordinate transformation as a function. -/
noncomputable def polynomialSpacing (coefficients : List (ℕ × ℝ)) (normalRulings : V3)
    (transformation : Option (V3 → V3)) (position _normal : V3) : Option V3 :=
  let position := match transformation with
    | none => position
    | some t => t position
  let x := position.dot normalRulings
  some (polyEval coefficients x • normalRulings)

/-- `.normalized` of named_arrays: the vector divided by its length. -/
noncomputable def normalized? (v : V3) : Option V3 := do
  let x ← div? v.x v.len
  let y ← div? v.y v.len
  let z ← div? v.z v.len
  return ⟨x, y, z⟩

/-- `HolographicRulingSpacing.__call__`, `optika/rulings/_spacing.py` lines 295–328 (the
attribute `transformation` is not used by that method). -/
noncomputable def holographicSpacing (x1 x2 : V3) (wavelength : ℝ) (diverging1 diverging2 : Bool)
    (position normal : V3) : Option V3 := do
  let d1 : ℝ := 2 * (if diverging1 then 1 else 0) - 1
  let d2 : ℝ := 2 * (if diverging2 then 1 else 0) - 1
  let r1 ← normalized? (position - x1)
  let r2 ← normalized? (position - x2)
  let dr := d1 • r1 - d2 • r2
  let aq := normal.cross dr
  let a := aq.len
  let q ← normalized? aq
  let spacing ← div? wavelength a
  return spacing • q.cross normal

/-- The classes of `optika/rulings/_spacing.py` with their fields. -/
inductive RulingSpacing where
  | constant (constant : ℝ) (normal : V3)
  | polynomial (coefficients : List (ℕ × ℝ)) (normal : V3) (transformation : Option (V3 → V3))
  | holographic (x1 x2 : V3) (wavelength : ℝ) (diverging1 diverging2 : Bool)
      (transformation : Option (V3 → V3))

/-- Their `__call__`. -/
noncomputable def RulingSpacing.call (s : RulingSpacing) (position normal : V3) : Option V3 :=
  match s with
  | .constant c g => constantSpacing c g position normal
  | .polynomial c g t => polynomialSpacing c g t position normal
  | .holographic x1 x2 w d1 d2 _ => holographicSpacing x1 x2 w d1 d2 position normal

/-- `AbstractRulings.spacing_`, `optika/rulings/_rulings.py` lines 156–168: a plain number is a
constant spacing along `x`. -/
def rulingSpacingOf (spacing : ℝ ⊕ RulingSpacing) : RulingSpacing :=
  match spacing with
  | .inl d => .constant d ⟨1, 0, 0⟩
  | .inr s => s

/-- A ray at a ruled surface: `AbstractRulings.incident_effective` (lines 170–204 of
`optika/rulings/_rulings.py`), then Snell's law. -/
noncomputable def ruledRefraction (spacing : ℝ ⊕ RulingSpacing) (m w : ℝ) (position a : V3)
    (n1 n2 : ℝ) (isMirror : Bool) (u : V3) : Option V3 :=
  (rulingsIncidentEffective ((rulingSpacingOf spacing).call position u) m w a n1 u).bind fun k =>
    snellsLaw k n1 n2 isMirror u

/-- The direction of a ray after a ruled interface, as computed in
`optika/surfaces.py` lines 150–173: effective incident direction, then Snell's law. -/
noncomputable def diffract (w : ℝ) (a : V3) (n1 n2 : ℝ) (isMirror : Bool) (u : V3) (m d : ℝ)
    (g : V3) : Option V3 :=
  (incidentEffective w a n1 u m d g).bind fun k => snellsLaw k n1 n2 isMirror u

end Optika
