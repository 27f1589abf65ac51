import Verif.Model.Surface
import Mathlib.Analysis.SpecialFunctions.Pow.Complex
import Mathlib.Analysis.SpecialFunctions.Exp
import Mathlib.LinearAlgebra.Matrix.ZPow
import Mathlib.LinearAlgebra.Matrix.Notation

/-!
# Multilayer coatings

`optika/materials/_snells_law.py` (scalar form), `matrices.py`, `_layers.py`, `_multilayers.py` and
`_thin_films.py`.  One polarization at a time (`polarizedS`).  `none` is a coefficient that is not
finite.  The index of refraction of a chemical (interpolation of a table) is a function of the
wavelength.
-/

namespace Optika
open Complex Matrix

/-- `np.emath.sqrt`: the principal square root, also of negative numbers. -/
noncomputable def csqrt (z : ℂ) : ℂ := z ^ (1 / 2 : ℂ)

/-- `snells_law_scalar`, `optika/materials/_snells_law.py` lines 13–38.  The theorems assume that
the new index is not zero. -/
noncomputable def snellsLawScalar (cosIncidence n n' : ℂ) : ℂ :=
  let sinIncidence := csqrt (1 - cosIncidence ^ 2)
  let sinTransmitted := n * sinIncidence / n'
  csqrt (1 - sinTransmitted ^ 2)

/-- 2×2 matrices of complex numbers, `na.Cartesian2dMatrixArray`. -/
abbrev M2 := Matrix (Fin 2) (Fin 2) ℂ

/-- The loss of reflected amplitude of an interface profile as function of the wavelength, the
direction and the index before the interface (`reflectivity` of `profiles.py`, modelled in
`Verif/Model/Profiles.lean`).  `none` is not a number. -/
abbrev Interface := ℝ → ℂ → ℂ → Option ℂ

/-- `np.where(polarized_s, direction, np.conj(direction))`, `matrices.py` lines 130–131. -/
noncomputable def polarizedDirection (polarizedS : Bool) (direction : ℂ) : ℂ :=
  if polarizedS then direction else (starRingEnd ℂ) direction

/-- `direction * np.where(polarized_s, n, 1 / n)`, `matrices.py` lines 130–140. -/
noncomputable def momentum (polarizedS : Bool) (direction n : ℂ) : ℂ :=
  polarizedDirection polarizedS direction * (if polarizedS then n else 1 / n)

/-- `refraction`, `matrices.py` lines 20–161. -/
noncomputable def refraction (wavelength : ℝ) (directionLeft directionRight : ℂ)
    (polarizedS : Bool) (nLeft nRight : ℂ) (interface : Option Interface) : Option M2 :=
  let qi := momentum polarizedS directionLeft nLeft
  let qj := momentum polarizedS directionRight nRight
  if nLeft = 0 ∨ nRight = 0 ∨ qi + qj = 0 then none else
  let r := (qi - qj) / (qi + qj)
  let t := 2 * qi / (qi + qj)
  let r := interface.elim (some r) fun f =>
    (f wavelength (polarizedDirection polarizedS directionLeft) nLeft).map (r * ·)
  r.bind fun r => if t = 0 then none else some (!![1 / t, r / t; r / t, 1 / t])

/-- `propagation`, `matrices.py` lines 164–246. -/
noncomputable def propagation (wavelength : ℝ) (direction : ℂ) (thickness : ℝ) (n : ℂ) : M2 :=
  let β := 2 * Real.pi * thickness * n * direction / wavelength
  !![exp (-I * β), 0; 0, exp (I * β)]

/-- `Layer`, `_layers.py` lines 136–188. -/
structure Layer where
  n : ℝ → ℂ
  thickness : ℝ
  interface : Option Interface

/-- What is threaded through a sequence of layers: index and direction in the medium on the left,
and the mask `where`. -/
structure Medium where
  n : ℂ
  direction : ℂ
  valid : Bool

/-- `Layer.transfer`, `_layers.py` lines 229–277. -/
noncomputable def Layer.transfer (wavelength : ℝ) (polarizedS : Bool) (l : Layer) (m : Medium) :
    Medium × Option M2 :=
  let nInternal := l.n wavelength
  let directionInternal := snellsLawScalar m.direction m.n nInternal
  let refr := if m.valid then refraction wavelength m.direction directionInternal polarizedS m.n
    nInternal l.interface else some 1
  let prop := propagation wavelength directionInternal l.thickness nInternal
  let valid := m.valid && decide (‖prop 0 0‖ < 10 ^ 10)
  (⟨nInternal, directionInternal, valid⟩, if valid then refr.map (· * prop) else refr)

/-- `AbstractLayer`: a layer, a sequence, or a periodic sequence. -/
inductive Stack
  | layer (l : Layer)
  | sequence (ls : List Stack)
  | periodic (ls : List Stack) (numPeriods : ℕ)

/-- Product of two matrices that may not be finite. -/
noncomputable def mul? (a b : Option M2) : Option M2 := do return (← a) * (← b)

mutual

/-- `transfer` of a layer (`_layers.py` lines 229–277), of a sequence (lines 473–499) and of a
periodic sequence (lines 611–645; `power` of named_arrays is the integer power of a matrix). -/
noncomputable def Stack.transfer (wavelength : ℝ) (polarizedS : Bool) :
    Stack → Medium → Medium × Option M2
  | .layer l, m => l.transfer wavelength polarizedS m
  | .sequence ls, m => transferAll wavelength polarizedS ls m (some 1)
  | .periodic ls num, m =>
    let start := transferAll wavelength polarizedS ls m (some 1)
    let periodic := transferAll wavelength polarizedS ls start.1 (some 1)
    (periodic.1, mul? start.2 (periodic.2.map (· ^ ((num : ℤ) - 1))))

/-- The loop of `LayerSequence.transfer`, lines 487–497. -/
noncomputable def transferAll (wavelength : ℝ) (polarizedS : Bool) :
    List Stack → Medium → Option M2 → Medium × Option M2
  | [], m, acc => (m, acc)
  | l :: ls, m, acc =>
    let t := l.transfer wavelength polarizedS m
    transferAll wavelength polarizedS ls t.1 (mul? acc t.2)

end

mutual

/-- `thickness`: of a layer, of a sequence (`_layers.py` lines 448–453), of a periodic sequence
(lines 595–597). -/
def Stack.thickness : Stack → ℝ
  | .layer l => l.thickness
  | .sequence ls => thicknessAll ls 0
  | .periodic ls num => num * thicknessAll ls 0

/-- The loop of `LayerSequence.thickness`. -/
def thicknessAll : List Stack → ℝ → ℝ
  | [], acc => acc
  | l :: ls, acc => thicknessAll ls (acc + l.thickness)

end

/-- `layer_sequence`: `_layers.py` lines 225–227, 469–471 and 607–609. -/
def Stack.layerSequence : Stack → List Stack
  | .layer l => [.layer l]
  | .sequence ls => ls
  | .periodic ls num => (List.replicate num ls).flatten

mutual

/-- `n`: of the layer, or of the first layer (`_layers.py` lines 213–223, 440–445, 588–592). -/
def Stack.index? (wavelength : ℝ) : Stack → Option ℂ
  | .layer l => some (l.n wavelength)
  | .sequence ls => indexAll? wavelength ls
  | .periodic ls _ => indexAll? wavelength ls

/-- `self.layers[0].n(wavelength)`. -/
def indexAll? (wavelength : ℝ) : List Stack → Option ℂ
  | [] => none
  | l :: _ => l.index? wavelength

end

mutual

/-- `interface`: of the layer, or of the first layer (`_layers.py` lines 459–461, 603–605).
The outer option is the `IndexError` of an empty sequence. -/
def Stack.interface? : Stack → Option (Option Interface)
  | .layer l => some l.interface
  | .sequence ls => interfaceAll? ls
  | .periodic ls _ => interfaceAll? ls

/-- `self.layers[0].interface`. -/
def interfaceAll? : List Stack → Option (Option Interface)
  | [] => none
  | l :: _ => l.interface?

end

/-- The substrate with thickness zero, vacuum if it is not given, `_multilayers.py` lines
190–193. -/
def substrateLayer (substrate : Option Layer) : Layer :=
  substrate.elim ⟨fun _ => 1, 0, none⟩ fun s => { s with thickness := 0 }

/-- State and transfer matrix of layers and substrate, `_multilayers.py` lines 205–219. -/
noncomputable def multilayerTransfer (wavelength : ℝ) (polarizedS : Bool) (direction n : ℂ)
    (layers : Stack) (substrate : Option Layer) : Medium × Option M2 :=
  let t := layers.transfer wavelength polarizedS ⟨n, direction, true⟩
  let s := (substrateLayer substrate).transfer wavelength polarizedS t.1
  (s.1, mul? t.2 s.2)

/-- `multilayer_coefficients`, `_multilayers.py` lines 33–237: amplitudes reflected and
transmitted. -/
noncomputable def multilayerCoefficients (wavelength : ℝ) (polarizedS : Bool) (direction n : ℂ)
    (layers : Stack) (substrate : Option Layer) : Option (ℂ × ℂ) :=
  let t := multilayerTransfer wavelength polarizedS direction n layers substrate
  t.2.bind fun m => if m 0 0 = 0 then none else
    some (m 1 0 / m 0 0, if t.1.valid then 1 / m 0 0 else 0)

/-- `multilayer_efficiency`, `_multilayers.py` lines 240–532: reflectivity and transmissivity. -/
noncomputable def multilayerEfficiency (wavelength : ℝ) (polarizedS : Bool) (direction n : ℂ)
    (layers : Stack) (substrate : Option Layer) : Option (ℝ × ℝ) :=
  (multilayerCoefficients wavelength polarizedS direction n layers substrate).bind fun rt =>
    let nSubstrate := (substrateLayer substrate).n wavelength
    let directionSubstrate := snellsLawScalar direction n nSubstrate
    let qAmbient := momentum polarizedS direction n
    let qSubstrate := momentum polarizedS directionSubstrate nSubstrate
    if qAmbient = 0 then none else
    some (‖rt.1‖ ^ 2, ‖rt.2‖ ^ 2 * (qSubstrate / qAmbient).re)

/-- `PolarizationVectorArray.average` of the efficiency of both polarizations. -/
noncomputable def multilayerAverage (wavelength : ℝ) (direction n : ℂ) (layers : Stack)
    (substrate : Option Layer) : Option (ℝ × ℝ) := do
  let s ← multilayerEfficiency wavelength true direction n layers substrate
  let p ← multilayerEfficiency wavelength false direction n layers substrate
  return ((s.1 + p.1) / 2, (s.2 + p.2) / 2)

/-- The complex index of the medium that a ray travels in, `_multilayers.py` lines 855–857 and
924–926. -/
noncomputable def rayIndex (r : Ray) : ℂ :=
  r.index + (r.attenuation * r.wavelength / (4 * Real.pi) : ℝ) * I

/-- `AbstractMultilayerMirror.efficiency`, `_multilayers.py` lines 908–935. -/
noncomputable def multilayerMirrorEfficiency (layers : Stack) (substrate : Option Layer) (r : Ray)
    (normal : V3) : Option ℝ :=
  (multilayerAverage r.wavelength ((-(r.direction.dot normal) : ℝ) : ℂ) (rayIndex r) layers
    substrate).map (·.1)

/-- `AbstractMultilayerFilm.efficiency`, `_multilayers.py` lines 839–866. -/
noncomputable def multilayerFilmEfficiency (layers : Stack) (r : Ray) (normal : V3) : Option ℝ :=
  (multilayerAverage r.wavelength ((-(r.direction.dot normal) : ℝ) : ℂ) (rayIndex r) layers
    none).map (·.2)

/-- `AbstractThinFilmFilter.efficiency`, `_thin_films.py` lines 32–55: an oxide layer on either
side, and the mesh. -/
noncomputable def thinFilmEfficiency (layer oxide : Stack) (meshEfficiency : ℝ) (r : Ray)
    (normal : V3) : Option ℝ :=
  (multilayerFilmEfficiency (.sequence [oxide, layer, oxide]) r normal).map (· * meshEfficiency)

/-! ### Absorbance of one layer -/

/-- `l[:k]` in Python. -/
def pySlice {α : Type} (l : List α) (k : ℤ) : List α :=
  if 0 ≤ k then l.take k.toNat else l.take ((l.length : ℤ) + k).toNat

/-- `l[k]` in Python; `none` is an `IndexError`. -/
def pyGet? {α : Type} (l : List α) (k : ℤ) : Option α :=
  if 0 ≤ k then l[k.toNat]? else if 0 ≤ (l.length : ℤ) + k then l[((l.length : ℤ) + k).toNat]? else
    none

/-- Three-dimensional complex vectors. -/
@[ext]
structure C3 where
  x : ℂ
  y : ℂ
  z : ℂ

/-- Sum of vectors. -/
def C3.add (a b : C3) : C3 := ⟨a.x + b.x, a.y + b.y, a.z + b.z⟩
/-- Product with a number. -/
def C3.smul (k : ℂ) (a : C3) : C3 := ⟨k * a.x, k * a.y, k * a.z⟩
/-- Cross product. -/
def C3.cross (a b : C3) : C3 :=
  ⟨a.y * b.z - a.z * b.y, a.z * b.x - a.x * b.z, a.x * b.y - a.y * b.x⟩
/-- Complex conjugate. -/
noncomputable def C3.conj (a : C3) : C3 :=
  ⟨(starRingEnd ℂ) a.x, (starRingEnd ℂ) a.y, (starRingEnd ℂ) a.z⟩

/-- Rotation around `y` given by cosine and sine of the angle,
`na.Cartesian3dYRotationMatrixArray`. -/
def C3.rotateY (c s : ℂ) (a : C3) : C3 := ⟨c * a.x + s * a.z, a.y, -s * a.x + c * a.z⟩

/-- The `z` component of the energy flux of the waves with amplitudes `a` and `b` that travel
forward and backward at an angle with cosine `direction`, `_multilayers.py` lines 679–757.
Cosine and sine of `arccos(direction)` are `direction` and the principal root of
`1 - direction²`. -/
noncomputable def flux (polarizedS : Bool) (n direction a b : ℂ) : ℝ :=
  let c := direction
  let s := csqrt (1 - direction ^ 2)
  let av := C3.smul a (if polarizedS then ⟨0, 1, 0⟩ else C3.rotateY c s ⟨1, 0, 0⟩)
  let bv := C3.smul b (if polarizedS then ⟨0, 1, 0⟩ else C3.rotateY c (-s) ⟨1, 0, 0⟩)
  let impedance := if polarizedS then n else 1 / n
  let ka := C3.smul impedance (C3.rotateY c s ⟨0, 0, 1⟩)
  let kb := C3.smul impedance (C3.rotateY c (-s) ⟨0, 0, -1⟩)
  let cv := ka.cross av
  let dv := kb.cross bv
  ((av.add bv).cross (C3.conj (cv.add dv))).z.re

/-- `m.inverse @ (1, r)`; `none` for a singular matrix. -/
noncomputable def amplitudes (m : M2) (r : ℂ) : Option (ℂ × ℂ) :=
  if m.det = 0 then none else
    some ((m 1 1 - m 0 1 * r) / m.det, (m 0 0 * r - m 1 0) / m.det)

/-- `layer_absorbance`, `_multilayers.py` lines 535–768. -/
noncomputable def layerAbsorbance (index : ℤ) (wavelength : ℝ) (polarizedS : Bool)
    (direction n : ℂ) (layers : Stack) (substrate : Option Layer) : Option ℂ := do
  let ls := layers.layerSequence
  let rt ← multilayerCoefficients wavelength polarizedS direction n (.sequence ls) substrate
  let layer ← pyGet? ls index
  let ti := (Stack.sequence (pySlice ls index)).transfer wavelength polarizedS ⟨n, direction, true⟩
  let mi ← ti.2
  let nLeft ← layer.index? wavelength
  let interface ← layer.interface?
  let directionLeft := snellsLawScalar direction n nLeft
  let w ← refraction wavelength ti.1.direction directionLeft polarizedS ti.1.n nLeft interface
  let tr := (Stack.sequence (pySlice ls (index + 1))).transfer wavelength polarizedS
    ⟨n, direction, true⟩
  let mr ← tr.2
  let right ← amplitudes mr rt.1
  let left ← amplitudes (mi * w) rt.1
  let right := if tr.1.valid then right else (0, 0)
  let fluxRight := flux polarizedS tr.1.n tr.1.direction right.1 right.2
  let fluxLeft := flux polarizedS nLeft directionLeft left.1 left.2
  let impedanceAmbient := if polarizedS then n else 1 / n
  if impedanceAmbient * direction = 0 then none else
  return ((fluxLeft - fluxRight : ℝ) : ℂ) / (impedanceAmbient * direction)

end Optika
