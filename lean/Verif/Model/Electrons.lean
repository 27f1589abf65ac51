import Verif.Model.Numeric
import Mathlib.Analysis.SpecialFunctions.Log.Basic
import Mathlib.Algebra.Order.Floor.Ring
import Mathlib.Algebra.Order.Archimedean.Real.Basic

/-!
# Simulating the electrons measured by a sensor

`optika/sensors/materials/_ramanathan_2020/_ramanathan_2020.py`,
`_electrons_measured_numba`, lines 767–876.  Random numbers are explicit: for each photon a record
of the numbers drawn.  The counts in the result are natural numbers (`+= 1` on floats is exact
below `2 ** 53`).
-/

namespace Optika

/-- Python's `round` to an integer: half to even. -/
noncomputable def pyRound (x : ℝ) : ℤ :=
  let f := ⌊x⌋
  if x - f < 1 / 2 then f
  else if 1 / 2 < x - f then f + 1
  else if f % 2 = 0 then f else f + 1

/-- The arguments of `_electrons_measured_numba` for one pixel of one frame, lines 791–803. -/
structure PixelParams where
  /-- `int(photons_absorbed[i, x, y])` -/
  numPhoton : ℕ
  energy : ℝ
  absorption : ℝ
  thicknessImplant : ℝ
  cceBacksurface : ℝ
  /-- `p_n[i, x, y]` -/
  pn : List ℝ
  /-- `n[i, x, y]` -/
  n : List ℤ
  energyPairInf : ℝ
  fanoInf : ℝ
  thicknessSubstrate : ℝ
  thicknessDepletion : ℝ
  widthX : ℝ
  widthY : ℝ

/-- The random numbers drawn for one photon: uniform numbers for the number of pairs (`x_ij`),
for the depth (`y_ij`) and for the position in the pixel, standard normal numbers for the number
of pairs and for the displacement of the electrons, uniform numbers for the trials of the binomial
distribution. -/
structure PhotonDraw where
  pair : ℝ
  normal : ℝ
  depth : ℝ
  trial : ℕ → ℝ
  u : ℝ
  v : ℝ
  gaussX : ℕ → ℝ
  gaussY : ℕ → ℝ

/-- `np.cumsum`. -/
def cumsum (l : List ℝ) : List ℝ := (List.range l.length).map fun k : ℕ => (l.take (k + 1)).sum

/-- Lines 822–824: the first index at which the cumulative probability is above `x`, or the last
index if there is none. -/
noncomputable def pairIndex (cmf : List ℝ) (x : ℝ) : ℕ :=
  match cmf.findIdx? fun c => decide (x < c) with
  | some k => k
  | none => cmf.length - 1

/-- Lines 813–833: the number of electron-hole pairs. -/
noncomputable def pairNumber (s : PixelParams) (r : PhotonDraw) : Option ℤ :=
  let meanInf := s.energy / s.energyPairInf
  let stdInf := Real.sqrt (s.fanoInf * meanInf)
  if s.energy ≤ 50 then s.n[pairIndex (cumsum s.pn) r.pair]?
  else some (pyRound (meanInf + stdInf * r.normal))

/-- Lines 807–811, 835–841: the depth at which a photon is absorbed. -/
noncomputable def absorptionDepth (a thicknessSubstrate y : ℝ) : ℝ :=
  let d := if 0 < a then 1 / a else 0
  let fractionAbsorbed := 1 - Real.exp (-a * thicknessSubstrate)
  if 0 < a then -d * Real.log (1 - y * fractionAbsorbed) else y * thicknessSubstrate

/-- Lines 843–846: the probability that an electron from this depth is collected. -/
noncomputable def sternEfficiency (h0 W z : ℝ) : ℝ := if z < W then h0 + (1 - h0) * z / W else 1

/-- `np.random.binomial(n, p)`: the number of successful trials; raises an exception if `n` is
negative or `p` is not a probability. -/
noncomputable def binomial? (n : ℤ) (p : ℝ) (trial : ℕ → ℝ) : Option ℕ :=
  if n < 0 ∨ p < 0 ∨ 1 < p then none
  else some ((List.range n.toNat).countP fun k => decide (trial k < p))

/-- Lines 819–848: depth and number of collected electrons of one photon. -/
noncomputable def photonOutcome (s : PixelParams) (r : PhotonDraw) : Option (ℝ × ℕ) := do
  let n ← pairNumber s r
  let z := absorptionDepth s.absorption s.thicknessSubstrate r.depth
  let h := sternEfficiency s.cceBacksurface s.thicknessImplant z
  let m ← binomial? n h r.trial
  return (z, m)

/-- Lines 854–864: the displacement of electron number `e`, in pixels. -/
noncomputable def displacement (s : PixelParams) (r : PhotonDraw) (z : ℝ) (e : ℕ) : ℤ × ℤ :=
  let zff := s.thicknessSubstrate - s.thicknessDepletion
  if z < zff ∧ 0 < s.widthX ∧ 0 < s.widthY then
    let w := zff * Real.sqrt (1 - z / zff)
    (pyRound (r.u + w / s.widthX * r.gaussX e), pyRound (r.v + w / s.widthY * r.gaussY e))
  else (0, 0)

/-- Lines 866–874: the pixel in which an electron ends; `none` if it is lost. -/
def electronTarget (wrap : Bool) (numX numY : ℕ) (x y : ℕ) (d : ℤ × ℤ) : Option (ℕ × ℕ) :=
  let xe : ℤ := x + d.1
  let ye : ℤ := y + d.2
  if wrap then some ((xe % numX).toNat, (ye % numY).toNat)
  else if (0 ≤ xe ∧ xe < numX) ∧ (0 ≤ ye ∧ ye < numY) then some (xe.toNat, ye.toNat)
  else none

/-- Lines 819–874: what happens to the electrons of one photon. -/
noncomputable def photonEvents (wrap : Bool) (numX numY : ℕ) (s : PixelParams) (x y : ℕ)
    (r : PhotonDraw) : Option (List (Option (ℕ × ℕ))) := do
  let (z, m) ← photonOutcome s r
  return (List.range m).map fun e => electronTarget wrap numX numY x y (displacement s r z e)

/-- A loop: the events of the iterations in sequence, unless one of them raises an exception. -/
def sequence {α : Type} : List (Option (List α)) → Option (List α)
  | [] => some []
  | o :: os => do
    let a ← o
    let r ← sequence os
    return a ++ r

/-- Lines 789–874: the electrons of one frame, in the order of the loops. -/
noncomputable def frameEvents (wrap : Bool) (numX numY : ℕ) (s : ℕ → ℕ → PixelParams)
    (draw : ℕ → ℕ → ℕ → PhotonDraw) : Option (List (Option (ℕ × ℕ))) :=
  sequence ((List.range numX).map fun x => sequence ((List.range numY).map fun y =>
    sequence ((List.range (s x y).numPhoton).map fun j =>
      photonEvents wrap numX numY (s x y) x y (draw x y j))))

/-- `result[i, x, y] += 1` for one frame. -/
def deposit (image : ℕ × ℕ → ℕ) : Option (ℕ × ℕ) → ℕ × ℕ → ℕ
  | none => image
  | some c => fun c' => if c' = c then image c' + 1 else image c'

/-- The image of one frame, lines 786–876. -/
noncomputable def frameImage (wrap : Bool) (numX numY : ℕ) (s : ℕ → ℕ → PixelParams)
    (draw : ℕ → ℕ → ℕ → PhotonDraw) : Option (ℕ × ℕ → ℕ) :=
  (frameEvents wrap numX numY s draw).map fun l => l.foldl deposit fun _ => 0

/-- `electrons_measured` without `axis_xy`, lines 630–634 and 687–688 (and `wrap`): a grid of one
pixel, the only element of which is returned. -/
noncomputable def electronsMeasuredNoAxes (wrap : Bool) (s : PixelParams)
    (draw : ℕ → PhotonDraw) : Option ℕ :=
  (frameImage wrap 1 1 (fun _ _ => s) fun _ _ => draw).map fun image => image (0, 0)

/-! ### Several frames in parallel

`for i in numba.prange(num_i)`, line 788.  `result[i, x, y] += 1` reads an element of the result
and then writes it; the steps of different frames may be interleaved in any way. -/

/-- A step of frame `frame`: read an element into a register of that frame, or write the register
plus one. -/
inductive ImageStep
  | load (frame : ℕ) (cell : ℕ × ℕ)
  | store (frame : ℕ) (cell : ℕ × ℕ)

/-- The frame that a step belongs to. -/
def ImageStep.frame : ImageStep → ℕ
  | .load i _ => i
  | .store i _ => i

/-- The result and the register of each frame. -/
structure Machine where
  result : ℕ → ℕ × ℕ → ℕ
  register : ℕ → ℕ

/-- One step. -/
def Machine.step (m : Machine) : ImageStep → Machine
  | .load i c => { m with register := fun k => if k = i then m.result i c else m.register k }
  | .store i c =>
    { m with result := fun k c' => if k = i ∧ c' = c then m.register i + 1 else m.result k c' }

/-- The steps of frame `i`: one read and one write for each electron that is not lost. -/
def frameSteps (i : ℕ) (events : List (Option (ℕ × ℕ))) : List ImageStep :=
  events.flatMap fun
    | none => []
    | some c => [.load i c, .store i c]

/-- `result = np.zeros(...)`, line 786. -/
def Machine.init : Machine := ⟨fun _ _ => 0, fun _ => 0⟩

end Optika
