import Verif.Model.Interp
import Verif.Model.Electrons

/-!
# Electron-hole pairs in silicon

`optika/sensors/materials/_ramanathan_2020/_ramanathan_2020.py`.  The tables of the files `p0K.dat`,
`p100K.dat` and `p300K.dat` are a parameter; energies are in eV, temperatures in K.  `none` is not a
finite number.
-/

namespace Optika

/-- One energy of the tables: the probability of `k + 1` pairs at 0 K, 100 K and 300 K. -/
structure PairRow where
  energy : ℝ
  p0 : List ℝ
  p100 : List ℝ
  p300 : List ℝ

/-- `na.interp(x=temperature, xp=_temperature, fp=...)` with `_temperature` 0, 100, 300 K, lines
198–202, 446–450. -/
noncomputable def tempInterp (v0 v100 v300 temperature : ℝ) : ℝ :=
  (interp none none [(0, v0), (100, v100), (300, v300)] temperature).getD 0

/-- `(_n * _probability).sum("num_electron")`, lines 192, 355. -/
def rowMean (p : List ℝ) : ℝ := ((List.range p.length).map fun k : ℕ => ((k : ℝ) + 1) * p.getD k 0).sum

/-- `(np.square(_n) * _probability).sum("num_electron")`, line 357. -/
def rowMeanSq (p : List ℝ) : ℝ :=
  ((List.range p.length).map fun k : ℕ => ((k : ℝ) + 1) ^ 2 * p.getD k 0).sum

/-- `energy_bandgap`, lines 87–144. -/
noncomputable def energyBandgap (T : ℝ) : ℝ := 1.1692 - 4.9e-4 * T ^ 2 / (T + 655)

/-- `energy_pair_inf`, lines 220–254. -/
noncomputable def energyPairInf (T : ℝ) : ℝ := 1.7 * energyBandgap T + 0.084 * 5.2 + 1.3

/-- `fano_factor_inf`, lines 383–418. -/
noncomputable def fanoFactorInf (T : ℝ) : ℝ := -0.028 * energyBandgap T + 0.0015 * 5.2 + 0.14

/-- Interpolation between two neighbouring points, values that are not finite included: a point
itself has its own value. -/
noncomputable def lerpInf (p q : ℝ × Option ℝ) (x : ℝ) : Option ℝ :=
  if x = p.1 then p.2 else do
    let a ← p.2
    let b ← q.2
    return (b - a) / (q.1 - p.1) * (x - p.1) + a

/-- As `interpFrom`, for values that may not be finite. -/
noncomputable def interpInfFrom (p : ℝ × Option ℝ) : List (ℝ × Option ℝ) → ℝ → Option ℝ
  | [], _ => p.2
  | q :: r, x => if x < q.1 then lerpInf p q x else interpInfFrom q r x

/-- `numpy.interp` for values that may not be finite. -/
noncomputable def interpInf (right : Option (Option ℝ)) : List (ℝ × Option ℝ) → ℝ → Option ℝ
  | [], _ => none
  | p :: r, x =>
    if x < p.1 then p.2
    else if ((p :: r).getLast (List.cons_ne_nil p r)).1 < x then
      right.getD ((p :: r).getLast (List.cons_ne_nil p r)).2
    else interpInfFrom p r x

/-- `energy_pair`, lines 147–217. -/
noncomputable def energyPair (table : List PairRow) (energy temperature : ℝ) : Option ℝ :=
  interpInf (some (some (energyPairInf temperature)))
    (table.map fun r => (r.energy, interpInf none
      [(0, div? r.energy (rowMean r.p0)), (100, div? r.energy (rowMean r.p100)),
        (300, div? r.energy (rowMean r.p300))] temperature)) energy

/-- `quantum_yield_ideal`, lines 257–306: a pair energy that is infinite (no pairs in the table)
gives a quantum yield of zero. -/
noncomputable def quantumYieldIdeal (table : List PairRow) (energy temperature : ℝ) : ℝ :=
  match energyPair table energy temperature with
  | none => 0
  | some W => energy / W

/-- Variance over mean of one row, line 358. -/
noncomputable def rowFano (p : List ℝ) : Option ℝ := div? (rowMeanSq p - rowMean p ^ 2) (rowMean p)

/-- `fano_factor`, lines 309–380. -/
noncomputable def fanoFactor (table : List PairRow) (energy temperature : ℝ) : Option ℝ :=
  interpInf none
    [(0, interpInf (some (some (fanoFactorInf 0))) (table.map fun r => (r.energy, rowFano r.p0)) energy),
      (100, interpInf (some (some (fanoFactorInf 100)))
        (table.map fun r => (r.energy, rowFano r.p100)) energy),
      (300, interpInf (some (some (fanoFactorInf 300)))
        (table.map fun r => (r.energy, rowFano r.p300)) energy)] temperature

/-- `probability_of_n_pairs`, lines 421–465: the probability of `k + 1` pairs. -/
noncomputable def probabilityOfPairs (table : List PairRow) (energy temperature : ℝ) (k : ℕ) :
    Option ℝ :=
  interp none none (table.map fun r => (r.energy,
    tempInterp (r.p0.getD k 0) (r.p100.getD k 0) (r.p300.getD k 0) temperature)) energy

/-- The list of these probabilities for `1` to `num` pairs. -/
noncomputable def pairProbabilities (table : List PairRow) (num : ℕ) (energy temperature : ℝ) :
    List ℝ :=
  (List.range num).map fun k => (probabilityOfPairs table energy temperature k).getD 0

/-- The arguments that `electrons_measured` (lines 594–690) passes on for one pixel. -/
noncomputable def pixelParams (table : List PairRow) (num numPhoton : ℕ) (energy temperature
    absorption thicknessImplant cceBacksurface thicknessSubstrate thicknessDepletion widthX
    widthY : ℝ) : PixelParams where
  numPhoton := numPhoton
  energy := energy
  absorption := absorption
  thicknessImplant := thicknessImplant
  cceBacksurface := cceBacksurface
  pn := pairProbabilities table num energy temperature
  n := (List.range num).map fun k : ℕ => (k : ℤ) + 1
  energyPairInf := 1000 / quantumYieldIdeal table 1000 temperature
  fanoInf := (fanoFactor table 1000 temperature).getD 0
  thicknessSubstrate := thicknessSubstrate
  thicknessDepletion := thicknessDepletion
  widthX := widthX
  widthY := widthY

end Optika
