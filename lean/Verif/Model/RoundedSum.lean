import Verif.Model.Rounding
import Mathlib.Algebra.BigOperators.Group.Finset.Basic

/-!
# Sums with rounding errors

`np.sum` and `np.mean` over the rays of a field point as in `area_effective` (`optika/systems/_sequential.py`
lines 1498–1504) and `distortion` (lines 1266–1276), and the sum over the rays of a pixel in
`AbstractImagingSensor.collect` (`optika/sensors/_sensors.py` lines 125–155), with an error in every addition.

The order of the additions is left open: numpy adds in blocks and pairwise.
-/

namespace Optika

open Slot

variable {P : Type*}

/-- The possible results of adding numbers in any order, each addition with an error. -/
inductive Adds [DecidableEq P] (u : ℝ) (x : P → ℝ) : Finset P → ℝ → Prop
  | none : Adds u x ∅ 0
  | one (p : P) : Adds u x {p} (x p)
  | add {s t : Finset P} {a b c : ℝ} : s.Nonempty → t.Nonempty → Disjoint s t → Adds u x s a → Adds u x t b →
      Rounded u (a + b) c → Adds u x (s ∪ t) c

/-- What a computer takes for the rays that are not vignetted. -/
def counts (numbers : Slot → ℝ) : Prop := 1 / 2 < numbers flag

/-- A bin of a histogram of wavelengths and positions. -/
structure Bin where
  wavelength : ℝ × ℝ
  x : ℝ × ℝ
  y : ℝ × ℝ

/-- The rays that `np.histogramdd` puts into a bin other than the last ones, whose upper edge is included. -/
def Bin.holds (b : Bin) (numbers : Slot → ℝ) : Prop :=
  (b.wavelength.1 ≤ numbers Slot.wavelength ∧ numbers Slot.wavelength < b.wavelength.2) ∧
    (b.x.1 ≤ numbers px ∧ numbers px < b.x.2) ∧ (b.y.1 ≤ numbers py ∧ numbers py < b.y.2)

section

variable [Fintype P] [DecidableEq P]

open Classical in
/-- The possible results for the effective area, `area_effective`, lines 1498–1504. -/
def AreaComputes (u : ℝ) (rays : P → Slot → ℝ) (area : ℝ) : Prop :=
  Adds u (fun p => rays p intensity) (Finset.univ.filter fun p => counts (rays p)) area

open Classical in
/-- The possible results for a pixel, `collect`, lines 125–155, where the weight of a ray is
`rays.intensity * where`. -/
def PixelComputes (u : ℝ) (b : Bin) (rays : P → Slot → ℝ) (value : ℝ) : Prop :=
  Adds u (fun p => if counts (rays p) then rays p intensity else 0)
    (Finset.univ.filter fun p => b.holds (rays p)) value

open Classical in
/-- The possible results for the mean of a coordinate of the rays that are not vignetted, `distortion`, lines
1266–1276. -/
def MeanComputes (u : ℝ) (coordinate : Slot) (rays : P → Slot → ℝ) (mean : ℝ) : Prop :=
  ∃ total, Adds u (fun p => rays p coordinate) (Finset.univ.filter fun p => counts (rays p)) total ∧
    Rounded u (total / ((Finset.univ.filter fun p => counts (rays p)).card : ℝ)) mean

end

end Optika
