import Verif.Model.Numeric

/-!
# The resolution target

`optika/targets/_airforce/_airforce.py`.  The page of the chart is drawn by `pymupdf` and read by `matplotlib`; the rows of
the picture run from the top to the bottom, and a pixel is the list of its channels.
-/

namespace Optika

/-- `airforce`, `optika/targets/_airforce/_airforce.py` lines 68–72: the picture from the bottom to the top, the sum of the
channels, relative to the brightest pixel, and inverted.  The maximum of an empty picture raises an exception, and a picture
that is black everywhere is divided by zero. -/
noncomputable def airforce (picture : List (List (List ℝ))) : Option (List (List ℝ)) := do
  let img := picture.reverse.map fun row => row.map List.sum
  let m ← img.flatten.max?
  img.mapM fun row => row.mapM fun v => (div? v m).map fun q => -q + 1

end Optika
