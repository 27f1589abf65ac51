import Verif.Model.Interp

/-!
# Formulas and files of chemicals

`optika/chemicals/_chemicals.py` lines 26–144.  Strings are lists of characters.
-/

namespace Optika

/-- `re.sub(r"\d+", r"$_\g<0>$", formula)` while within (`true`) or outside (`false`) of a number.
Simplified: `\d` also matches digits which are not ASCII. -/
def subDigits : Bool → List Char → List Char
  | false, [] => []
  | true, [] => ['$']
  | false, c :: cs => if c.isDigit then '$' :: '_' :: c :: subDigits true cs else c :: subDigits false cs
  | true, c :: cs => if c.isDigit then c :: subDigits true cs else '$' :: c :: subDigits false cs

/-- `AbstractChemical.formula_latex`, lines 36–51. -/
def formulaLatex (formula : List Char) : List Char := subDigits false formula

/-- `AbstractChemical.file_nk`, lines 67–99: the name of the file. -/
def fileNk (formula : List Char) (table : Option (List Char)) (isAmorphous : Bool) : List Char :=
  let file := formula
  let file := table.elim file fun t => file ++ '_' :: t
  let file := if isAmorphous then 'a' :: '-' :: file else file
  file ++ ['.', 'n', 'k']

/-- A line of a file: a comment, which begins with `;`, or a row of wavelength, `n` and `k`. -/
inductive NkLine where
  | comment (text : List Char)
  | row (wavelength n k : ℝ)

/-- Whether the line is a comment. -/
def NkLine.isComment : NkLine → Bool
  | .comment _ => true
  | .row .. => false

/-- `numpy.loadtxt`: an exception for lines which are not rows of numbers. -/
def NkLine.load : List NkLine → Option (List (ℝ × ℝ × ℝ))
  | [] => some []
  | .comment _ :: _ => none
  | .row w n k :: l => (NkLine.load l).map ((w, n, k) :: ·)

/-- Reading a file, lines 118–133: `skip_header` is the number of comments at the top. -/
def readNk (file : List NkLine) : Option (List (ℝ × ℝ × ℝ)) :=
  let skipHeader := (file.takeWhile NkLine.isComment).length
  NkLine.load (file.drop skipHeader)

/-- `AbstractChemical.n`, lines 101–144, for one chemical; `files` are the files in `nk`. -/
noncomputable def chemicalIndex (files : List Char → Option (List NkLine)) (formula : List Char)
    (table : Option (List Char)) (isAmorphous : Bool) (wavelength : ℝ) : Option (ℝ × ℝ) := do
  let file ← files (fileNk formula table isAmorphous)
  let rows ← readNk file
  chemicalN rows wavelength

end Optika
