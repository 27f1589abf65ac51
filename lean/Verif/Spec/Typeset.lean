/-!
# What TeX prints

The part of TeX that formulas use: `$` begins and ends math mode; in math mode `_` makes a subscript of
the next character, or of the group in braces.
-/

namespace Optika

/-- The state of TeX: text, math, after `_`, and within the braces of a subscript. -/
inductive TexMode where
  | text
  | math
  | sub
  | group

/-- The printed characters, and whether each is a subscript. -/
def typeset : TexMode → List Char → List (Char × Bool)
  | _, [] => []
  | .text, c :: cs => if c = '$' then typeset .math cs else (c, false) :: typeset .text cs
  | .math, c :: cs =>
    if c = '$' then typeset .text cs
    else if c = '_' then typeset .sub cs
    else (c, false) :: typeset .math cs
  | .sub, c :: cs => if c = '{' then typeset .group cs else (c, true) :: typeset .math cs
  | .group, c :: cs => if c = '}' then typeset .math cs else (c, true) :: typeset .group cs

/-- Characters without a meaning to TeX. -/
def PlainChar (c : Char) : Prop := c ≠ '$' ∧ c ≠ '_' ∧ c ≠ '{' ∧ c ≠ '}'

end Optika
