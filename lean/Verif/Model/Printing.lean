import Mathlib.Data.List.Basic

/-!
# Printing of objects

`optika/mixins.py` lines 40–122.  Texts are lists of characters.
-/

namespace Optika

mutual
/-- The values of fields of a `Printable`: objects that are themselves `Printable` with the name of
their class and their fields, lists, and everything else, of which only the text that `repr`,
`np.array2string` or the `to_string` of named_arrays gives is modelled. -/
inductive PyValue
  | other (text : List Char)
  | list (items : PyItems)
  | object (name : List Char) (fields : PyFields)
/-- The items of a list. -/
inductive PyItems
  | nil
  | cons (item : PyValue) (rest : PyItems)
/-- The fields of an object with their names. -/
inductive PyFields
  | nil
  | cons (name : List Char) (value : PyValue) (rest : PyFields)
end

/-- `" " * n`. -/
def blanks (n : ℕ) : List Char := List.replicate n ' '

/-- `tab = " " * 4`, `optika/mixins.py` line 101. -/
def tabulator : List Char := blanks 4

mutual
/-- `Printable._val_to_string`, `optika/mixins.py` lines 44–79, for `tab` of four blanks.  The branch of
objects contains `to_string` (lines 98–119) with the prefix `pre + tab`. -/
def valToString (pre : List Char) : PyValue → List Char
  | .other text => text
  | .list items => ['[', '\n'] ++ itemsToString pre items ++ (pre ++ tabulator ++ [']'])
  | .object name fields =>
    let pre' := blanks (pre ++ tabulator).length
    let resultFields := fieldsToString pre' fields
    name ++ ['('] ++ (if resultFields.isEmpty then [] else ['\n'] ++ resultFields ++ pre') ++ [')']
/-- The loop over the items of a list, lines 66–74. -/
def itemsToString (pre : List Char) : PyItems → List Char
  | .nil => []
  | .cons v rest =>
    pre ++ tabulator ++ tabulator ++ valToString (pre ++ tabulator) v ++ [',', '\n']
      ++ itemsToString pre rest
/-- The loop over the fields of an object, lines 103–114. -/
def fieldsToString (pre : List Char) : PyFields → List Char
  | .nil => []
  | .cons name v rest =>
    pre ++ tabulator ++ name ++ ['='] ++ valToString pre v ++ [',', '\n'] ++ fieldsToString pre rest
end

/-- `Printable.to_string`, `optika/mixins.py` lines 81–119, of the object with the class `name` and the
given fields. -/
def toStringPrinted (pfx : Option (List Char)) (name : List Char) (fields : PyFields) : List Char :=
  let pre := match pfx with
    | none => []
    | some p => blanks p.length
  let resultFields := fieldsToString pre fields
  name ++ ['('] ++ (if resultFields.isEmpty then [] else ['\n'] ++ resultFields ++ pre) ++ [')']

end Optika
