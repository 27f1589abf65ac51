import Verif.Model.Printing
import Mathlib.Data.List.Flatten

/-!
# C96: printing
-/

namespace Optika

/-! ## Specification: indented lines -/

/-- A text of several lines: the depth of the nesting and the text of each. -/
abbrev Lines := List (ℕ × List Char)

/-- One level deeper. -/
def Lines.nest (ls : Lines) : Lines := ls.map fun l => (l.1 + 1, l.2)

/-- A label in front of the first line. -/
def Lines.label (t : List Char) : Lines → Lines
  | [] => []
  | l :: ls => (l.1, t ++ l.2) :: ls

/-- A comma at the end of the last line. -/
def Lines.comma : Lines → Lines
  | [] => []
  | [l] => [(l.1, l.2 ++ [','])]
  | l :: l' :: ls => l :: Lines.comma (l' :: ls)

mutual
/-- How a value is laid out: what is enclosed by brackets is on lines of its own, one level deeper. -/
def PyValue.layout : PyValue → Lines
  | .other text => [(0, text)]
  | .list items => (0, ['[']) :: items.layout ++ [(0, [']'])]
  | .object name .nil => [(0, name ++ ['(', ')'])]
  | .object name (.cons f v rest) =>
    (0, name ++ ['(']) :: ((v.layout.comma.label (f ++ ['='])).nest ++ rest.layout) ++ [(0, [')'])]
/-- The items of a list. -/
def PyItems.layout : PyItems → Lines
  | .nil => []
  | .cons v rest => v.layout.comma.nest ++ rest.layout
/-- The fields of an object with their names. -/
def PyFields.layout : PyFields → Lines
  | .nil => []
  | .cons f v rest => (v.layout.comma.label (f ++ ['='])).nest ++ rest.layout
end

/-- The lines as one text: each line but the first on a new line, behind `k` blanks and four more for
each level. -/
def Lines.render (k : ℕ) : Lines → List Char
  | [] => []
  | l :: ls => l.2 ++ ls.flatMap fun l => '\n' :: (blanks (k + 4 * l.1) ++ l.2)

/-! ## Proofs -/

theorem blanks_add (m n : ℕ) : blanks (m + n) = blanks m ++ blanks n := by
  exact List.replicate_add m n ' '

theorem Lines.render_label (k : ℕ) (t : List Char) {ls : Lines} (h : ls ≠ []) :
    (ls.label t).render k = t ++ ls.render k := by
  cases ls with
  | nil => exact absurd rfl h
  | cons l ls => simp [Lines.label, Lines.render]

theorem Lines.comma_ne {ls : Lines} (h : ls ≠ []) : ls.comma ≠ [] := by
  match ls, h with
  | [l], _ => simp [Lines.comma]
  | l :: l' :: ls, _ => simp [Lines.comma]

theorem Lines.render_comma (k : ℕ) {ls : Lines} (h : ls ≠ []) :
    ls.comma.render k = ls.render k ++ [','] := by
  suffices H : ∀ ls : Lines, ls ≠ [] → (ls.comma.flatMap fun l => '\n' :: (blanks (k + 4 * l.1) ++ l.2))
      = (ls.flatMap fun l => '\n' :: (blanks (k + 4 * l.1) ++ l.2)) ++ [','] by
    match ls, h with
    | [l], _ => simp [Lines.comma, Lines.render]
    | l :: l' :: ls, _ => simp [Lines.comma, Lines.render, H (l' :: ls) (by simp)]
  intro ls h
  induction ls with
  | nil => exact absurd rfl h
  | cons l ls ih =>
    cases ls with
    | nil => simp [Lines.comma]
    | cons l' ls => simp only [Lines.comma, List.flatMap_cons] at ih ⊢; rw [ih (by simp)]; simp

/-- Lines behind each other, each on a new line. -/
def Lines.renderAll (k : ℕ) (ls : Lines) : List Char :=
  ls.flatMap fun l => blanks (k + 4 * l.1) ++ l.2 ++ ['\n']

theorem Lines.renderAll_append (k : ℕ) (a b : Lines) :
    Lines.renderAll k (a ++ b) = Lines.renderAll k a ++ Lines.renderAll k b := by
  simp [Lines.renderAll]

theorem Lines.renderAll_eq (k : ℕ) {ls : Lines} {l : ℕ × List Char} (h : ls.head? = some l) :
    Lines.renderAll k ls = blanks (k + 4 * l.1) ++ ls.render k ++ ['\n'] := by
  cases ls with
  | nil => simp at h
  | cons x ls =>
    simp only [List.head?_cons, Option.some.injEq] at h
    subst h
    have H : ∀ ls : Lines, '\n' :: Lines.renderAll k ls
        = (ls.flatMap fun l => '\n' :: (blanks (k + 4 * l.1) ++ l.2)) ++ ['\n'] := by
      intro ls
      induction ls with
      | nil => rfl
      | cons l ls ih =>
        simp only [Lines.renderAll, List.flatMap_cons] at ih ⊢
        simp only [List.append_assoc, List.cons_append]
        rw [← ih]; simp
    have := H ls
    simp only [Lines.renderAll, List.flatMap_cons, Lines.render] at this ⊢
    simp only [List.append_assoc, ← this]
    simp

theorem Lines.renderAll_nest (k : ℕ) (ls : Lines) : Lines.renderAll k ls.nest = Lines.renderAll (k + 4) ls := by
  simp only [Lines.renderAll, Lines.nest, List.flatMap_map]
  congr 1
  funext l
  rw [show k + 4 * (l.1 + 1) = k + 4 + 4 * l.1 by omega]

/-- A layout begins on level zero. -/
theorem PyValue.layout_head (v : PyValue) : ∃ t, v.layout.head? = some (0, t) := by
  cases v with
  | other t => exact ⟨t, rfl⟩
  | list items => exact ⟨_, rfl⟩
  | object name fields => cases fields <;> exact ⟨_, rfl⟩

theorem PyValue.layout_ne (v : PyValue) : v.layout ≠ [] := by
  obtain ⟨t, h⟩ := v.layout_head
  intro h0
  rw [h0] at h
  simp at h

theorem Lines.comma_head {ls : Lines} {t : List Char} (h : ls.head? = some (0, t)) :
    ∃ t, ls.comma.head? = some (0, t) := by
  match ls, h with
  | [l], h => simp at h; subst h; exact ⟨_, rfl⟩
  | l :: l' :: ls, h => simp at h; subst h; exact ⟨_, rfl⟩

theorem Lines.label_head {ls : Lines} {t : List Char} (s : List Char) (h : ls.head? = some (0, t)) :
    ∃ t, (ls.label s).head? = some (0, t) := by
  match ls, h with
  | l :: ls, h => simp at h; subst h; exact ⟨_, rfl⟩

/-- An item of a list or a field of an object, on lines of their own. -/
theorem item_lines (k : ℕ) (s : List Char) (v : PyValue) :
    blanks (k + 4) ++ s ++ v.layout.render (k + 4) ++ [',', '\n']
      = Lines.renderAll k ((v.layout.comma.label s).nest) := by
  obtain ⟨t, h⟩ := v.layout_head
  obtain ⟨t', h'⟩ := Lines.comma_head h
  obtain ⟨t'', h''⟩ := Lines.label_head s h'
  rw [Lines.renderAll_nest, Lines.renderAll_eq _ h'', Lines.render_label _ _ (Lines.comma_ne v.layout_ne),
    Lines.render_comma _ v.layout_ne]
  simp

theorem Lines.label_nil (ls : Lines) : ls.label [] = ls := by
  cases ls <;> simp [Lines.label]

theorem Lines.render_enclosed (k : ℕ) (a b : List Char) (ls : Lines) :
    Lines.render k ((0, a) :: ls ++ [(0, b)]) = a ++ ['\n'] ++ Lines.renderAll k ls ++ blanks k ++ b := by
  have H : ∀ ls : Lines, (ls.flatMap fun l => '\n' :: (blanks (k + 4 * l.1) ++ l.2)) ++ ['\n']
      = '\n' :: Lines.renderAll k ls := by
    intro ls
    induction ls with
    | nil => rfl
    | cons l ls ih =>
      simp only [Lines.renderAll, List.flatMap_cons] at ih ⊢
      simp only [List.append_assoc, List.cons_append]
      rw [ih]; simp
  have := H ls
  simp only [List.cons_append, Lines.render, List.flatMap_append, List.flatMap_cons, List.flatMap_nil,
    List.append_nil, Nat.mul_zero, Nat.add_zero, List.append_assoc, List.nil_append] at this ⊢
  rw [show '\n' :: (blanks k ++ b) = ['\n'] ++ (blanks k ++ b) from rfl, ← List.append_assoc _ ['\n'], this]
  simp

mutual
theorem valToString_eq (k : ℕ) : ∀ v : PyValue, valToString (blanks k) v = v.layout.render (k + 4)
  | .other t => by simp [valToString, PyValue.layout, Lines.render]
  | .list items => by
    rw [PyValue.layout, Lines.render_enclosed, valToString, itemsToString_eq k items, tabulator, ← blanks_add]
    simp
  | .object name .nil => by simp [valToString, fieldsToString, PyValue.layout, Lines.render]
  | .object name (.cons f v rest) => by
    have hb : blanks (blanks k ++ tabulator).length = blanks (k + 4) := by simp [tabulator, blanks]
    rw [PyValue.layout, Lines.render_enclosed]
    have h := fieldsToString_eq (k + 4) (.cons f v rest)
    rw [PyFields.layout] at h
    rw [valToString, hb]
    rw [if_neg (by simp [fieldsToString]), h]
    simp
theorem itemsToString_eq (k : ℕ) : ∀ vs : PyItems, itemsToString (blanks k) vs = vs.layout.renderAll (k + 4)
  | .nil => by simp [itemsToString, PyItems.layout, Lines.renderAll]
  | .cons v rest => by
    have h := item_lines (k + 4) [] v
    rw [Lines.label_nil, List.append_nil] at h
    rw [PyItems.layout, Lines.renderAll_append, ← itemsToString_eq k rest, ← h, itemsToString,
      tabulator, ← blanks_add, ← blanks_add, valToString_eq (k + 4) v]
theorem fieldsToString_eq (k : ℕ) : ∀ fs : PyFields, fieldsToString (blanks k) fs = fs.layout.renderAll k
  | .nil => by simp [fieldsToString, PyFields.layout, Lines.renderAll]
  | .cons f v rest => by
    have h := item_lines k (f ++ ['=']) v
    rw [PyFields.layout, Lines.renderAll_append, ← fieldsToString_eq k rest, ← h, fieldsToString,
      tabulator, ← blanks_add, valToString_eq k v]
    simp
end

/-- **C96**: an object is printed in lines that are indented by four blanks for each level of nesting,
all but the first behind as many blanks as the prefix is long. -/
theorem C96_layout (pfx : List Char) (name : List Char) (fields : PyFields) :
    toStringPrinted none name fields = (PyValue.object name fields).layout.render 0
    ∧ toStringPrinted (some pfx) name fields = (PyValue.object name fields).layout.render pfx.length := by
  have H : ∀ k, name ++ ['('] ++ (if (fieldsToString (blanks k) fields).isEmpty then []
      else ['\n'] ++ fieldsToString (blanks k) fields ++ blanks k) ++ [')']
      = (PyValue.object name fields).layout.render k := by
    intro k
    cases fields with
    | nil => simp [fieldsToString, PyValue.layout, Lines.render]
    | cons f v rest =>
      have h := fieldsToString_eq k (.cons f v rest)
      rw [PyFields.layout] at h
      rw [PyValue.layout, Lines.render_enclosed, if_neg (by simp [fieldsToString]), h]
      simp
  exact ⟨H 0, H pfx.length⟩

/-- **C96**: the prefix shifts all lines but the first by its length and changes nothing else. -/
theorem C96_prefix (pfx : List Char) (name : List Char) (fields : PyFields) :
    ∃ (first : List Char) (rest : List (List Char)), toStringPrinted none name fields
        = first ++ rest.flatMap (fun l => '\n' :: l)
      ∧ toStringPrinted (some pfx) name fields
        = first ++ rest.flatMap (fun l => '\n' :: (blanks pfx.length ++ l)) := by
  obtain ⟨h1, h2⟩ := C96_layout pfx name fields
  rw [h1, h2]
  obtain ⟨l, ls, h⟩ : ∃ l ls, (PyValue.object name fields).layout = l :: ls :=
    List.exists_cons_of_ne_nil (PyValue.layout_ne _)
  rw [h]
  refine ⟨l.2, ls.map fun l => blanks (4 * l.1) ++ l.2, ?_, ?_⟩
  · simp [Lines.render, List.flatMap_map]
  · simp [Lines.render, List.flatMap_map, blanks_add]

mutual
/-- Values whose texts are on one line and are not those of an object without fields, and fields whose
names contain no equals sign. -/
def PyValue.Clear : PyValue → Prop
  | .other t => '\n' ∉ t ∧ ∀ name, t ≠ name ++ ['(', ')']
  | .list items => items.Clear
  | .object name fields => '\n' ∉ name ∧ fields.Clear
/-- The items of a list. -/
def PyItems.Clear : PyItems → Prop
  | .nil => True
  | .cons v rest => v.Clear ∧ rest.Clear
/-- The fields of an object. -/
def PyFields.Clear : PyFields → Prop
  | .nil => True
  | .cons f v rest => '=' ∉ f ∧ v.Clear ∧ rest.Clear
end

/-- What precedes the first occurrence of a character is determined. -/
theorem split_unique {c : Char} {x y r s : List Char} (hx : c ∉ x) (hy : c ∉ y)
    (h : x ++ c :: r = y ++ c :: s) : x = y ∧ r = s := by
  induction x generalizing y with
  | nil =>
    cases y with
    | nil => simpa using h
    | cons a y =>
      simp at h hy
      exact absurd h.1 hy.1
  | cons a x ih =>
    cases y with
    | nil =>
      simp at h hx
      exact absurd h.1.symm hx.1
    | cons b y =>
      simp at h hx hy
      obtain ⟨h1, h2⟩ := ih hx.2 hy.2 h.2
      exact ⟨by rw [h.1, h1], h2⟩

/-- The first line of a value with a comma behind it, and what follows. -/
def PyValue.firstLine : PyValue → List Char
  | .other t => t ++ [',']
  | .list _ => ['[']
  | .object name .nil => name ++ ['(', ')', ',']
  | .object name (.cons ..) => name ++ ['(']

theorem PyValue.firstLine_clear {v : PyValue} (h : v.Clear) : '\n' ∉ v.firstLine := by
  cases v with
  | other t => simp [PyValue.Clear] at h; simp [PyValue.firstLine, h.1]
  | list items => simp [PyValue.firstLine]
  | object name fields =>
    simp [PyValue.Clear] at h
    cases fields <;> simp [PyValue.firstLine, h.1]

/-- What follows the first line. -/
def PyValue.otherLines (k : ℕ) (r : List Char) : PyValue → List Char
  | .other _ => r
  | .list items => itemsToString (blanks k) items ++ (blanks (k + 4) ++ ']' :: ',' :: '\n' :: r)
  | .object _ .nil => r
  | .object _ (.cons f v rest) =>
    fieldsToString (blanks (k + 4)) (.cons f v rest) ++ (blanks (k + 4) ++ ')' :: ',' :: '\n' :: r)

theorem valToString_lines (k : ℕ) (v : PyValue) (r : List Char) :
    valToString (blanks k) v ++ ',' :: '\n' :: r = v.firstLine ++ '\n' :: v.otherLines k r := by
  have hb : blanks (blanks k ++ tabulator).length = blanks (k + 4) := by simp [tabulator, blanks]
  cases v with
  | other t => simp [valToString, PyValue.firstLine, PyValue.otherLines]
  | list items =>
    rw [valToString, tabulator, ← blanks_add]
    simp [PyValue.firstLine, PyValue.otherLines]
  | object name fields =>
    cases fields with
    | nil => simp [valToString, fieldsToString, PyValue.firstLine, PyValue.otherLines]
    | cons f v rest =>
      rw [valToString, hb, if_neg (by simp [fieldsToString])]
      simp [PyValue.firstLine, PyValue.otherLines]

theorem blanks_succ (k : ℕ) : blanks (k + 4) = blanks k ++ ' ' :: blanks 3 := by
  rw [blanks_add]; rfl

mutual
theorem valToString_inj (k : ℕ) : ∀ (v w : PyValue) (r s : List Char), v.Clear → w.Clear →
    valToString (blanks k) v ++ ',' :: '\n' :: r = valToString (blanks k) w ++ ',' :: '\n' :: s →
    v = w ∧ r = s
  | v, w, r, s, hv, hw, h => by
    rw [valToString_lines, valToString_lines] at h
    obtain ⟨h1, h2⟩ := split_unique (PyValue.firstLine_clear hv) (PyValue.firstLine_clear hw) h
    match v, w, hv, hw, h1, h2 with
    | .other t, .other t', hv, hw, h1, h2 =>
      simp only [PyValue.firstLine, List.append_cancel_right_eq] at h1
      exact ⟨by rw [h1], h2⟩
    | .other t, .list items', hv, hw, h1, h2 =>
      exact absurd (congrArg List.getLast? h1) (by simp [PyValue.firstLine])
    | .other t, .object name' .nil, hv, hw, h1, h2 =>
      refine absurd ?_ (hv.2 name')
      rw [PyValue.firstLine, PyValue.firstLine, show ['(', ')', ','] = ['(', ')'] ++ [','] from rfl,
        ← List.append_assoc, List.append_cancel_right_eq] at h1
      exact h1
    | .other t, .object name' (.cons ..), hv, hw, h1, h2 =>
      exact absurd (congrArg List.getLast? h1) (by simp [PyValue.firstLine])
    | .list items, .other t', hv, hw, h1, h2 =>
      exact absurd (congrArg List.getLast? h1) (by simp [PyValue.firstLine])
    | .list items, .list items', hv, hw, h1, h2 =>
      obtain ⟨e, e'⟩ := itemsToString_inj k items items' _ _ hv hw h2
      exact ⟨by rw [e], by simpa using e'⟩
    | .list items, .object name' .nil, hv, hw, h1, h2 =>
      exact absurd (congrArg List.getLast? h1) (by simp [PyValue.firstLine])
    | .list items, .object name' (.cons ..), hv, hw, h1, h2 =>
      exact absurd (congrArg List.getLast? h1) (by simp [PyValue.firstLine])
    | .object name .nil, .other t', hv, hw, h1, h2 =>
      refine absurd ?_ (hw.2 name)
      rw [PyValue.firstLine, PyValue.firstLine, show ['(', ')', ','] = ['(', ')'] ++ [','] from rfl,
        ← List.append_assoc, List.append_cancel_right_eq] at h1
      exact h1.symm
    | .object name .nil, .list items', hv, hw, h1, h2 =>
      exact absurd (congrArg List.getLast? h1) (by simp [PyValue.firstLine])
    | .object name .nil, .object name' .nil, hv, hw, h1, h2 =>
      simp only [PyValue.firstLine, List.append_cancel_right_eq] at h1
      exact ⟨by rw [h1], h2⟩
    | .object name .nil, .object name' (.cons ..), hv, hw, h1, h2 =>
      exact absurd (congrArg List.getLast? h1) (by simp [PyValue.firstLine])
    | .object name (.cons ..), .other t', hv, hw, h1, h2 =>
      exact absurd (congrArg List.getLast? h1) (by simp [PyValue.firstLine])
    | .object name (.cons ..), .list items', hv, hw, h1, h2 =>
      exact absurd (congrArg List.getLast? h1) (by simp [PyValue.firstLine])
    | .object name (.cons ..), .object name' .nil, hv, hw, h1, h2 =>
      exact absurd (congrArg List.getLast? h1) (by simp [PyValue.firstLine])
    | .object name (.cons f v rest), .object name' (.cons f' v' rest'), hv, hw, h1, h2 =>
      simp only [PyValue.firstLine, List.append_cancel_right_eq] at h1
      obtain ⟨e, e'⟩ := fieldsToString_inj (k + 4) (.cons f v rest) (.cons f' v' rest') _ _ hv.2 hw.2 h2
      exact ⟨by rw [h1, e], by simpa using e'⟩
theorem itemsToString_inj (k : ℕ) : ∀ (v w : PyItems) (r s : List Char), v.Clear → w.Clear →
    itemsToString (blanks k) v ++ (blanks (k + 4) ++ ']' :: r)
      = itemsToString (blanks k) w ++ (blanks (k + 4) ++ ']' :: s) → v = w ∧ r = s
  | .nil, .nil, r, s, _, _, h => by simpa [itemsToString] using h
  | .nil, .cons v rest, r, s, _, _, h => by
    rw [itemsToString, itemsToString, tabulator, ← blanks_add, ← blanks_add, blanks_succ (k + 4)] at h
    simp at h
  | .cons v rest, .nil, r, s, _, _, h => by
    rw [itemsToString, itemsToString, tabulator, ← blanks_add, ← blanks_add, blanks_succ (k + 4)] at h
    simp at h
  | .cons v rest, .cons v' rest', r, s, hv, hw, h => by
    rw [itemsToString, itemsToString, tabulator, ← blanks_add, ← blanks_add] at h
    simp only [List.append_assoc, List.append_cancel_left_eq, List.cons_append, List.nil_append] at h
    obtain ⟨e, h'⟩ := valToString_inj (k + 4) v v' _ _ hv.1 hw.1 h
    obtain ⟨e', h''⟩ := itemsToString_inj k rest rest' _ _ hv.2 hw.2 h'
    exact ⟨by rw [e, e'], h''⟩
theorem fieldsToString_inj (k : ℕ) : ∀ (v w : PyFields) (r s : List Char), v.Clear → w.Clear →
    fieldsToString (blanks k) v ++ (blanks k ++ ')' :: r)
      = fieldsToString (blanks k) w ++ (blanks k ++ ')' :: s) → v = w ∧ r = s
  | .nil, .nil, r, s, _, _, h => by simpa [fieldsToString] using h
  | .nil, .cons f v rest, r, s, _, _, h => by
    rw [fieldsToString, fieldsToString, tabulator, ← blanks_add, blanks_succ k] at h
    simp at h
  | .cons f v rest, .nil, r, s, _, _, h => by
    rw [fieldsToString, fieldsToString, tabulator, ← blanks_add, blanks_succ k] at h
    simp at h
  | .cons f v rest, .cons f' v' rest', r, s, hv, hw, h => by
    rw [fieldsToString, fieldsToString, tabulator, ← blanks_add] at h
    simp only [List.append_assoc, List.append_cancel_left_eq, List.cons_append, List.nil_append] at h
    obtain ⟨e0, h⟩ := split_unique hv.1 hw.1 h
    obtain ⟨e, h'⟩ := valToString_inj k v v' _ _ hv.2.1 hw.2.1 h
    obtain ⟨e', h''⟩ := fieldsToString_inj k rest rest' _ _ hv.2.2 hw.2.2 h'
    exact ⟨by rw [e0, e, e'], h''⟩
end

/-- **C96**: what is printed determines the class, the names of the fields, the structure of their values
and the texts of all numbers, quantities and strings in them. -/
theorem C96_determined {pfx : Option (List Char)} {name name' : List Char} {fields fields' : PyFields}
    (hn : '\n' ∉ name) (hn' : '\n' ∉ name') (hf : fields.Clear) (hf' : fields'.Clear)
    (h : toStringPrinted pfx name fields = toStringPrinted pfx name' fields') :
    name = name' ∧ fields = fields' := by
  have H : ∀ k, name ++ ['('] ++ (if (fieldsToString (blanks k) fields).isEmpty then []
      else ['\n'] ++ fieldsToString (blanks k) fields ++ blanks k) ++ [')']
      = name' ++ ['('] ++ (if (fieldsToString (blanks k) fields').isEmpty then []
      else ['\n'] ++ fieldsToString (blanks k) fields' ++ blanks k) ++ [')'] →
      name = name' ∧ fields = fields' := by
    intro k h
    cases fields with
    | nil =>
      cases fields' with
      | nil =>
        simp only [fieldsToString, List.isEmpty_nil, if_true, List.append_nil, List.append_cancel_right_eq] at h
        exact ⟨h, rfl⟩
      | cons f v rest =>
        rw [if_neg (by simp [fieldsToString]) (c := (fieldsToString (blanks k) (.cons f v rest)).isEmpty = true)]
          at h
        have : '\n' ∈ name ++ ['('] ++ (if (fieldsToString (blanks k) .nil).isEmpty then []
            else ['\n'] ++ fieldsToString (blanks k) .nil ++ blanks k) ++ [')'] := by rw [h]; simp
        simp [fieldsToString] at this
        exact absurd this hn
    | cons f v rest =>
      rw [if_neg (by simp [fieldsToString]) (c := (fieldsToString (blanks k) (.cons f v rest)).isEmpty = true)]
        at h
      cases fields' with
      | nil =>
        have : '\n' ∈ name' ++ ['('] ++ (if (fieldsToString (blanks k) .nil).isEmpty then []
            else ['\n'] ++ fieldsToString (blanks k) .nil ++ blanks k) ++ [')'] := by rw [← h]; simp
        simp [fieldsToString] at this
        exact absurd this hn'
      | cons f' v' rest' =>
        rw [if_neg (by simp [fieldsToString])] at h
        simp only [List.append_assoc, List.cons_append, List.nil_append] at h
        have h1 : (name ++ ['(']) ++ '\n' :: (fieldsToString (blanks k) (.cons f v rest)
              ++ (blanks k ++ ')' :: []))
            = (name' ++ ['(']) ++ '\n' :: (fieldsToString (blanks k) (.cons f' v' rest')
              ++ (blanks k ++ ')' :: [])) := by simpa using h
        obtain ⟨e, h2⟩ := split_unique (by simpa using hn) (by simpa using hn') h1
        obtain ⟨e', -⟩ := fieldsToString_inj k _ _ _ _ hf hf' h2
        exact ⟨List.append_cancel_right e, e'⟩
  cases pfx with
  | none => exact H 0 h
  | some p => exact H p.length h

/-- A surface with a sag and a list of two, as it is printed. -/
example : String.ofList (toStringPrinted none "Surface".toList
      (.cons "name".toList (.other "None".toList)
      (.cons "sag".toList (.object "SphericalSag".toList (.cons "radius".toList (.other "2.0".toList) .nil))
      (.cons "parts".toList (.list (.cons (.other "1".toList) (.cons (.object "NoSag".toList .nil) .nil)))
        .nil))))
    = "Surface(\n    name=None,\n    sag=SphericalSag(\n        radius=2.0,\n    ),\n    parts=[\n        1,\n        NoSag(),\n    ],\n)" := by
  decide

end Optika
