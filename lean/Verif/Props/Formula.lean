import Verif.Model.Formula
import Verif.Spec.Typeset
import Verif.Props.Interp

/-!
# C76 and C77: formulas and tables of chemicals
-/

namespace Optika

/-! ## C76: typeset formulas -/

/-- The first digit of each number is marked; `prev` says whether the character before is a digit. -/
def markFirst : Bool → List Char → List (Char × Bool)
  | _, [] => []
  | prev, c :: cs => (c, c.isDigit && !prev) :: markFirst c.isDigit cs

theorem typeset_subDigits (f : List Char) (hf : ∀ c ∈ f, PlainChar c) :
    typeset .text (subDigits false f) = markFirst false f ∧
    typeset .math (subDigits true f) = markFirst true f := by
  induction f with
  | nil => simp [subDigits, typeset, markFirst]
  | cons c cs ih =>
    obtain ⟨ih1, ih2⟩ := ih fun c' h => hf c' (List.mem_cons_of_mem _ h)
    obtain ⟨h1, h2, h3, h4⟩ := hf c List.mem_cons_self
    cases hc : c.isDigit <;>
      simp [subDigits, typeset, markFirst, hc, h1, h2, h3, ih1, ih2]

/-- **C76**: `formula_latex` prints the characters of the formula, all of them and in their order. -/
theorem C76_characters (f : List Char) (hf : ∀ c ∈ f, PlainChar c) :
    (typeset .text (formulaLatex f)).map Prod.fst = f := by
  rw [formulaLatex, (typeset_subDigits f hf).1]
  have : ∀ b, (markFirst b f).map Prod.fst = f := by
    clear hf
    induction f with
    | nil => intro b; rfl
    | cons c cs ih => intro b; simp [markFirst, ih]
  exact this false

/-- **C76**: what is not a digit is not a subscript, and the first digit of each number is one. -/
theorem C76_first (f : List Char) (hf : ∀ c ∈ f, PlainChar c) (i : ℕ) (hi : i < f.length) :
    (typeset .text (formulaLatex f))[i]? =
      some (f[i], f[i].isDigit && (i == 0 || !(f.getD (i - 1) 'x').isDigit)) := by
  rw [formulaLatex, (typeset_subDigits f hf).1]
  have key : ∀ (f : List Char) (b : Bool) (i : ℕ) (hi : i < f.length), (markFirst b f)[i]? =
      some (f[i], f[i].isDigit && !(if i = 0 then b else (f.getD (i - 1) 'x').isDigit)) := by
    intro f
    induction f with
    | nil => intro b i hi; simp at hi
    | cons c cs ih =>
      intro b i hi
      cases i with
      | zero => simp [markFirst]
      | succ i =>
        have := ih c.isDigit i (by simpa using hi)
        simp only [markFirst, List.getElem?_cons_succ, this, List.getElem_cons_succ]
        cases i with
        | zero => simp
        | succ i => simp
  rw [key f false i hi]
  cases i with
  | zero => simp
  | succ i => simp

/-- **C76** (partial): if no number of the formula has more than one digit, the numbers are printed as
subscripts and nothing else is.  Missing: numbers of several digits, see below. -/
theorem C76_subscripts_partial (f : List Char) (hf : ∀ c ∈ f, PlainChar c)
    (h : f.IsChain fun a b => ¬(a.isDigit = true ∧ b.isDigit = true)) :
    typeset .text (formulaLatex f) = f.map fun c => (c, c.isDigit) := by
  rw [formulaLatex, (typeset_subDigits f hf).1]
  have key : ∀ (f : List Char) (b : Bool),
      (f.IsChain fun a b => ¬(a.isDigit = true ∧ b.isDigit = true)) →
      (∀ c, f.head? = some c → ¬(b = true ∧ c.isDigit = true)) →
      markFirst b f = f.map fun c => (c, c.isDigit) := by
    intro f
    induction f with
    | nil => intro b _ _; rfl
    | cons c cs ih =>
      intro b hch hb
      have hb := hb c rfl
      rw [List.isChain_cons] at hch
      simp only [markFirst, List.map_cons, List.cons.injEq, Prod.mk.injEq, true_and]
      refine ⟨?_, ih _ hch.2 fun d hd => hch.1 d (by simpa using hd)⟩
      cases hc : c.isDigit <;> cases b <;> simp_all
  exact key f false h (by simp)

/-- **C76**: what follows a formula, such as the rest of the label of a plot, is printed as if the
formula were not there. -/
theorem C76_rest (f rest : List Char) (hf : ∀ c ∈ f, PlainChar c) :
    typeset .text (formulaLatex f ++ rest) =
      typeset .text (formulaLatex f) ++ typeset .text rest := by
  have key : typeset .text (subDigits false f ++ rest) =
        typeset .text (subDigits false f) ++ typeset .text rest ∧
      typeset .math (subDigits true f ++ rest) =
        typeset .math (subDigits true f) ++ typeset .text rest := by
    induction f with
    | nil => simp [subDigits, typeset]
    | cons c cs ih =>
      obtain ⟨ih1, ih2⟩ := ih fun c' h => hf c' (List.mem_cons_of_mem _ h)
      obtain ⟨h1, h2, h3, h4⟩ := hf c List.mem_cons_self
      cases hc : c.isDigit <;> simp [subDigits, typeset, hc, h1, h2, h3, ih1, ih2]
  exact key.1

/-- Disagreement with C76: the formula of polyethylene terephthalate, `C10H8O4`, is one of those in
the tables; of the number 10 only the digit 1 is a subscript. -/
theorem C76_subscripts_counterexample :
    typeset .text (formulaLatex ['C', '1', '0', 'H', '8', 'O', '4']) =
      [('C', false), ('1', true), ('0', false), ('H', false), ('8', true), ('O', false),
        ('4', true)] := by
  decide

/-- Silicon dioxide. -/
example : (∀ c ∈ ['S', 'i', 'O', '2'], PlainChar c) ∧
    (['S', 'i', 'O', '2'].IsChain fun a b => ¬(a.isDigit = true ∧ b.isDigit = true)) := by
  constructor
  · simp [PlainChar]
  · simp

/-! ## C77: the table of a chemical -/

/-- **C77**: chemicals which differ in formula, table or structure are read from different files, if no
formula contains an underscore or begins with `a-`. -/
theorem C77_files {f f' : List Char} {t t' : Option (List Char)} {a a' : Bool}
    (hf : '_' ∉ f) (hf' : '_' ∉ f') (ha : ¬['a', '-'] <+: f) (ha' : ¬['a', '-'] <+: f')
    (h : fileNk f t a = fileNk f' t' a') : f = f' ∧ t = t' ∧ a = a' := by
  have strip : ∀ {f f' : List Char} {t t' : Option (List Char)}, '_' ∉ f → '_' ∉ f' →
      (t.elim f fun t => f ++ '_' :: t) = (t'.elim f' fun t => f' ++ '_' :: t) →
      f = f' ∧ t = t' := by
    intro f f' t t' hf hf' h
    have tw : ∀ {f : List Char} {t : Option (List Char)}, '_' ∉ f →
        (t.elim f fun t => f ++ '_' :: t).takeWhile (· ≠ '_') = f ∧
        (t.elim f fun t => f ++ '_' :: t).dropWhile (· ≠ '_') = t.elim [] fun t => '_' :: t := by
      intro f t hf
      have hp : ∀ x ∈ f, decide (x ≠ '_') = true := fun x hx => by
        simp only [decide_eq_true_eq]; rintro rfl; exact hf hx
      cases t with
      | none =>
        constructor
        · have := List.takeWhile_append_of_pos (l₂ := []) hp
          simpa using this
        · have := List.dropWhile_append_of_pos (l₂ := []) hp
          simpa using this
      | some t =>
        constructor
        · rw [Option.elim_some, List.takeWhile_append_of_pos hp]; simp
        · rw [Option.elim_some, List.dropWhile_append_of_pos hp]; simp
    have h1 := tw (t := t) hf
    have h2 := tw (t := t') hf'
    rw [h] at h1
    refine ⟨h1.1.symm.trans h2.1, ?_⟩
    have := h1.2.symm.trans h2.2
    cases t <;> cases t' <;> simp_all
  have pre : ∀ {f : List Char} {t : Option (List Char)} {l : List Char}, '_' ∉ f →
      (t.elim f fun t => f ++ '_' :: t) = 'a' :: '-' :: l → ['a', '-'] <+: f := by
    intro f t l hf h
    match f, t with
    | [], none => simp at h
    | [], some t => simp at h
    | [x], none => simp at h
    | [x], some t => simp at h
    | x :: y :: r, none =>
      simp only [Option.elim_none, List.cons.injEq] at h
      rw [h.1, h.2.1]; exact ⟨r, rfl⟩
    | x :: y :: r, some t =>
      simp only [Option.elim_some, List.cons_append, List.cons.injEq] at h
      rw [h.1, h.2.1]; exact ⟨r, rfl⟩
  have h := List.append_cancel_right h
  cases a <;> cases a' <;> simp only [Bool.false_eq_true, if_false, if_true] at h
  · obtain ⟨h1, h2⟩ := strip hf hf' h
    exact ⟨h1, h2, rfl⟩
  · exact absurd (pre hf h) ha
  · exact absurd (pre hf' h.symm) ha'
  · simp only [List.cons.injEq, true_and] at h
    obtain ⟨h1, h2⟩ := strip hf hf' h
    exact ⟨h1, h2, rfl⟩

/-- The rows of a table as lines of a file. -/
def nkRows (rows : List (ℝ × ℝ × ℝ)) : List NkLine := rows.map fun r => .row r.1 r.2.1 r.2.2

theorem load_rows (rows : List (ℝ × ℝ × ℝ)) : NkLine.load (nkRows rows) = some rows := by
  induction rows with
  | nil => rfl
  | cons r rows ih =>
    have : NkLine.load (nkRows (r :: rows)) = (NkLine.load (nkRows rows)).map ((r.1, r.2.1, r.2.2) :: ·) :=
      rfl
    rw [this, ih]; rfl

/-- **C77**: comments at the top of the file have no influence, all the rows are used, ... -/
theorem C77_read (header : List (List Char)) (rows : List (ℝ × ℝ × ℝ)) :
    readNk (header.map NkLine.comment ++ nkRows rows) = some rows := by
  have h1 : (header.map NkLine.comment ++ nkRows rows).takeWhile NkLine.isComment
      = header.map NkLine.comment := by
    rw [List.takeWhile_append_of_pos (by simp [NkLine.isComment])]
    cases rows <;> simp [nkRows, NkLine.isComment]
  unfold readNk
  rw [h1]
  simp only [List.drop_left']
  exact load_rows rows

/-- ... and the index of refraction at the wavelength of a row is the one in that row of the file that
belongs to the chemical. -/
theorem C77_index (files : List Char → Option (List NkLine)) (f : List Char)
    (t : Option (List Char)) (a : Bool) (header : List (List Char)) (rows : List (ℝ × ℝ × ℝ))
    (hfile : files (fileNk f t a) = some (header.map NkLine.comment ++ nkRows rows))
    (hs : rows.Pairwise fun p q => p.1 ≤ q.1) {i : ℕ} (hi : i < rows.length)
    (hlast : ∀ hi' : i + 1 < rows.length, rows[i].1 < rows[i + 1].1) :
    chemicalIndex files f t a rows[i].1 = some (rows[i].2.1, rows[i].2.2) := by
  simp only [chemicalIndex, hfile, C77_read, Option.bind_eq_bind, Option.bind_some]
  exact C52_chemical_node hs hi hlast

/-- **C77**: the names of the files. -/
theorem C77_name (f t : List Char) :
    fileNk f none false = f ++ ".nk".toList ∧ fileNk f (some t) false = f ++ "_".toList ++ t ++ ".nk".toList ∧
    fileNk f none true = "a-".toList ++ f ++ ".nk".toList ∧
    fileNk f (some t) true = "a-".toList ++ f ++ "_".toList ++ t ++ ".nk".toList := by
  have h1 : ".nk".toList = ['.', 'n', 'k'] := by decide
  have h2 : "_".toList = ['_'] := by decide
  have h3 : "a-".toList = ['a', '-'] := by decide
  rw [h1, h2, h3]
  simp [fileNk]

example : '_' ∉ ['S', 'i', 'O', '2'] ∧ ¬['a', '-'] <+: ['S', 'i', 'O', '2'] := by decide

end Optika
