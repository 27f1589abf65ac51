import Verif.Model.Axes
import Mathlib.Tactic.TautoSet

/-!
# C75: the axes of wavelength, field and pupil are recognized
-/

namespace Optika

/-- The grid `g` of a system with the axes `shape` has at most one axis `w` of wavelengths, two axes `f`
of the field and two axes `p` of the pupil, all of them different and none of them an axis of the system.
The field may also vary with the wavelength, the pupil with wavelength and field, and everything with
the system. -/
structure GridLayout (shape : Finset String) (g : GridAxes) (w f p : Finset String) : Prop where
  one : w.card ≤ 1
  two_field : f.card = 2
  two_pupil : p.card = 2
  w_shape : Disjoint w shape
  f_shape : Disjoint f shape
  p_shape : Disjoint p shape
  f_w : Disjoint f w
  p_w : Disjoint p w
  p_f : Disjoint p f
  wavelength_lower : w ⊆ g.wavelength
  wavelength_upper : g.wavelength ⊆ shape ∪ w
  field_lower : f ⊆ g.field
  field_upper : g.field ⊆ shape ∪ w ∪ f
  pupil_lower : p ⊆ g.pupil
  pupil_upper : g.pupil ⊆ shape ∪ w ∪ f ∪ p

theorem GridLayout.wavelength_eq {shape w f p : Finset String} {g : GridAxes}
    (h : GridLayout shape g w f p) : g.wavelength \ shape = w := by
  have h1 := h.wavelength_lower
  have h2 := h.wavelength_upper
  have h3 := h.w_shape
  rw [Finset.disjoint_left] at h3
  ext a
  have h1 := @h1 a; have h2 := @h2 a; have h3 := @h3 a
  simp only [Finset.mem_sdiff, Finset.mem_union] at *
  tauto

theorem GridLayout.field_eq {shape w f p : Finset String} {g : GridAxes}
    (h : GridLayout shape g w f p) : (g.field \ shape) \ w = f := by
  have h1 := h.field_lower
  have h2 := h.field_upper
  have h3 := h.f_shape
  have h4 := h.f_w
  rw [Finset.disjoint_left] at h3 h4
  ext a
  have h1 := @h1 a; have h2 := @h2 a; have h3 := @h3 a; have h4 := @h4 a
  simp only [Finset.mem_sdiff, Finset.mem_union] at *
  tauto

theorem GridLayout.pupil_eq {shape w f p : Finset String} {g : GridAxes}
    (h : GridLayout shape g w f p) : ((g.pupil \ shape) \ w) \ f = p := by
  have h1 := h.pupil_lower
  have h2 := h.pupil_upper
  have h3 := h.p_shape
  have h4 := h.p_w
  have h5 := h.p_f
  rw [Finset.disjoint_left] at h3 h4 h5
  ext a
  have h1 := @h1 a; have h2 := @h2 a; have h3 := @h3 a; have h4 := @h4 a; have h5 := @h5 a
  simp only [Finset.mem_sdiff, Finset.mem_union] at *
  tauto

/-- **C75**: with the default attributes, or with attributes that name these axes, the properties
`axis_wavelength_`, `axis_field_` and `axis_pupil_` are these axes. -/
theorem C75_recognized (s : SystemAxes) (g : GridAxes) (w f p : Finset String)
    (h : GridLayout s.shape g w f p)
    (hw : ∀ a, s.axisWavelength = some a → w = {a})
    (hf : ∀ a b, s.axisField = some (a, b) → f = {a, b})
    (hp : ∀ a b, s.axisPupil = some (a, b) → p = {a, b}) :
    s.default g = some ⟨w, f, p⟩ := by
  obtain ⟨shape, aw, af, ap⟩ := s
  have e1 : normalizeAxisWavelength shape aw g.wavelength = some w := by
    cases aw with
    | none =>
      simp only [normalizeAxisWavelength, h.wavelength_eq]
      rw [if_neg (by have := h.one; omega)]
    | some a => rw [hw a rfl]; rfl
  have e2 : normalizeAxisField shape af w g.field = some f := by
    cases af with
    | none =>
      simp only [normalizeAxisField, h.field_eq]
      rw [if_neg (by have := h.two_field; omega)]
    | some a => rw [hf a.1 a.2 rfl]; rfl
  have e3 : normalizeAxisPupil shape ap f w g.pupil = some p := by
    cases ap with
    | none =>
      simp only [normalizeAxisPupil, h.pupil_eq]
      rw [if_neg (by have := h.two_pupil; omega)]
    | some a => rw [hp a.1 a.2 rfl]; rfl
  simp only [SystemAxes.default, normalizeAxes, e1, e2, e3, Option.bind_eq_bind, Option.bind_some,
    Option.pure_def]

/-- **C75**: without attributes the axes are found exactly if the grid has such a layout; otherwise
there is an exception, never another choice of axes. -/
theorem C75_inferred (s : SystemAxes) (g : GridAxes) (w f p : Finset String) :
    s.inferred g = some ⟨w, f, p⟩ ↔ GridLayout s.shape g w f p := by
  constructor
  · intro h
    simp only [SystemAxes.inferred, normalizeAxes, Option.bind_eq_bind, Option.bind_eq_some_iff,
      Option.pure_def, Option.some.injEq, AxisTriple.mk.injEq] at h
    obtain ⟨w', h1, f', h2, p', h3, rfl, rfl, rfl⟩ := h
    simp only [normalizeAxisWavelength, Option.ite_none_left_eq_some, Option.some.injEq] at h1
    simp only [normalizeAxisField, Option.ite_none_left_eq_some, Option.some.injEq] at h2
    simp only [normalizeAxisPupil, Option.ite_none_left_eq_some, Option.some.injEq] at h3
    obtain ⟨c1, rfl⟩ := h1
    obtain ⟨c2, rfl⟩ := h2
    obtain ⟨c3, rfl⟩ := h3
    refine ⟨by omega, by simpa using c2, by simpa using c3, ?_, ?_, ?_, ?_, ?_, ?_, ?_, ?_, ?_, ?_, ?_, ?_⟩
    all_goals
      first
      | rw [Finset.disjoint_left]; intro a; simp only [Finset.mem_sdiff]; tauto
      | intro a; simp only [Finset.mem_sdiff, Finset.mem_union]; tauto
  · intro h
    exact C75_recognized ⟨s.shape, none, none, none⟩ g w f p h (by simp) (by simp) (by simp)

/-- The layout does not change if the field and the pupil are converted to physical units. -/
theorem GridLayout.denormalize {shape w f p : Finset String} {g : GridAxes}
    (h : GridLayout shape g w f p) (nf np : Bool) :
    GridLayout shape (g.denormalize shape nf np) w f p := by
  obtain ⟨h1, h2, h3, h4, h5, h6, h7, h8, h9, a1, a2, a3, a4, a5, a6⟩ := h
  refine ⟨h1, h2, h3, h4, h5, h6, h7, h8, h9, a1, a2, ?_, ?_, ?_, ?_⟩
  · cases nf
    · exact a3
    · exact a3.trans Finset.subset_union_left
  · cases nf
    · exact a4
    · intro a ha
      have h2 := @a2 a; have h4 := @a4 a
      simp only [GridAxes.denormalize, if_true, Finset.mem_union] at *
      tauto
  · cases np
    · exact a5
    · exact a5.trans Finset.subset_union_left
  · cases np
    · exact a6
    · intro a ha
      have h2 := @a2 a; have h6 := @a6 a
      simp only [GridAxes.denormalize, if_true, Finset.mem_union] at *
      tauto

/-- **C75** (partial): `distortion` and `vignetting` find the same axes whichever of the grids are given
and whichever of them are normalized, provided that the attributes are the default ones or name
these axes.  Missing: grids whose axes are known only from the attributes, see below. -/
theorem C75_call_partial (s : SystemAxes) (g : GridAxes) (wavelength field pupil : Option (Finset String))
    (nf np : Bool) (w f p : Finset String)
    (h : GridLayout s.shape ⟨wavelength.getD g.wavelength, field.getD g.field, pupil.getD g.pupil⟩ w f p)
    (hw : ∀ a, s.axisWavelength = some a → w = {a})
    (hf : ∀ a b, s.axisField = some (a, b) → f = {a, b})
    (hp : ∀ a b, s.axisPupil = some (a, b) → p = {a, b}) :
    s.rayfunctionAxes g wavelength field pupil nf np = some ⟨w, f, p⟩ := by
  unfold SystemAxes.rayfunctionAxes
  by_cases hd : (wavelength.isNone && field.isNone && pupil.isNone) = true
  · rw [if_pos hd]
    simp only [Bool.and_eq_true, Option.isNone_iff_eq_none] at hd
    obtain ⟨⟨rfl, rfl⟩, rfl⟩ := hd
    exact C75_recognized s g w f p h hw hf hp
  · rw [if_neg hd]
    exact (C75_inferred s _ w f p).2 (h.denormalize nf np)

/-- **C75**: rays that are averaged over the pupil axes vary with the system, the wavelength and the
field only, and their average over the field axes with the system and the wavelength only: rays of
different wavelengths are never averaged. -/
theorem C75_remaining (shape : Finset String) (g : GridAxes) (w f p : Finset String)
    (h : GridLayout shape g w f p) :
    (shape ∪ g.wavelength ∪ g.field ∪ g.pupil) \ p = shape ∪ w ∪ f ∧
    ((shape ∪ g.wavelength ∪ g.field ∪ g.pupil) \ p) \ f = shape ∪ w := by
  obtain ⟨-, -, -, h4, h5, h6, h7, h8, h9, a1, a2, a3, a4, a5, a6⟩ := h
  rw [Finset.disjoint_left] at h4 h5 h6 h7 h8 h9
  have e1 : (shape ∪ g.wavelength ∪ g.field ∪ g.pupil) \ p = shape ∪ w ∪ f := by
    ext a
    have h6 := @h6 a; have h8 := @h8 a
    have h9 := @h9 a; have a1 := @a1 a; have a2 := @a2 a; have a3 := @a3 a; have a4 := @a4 a
    have a6 := @a6 a
    simp only [Finset.mem_sdiff, Finset.mem_union] at *
    constructor
    · rintro ⟨((h | h) | h) | h, hp⟩
      · exact .inl (.inl h)
      · exact .inl (a2 h)
      · exact a4 h
      · exact (a6 h).resolve_right hp
    · rintro ((h | h) | h)
      · exact ⟨.inl (.inl (.inl h)), fun hp => h6 hp h⟩
      · exact ⟨.inl (.inl (.inr (a1 h))), fun hp => h8 hp h⟩
      · exact ⟨.inl (.inr (a3 h)), fun hp => h9 hp h⟩
  refine ⟨e1, ?_⟩
  rw [e1]
  ext a
  have h5 := @h5 a; have h7 := @h7 a
  simp only [Finset.mem_sdiff, Finset.mem_union] at *
  tauto

/-- Disagreement with C75: the field has a third axis, time, and the attributes of the system say
which two are the axes of the field.  `vignetting()` finds them, but `vignetting(wavelength=...)` with
the same wavelengths raises an exception: the attributes are ignored as soon as one of the grids is
given. -/
theorem C75_attributes_counterexample :
    let s : SystemAxes := ⟨∅, some "w", some ("fx", "fy"), some ("px", "py")⟩
    let g : GridAxes := ⟨{"w"}, {"fx", "fy", "t"}, {"px", "py"}⟩
    s.rayfunctionAxes g none none none true true = some ⟨{"w"}, {"fx", "fy"}, {"px", "py"}⟩ ∧
    s.rayfunctionAxes g (some {"w"}) none none true true = none := by
  intro s g
  constructor <;> decide

/-- A grid with a layout: the field varies with the wavelength, the pupil with the field, and the
system has a shape. -/
example : GridLayout {"channel"} ⟨{"w"}, {"channel", "w", "fx", "fy"}, {"fx", "px", "py"}⟩ {"w"}
    {"fx", "fy"} {"px", "py"} := by
  constructor <;> decide

end Optika
