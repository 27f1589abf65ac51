import Verif.Model.Shapes

/-!
# Broadcasting is the least upper bound

`broadcastShapes` is characterised by the shapes its result fits into.
-/

namespace Optika

namespace ArrayShape

theorem mem_of_size {s : ArrayShape} {a : String} {n : ℕ} (h : s.size a = some n) : (a, n) ∈ s.entries := by
  unfold size at h
  generalize s.entries = l at h
  induction l with
  | nil => simp at h
  | cons p l ih =>
    obtain ⟨b, m⟩ := p
    rw [List.lookup_cons] at h
    by_cases hab : a = b
    · subst hab
      simp only [beq_self_eq_true, Option.some.injEq] at h
      subst h
      exact List.mem_cons_self
    · rw [beq_false_of_ne hab] at h
      exact List.mem_cons_of_mem _ (ih h)

theorem lookup_of_mem {l : List (String × ℕ)} (hl : (l.map Prod.fst).Nodup) {a : String} {n : ℕ}
    (h : (a, n) ∈ l) : l.lookup a = some n := by
  induction l with
  | nil => simp at h
  | cons p l ih =>
    obtain ⟨b, m⟩ := p
    rw [List.map_cons, List.nodup_cons] at hl
    rw [List.lookup_cons]
    rcases List.mem_cons.1 h with h' | h'
    · cases h'
      simp
    · by_cases hab : a = b
      · subst hab
        exact absurd (List.mem_map.2 ⟨(a, n), h', rfl⟩ : a ∈ l.map Prod.fst) hl.1
      · rw [beq_false_of_ne hab]
        exact ih hl.2 h'

theorem size_eq_some {s : ArrayShape} {a : String} {n : ℕ} : s.size a = some n ↔ (a, n) ∈ s.entries :=
  ⟨mem_of_size, fun h => lookup_of_mem s.nodup h⟩

end ArrayShape

/-- A single axis fits into a shape. -/
def FitsAxis (a : String) (n : ℕ) (s : ArrayShape) : Prop :=
  s.size a = some n ∨ (n = 1 ∧ ∃ m, s.size a = some m)

theorem fits_iff {p s : ArrayShape} : Fits p s ↔ ∀ e ∈ p.entries, FitsAxis e.1 e.2 s :=
  ⟨fun h e he => h e.1 e.2 (ArrayShape.size_eq_some.2 he),
    fun h a n hn => h (a, n) (ArrayShape.size_eq_some.1 hn)⟩

theorem Fits.refl (s : ArrayShape) : Fits s s := fun _ _ h => Or.inl h

theorem Fits.trans {p s t : ArrayShape} (h1 : Fits p s) (h2 : Fits s t) : Fits p t := by
  intro a n hn
  rcases h1 a n hn with h | ⟨rfl, m, h⟩
  · exact h2 a n h
  · rcases h2 a m h with h' | ⟨_, h'⟩
    · exact Or.inr ⟨rfl, m, h'⟩
    · exact Or.inr ⟨rfl, h'⟩

theorem ArrayShape.addAxis_spec (s : ArrayShape) (a : String) (n : ℕ) (t : ArrayShape) :
    match s.addAxis a n with
    | some r => Fits r t ↔ Fits s t ∧ FitsAxis a n t
    | none => ¬ (Fits s t ∧ FitsAxis a n t) := by
  unfold addAxis
  split
  · next r hr =>
    split at hr
    · cases hr
      rw [fits_iff, fits_iff]
      simp only [List.mem_append, List.mem_singleton]
      constructor
      · exact fun h => ⟨fun e he => h e (Or.inl he), h (a, n) (Or.inr rfl)⟩
      · rintro ⟨h1, h2⟩ e (he | rfl)
        · exact h1 e he
        · exact h2
    · next m hm =>
      split_ifs at hr with h1 h2 h3
      · cases hr
        subst h1
        exact ⟨fun h => ⟨h, h a m hm⟩, fun h => h.1⟩
      · cases hr
        subst h2
        rw [fits_iff, fits_iff]
        constructor
        · intro h
          have hmem : (a, n) ∈ (s.set a n).entries :=
            List.mem_map.2 ⟨(a, 1), size_eq_some.1 hm, by simp⟩
          have ha : FitsAxis a n t := h _ hmem
          refine ⟨fun e he => ?_, ha⟩
          by_cases hea : e.1 = a
          · have : e.2 = 1 := by
              have h' := size_eq_some.2 (show (e.1, e.2) ∈ s.entries from he)
              rw [hea, hm] at h'
              simpa using h'.symm
            rw [hea, this]
            rcases ha with ha | ⟨_, ha⟩
            · exact Or.inr ⟨rfl, n, ha⟩
            · exact Or.inr ⟨rfl, ha⟩
          · have := h (e.1, if e.1 = a then n else e.2) (List.mem_map.2 ⟨e, he, rfl⟩)
            simpa [hea] using this
        · rintro ⟨h, ha⟩ e he
          obtain ⟨e', he', rfl⟩ := List.mem_map.1 he
          by_cases hea : e'.1 = a
          · simpa [hea] using ha
          · simpa [hea] using h e' he'
      · cases hr
        subst h3
        refine ⟨fun h => ⟨h, ?_⟩, fun h => h.1⟩
        rcases h a m hm with h' | ⟨_, h'⟩
        · exact Or.inr ⟨rfl, m, h'⟩
        · exact Or.inr ⟨rfl, h'⟩
  · next hr =>
    split at hr
    · exact absurd hr (by simp)
    · next m hm =>
      split_ifs at hr with h1 h2 h3
      rintro ⟨hs, ha⟩
      rcases hs a m hm with h | ⟨h, _⟩
      · rcases ha with ha | ⟨ha, _⟩
        · rw [h] at ha
          exact h1 (by simpa using ha)
        · exact h3 ha
      · exact h2 h

theorem foldAxes_spec (l : List (String × ℕ)) (s t : ArrayShape) :
    match l.foldlM (fun s e => s.addAxis e.1 e.2) s with
    | some r => Fits r t ↔ Fits s t ∧ ∀ e ∈ l, FitsAxis e.1 e.2 t
    | none => ¬ (Fits s t ∧ ∀ e ∈ l, FitsAxis e.1 e.2 t) := by
  induction l generalizing s with
  | nil => simp
  | cons e l ih =>
    rw [List.foldlM_cons]
    have h1 := s.addAxis_spec e.1 e.2 t
    cases hs : s.addAxis e.1 e.2 with
    | none =>
      rw [hs] at h1
      simp only [Option.bind_eq_bind, Option.bind_none, List.forall_mem_cons]
      exact fun h => h1 ⟨h.1, h.2.1⟩
    | some r =>
      rw [hs] at h1
      simp only at h1
      have h2 := ih r
      simp only [Option.bind_eq_bind, Option.bind_some, List.forall_mem_cons]
      split at h2
      · exact Iff.trans h2 (by rw [h1, and_assoc])
      · rw [h1, and_assoc] at h2
        exact h2

/-- The result of `broadcastShapes` fits into exactly the common shapes. -/
def Upper (x : Option ArrayShape) (parts : List ArrayShape) : Prop :=
  ∀ t, match x with
    | some s => Fits s t ↔ CommonShape t parts
    | none => ¬ CommonShape t parts

theorem broadcastShapes_upper (l : List ArrayShape) : Upper (broadcastShapes l) l := by
  intro t
  have h := foldAxes_spec (l.flatMap ArrayShape.entries) ArrayShape.scalar t
  have h0 : Fits ArrayShape.scalar t := by rw [fits_iff]; simp [ArrayShape.scalar]
  have h1 : CommonShape t l ↔ ∀ e ∈ l.flatMap ArrayShape.entries, FitsAxis e.1 e.2 t := by
    unfold CommonShape
    simp only [fits_iff, List.mem_flatMap]
    exact ⟨fun h e ⟨p, hp, he⟩ => h p hp e he, fun h p hp e he => h e ⟨p, hp, he⟩⟩
  simp only [h0, true_and, ← h1] at h
  unfold broadcastShapes
  split at h
  · next hs => simp only [hs]; exact h
  · next hs => simp only [hs]; exact h

theorem upper_iff {x : Option ArrayShape} {parts : List ArrayShape} : Upper x parts ↔ IsShapeOf x parts := by
  cases x with
  | none => simp [Upper, IsShapeOf]
  | some s =>
    unfold Upper IsShapeOf LeastShape
    simp only
    constructor
    · exact fun h => ⟨(h s).1 (Fits.refl s), fun t ht => (h t).2 ht⟩
    · exact fun h t => ⟨fun ht p hp => (h.1 p hp).trans ht, h.2 t⟩

theorem Upper.of_iff {x : Option ArrayShape} {P Q : List ArrayShape} (h : Upper x P)
    (hPQ : ∀ t, CommonShape t P ↔ CommonShape t Q) : Upper x Q := by
  intro t
  have := h t
  cases x with
  | none => simp only at this ⊢; rwa [← hPQ]
  | some s => simp only at this ⊢; rwa [← hPQ]

theorem commonShape_append {t : ArrayShape} {P Q : List ArrayShape} :
    CommonShape t (P ++ Q) ↔ CommonShape t P ∧ CommonShape t Q := by
  simp only [CommonShape, List.mem_append]
  exact ⟨fun h => ⟨fun p hp => h p (Or.inl hp), fun p hp => h p (Or.inr hp)⟩,
    fun h p hp => hp.elim (h.1 p) (h.2 p)⟩

theorem Upper.single (s : ArrayShape) : Upper (some s) [s] := by
  intro t
  simp [CommonShape]

theorem Upper.scalar : Upper (some .scalar) [] := by
  intro t
  simp [CommonShape, fits_iff, ArrayShape.scalar]

/-- Broadcasting the shapes of parts gives the shape of all the parts of the parts. -/
theorem broadcastAll_upper {xs : List (Option ArrayShape)} {Ps : List (List ArrayShape)}
    (h : List.Forall₂ Upper xs Ps) : Upper (broadcastAll xs) Ps.flatten := by
  have key : ∀ t, match xs.mapM id with
      | some l => CommonShape t l ↔ CommonShape t Ps.flatten
      | none => ¬ CommonShape t Ps.flatten := by
    intro t
    induction h with
    | nil => simp
    | @cons x P xs Ps hx _ ih =>
      rw [List.mapM_cons]
      have hxt := hx t
      cases x with
      | none =>
        simp only [id, Option.bind_eq_bind, Option.bind_none, List.flatten_cons, commonShape_append]
        exact fun h => hxt h.1
      | some s =>
        simp only [id, Option.bind_eq_bind, Option.bind_some, List.flatten_cons, commonShape_append,
          Option.pure_def]
        cases hm : xs.mapM id with
        | none =>
          rw [hm] at ih
          simp only [Option.bind_none]
          exact fun h => ih h.2
        | some l =>
          rw [hm] at ih
          simp only [Option.bind_some]
          simp only at hxt ih
          rw [← ih, ← hxt]
          simp [CommonShape]
  intro t
  unfold broadcastAll
  have hk := key t
  cases hm : xs.mapM id with
  | none =>
    rw [hm] at hk
    simpa using hk
  | some l =>
    rw [hm] at hk
    simp only [Option.bind_some]
    have := broadcastShapes_upper l t
    split at this
    · next hs => rw [this]; exact hk
    · next hs => exact fun h => this (hk.2 h)

theorem optShape_upper {α : Type} {f : α → Option ArrayShape} {P : α → List ArrayShape}
    (h : ∀ x, Upper (f x) (P x)) (x : Option α) : Upper (optShape f x) (x.elim [] P) := by
  cases x with
  | none => exact Upper.scalar
  | some x => exact h x

/-- A shape is determined by the shapes of the parts, up to the order of the axes. -/
theorem LeastShape.unique {s t : ArrayShape} {P : List ArrayShape} (hs : LeastShape s P)
    (ht : LeastShape t P) (a : String) : s.size a = t.size a := by
  have h1 := hs.2 t ht.1
  have h2 := ht.2 s hs.1
  cases ha : s.size a with
  | none =>
    cases hb : t.size a with
    | none => rfl
    | some m => rcases h2 a m hb with h | ⟨_, k, h⟩ <;> rw [ha] at h <;> simp at h
  | some n =>
    rcases h1 a n ha with h | ⟨rfl, m, h⟩
    · exact h.symm
    · rcases h2 a m h with h' | ⟨rfl, _⟩
      · rw [h, ← h', ha]
      · exact h.symm

end Optika
