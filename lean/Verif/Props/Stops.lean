import Verif.Model.System

/-!
# C22: stops of a sequential system
-/

namespace Optika

/-- **C22**: `surfaces_all` raises exactly for a system without any surface. -/
theorem C22_surfaces_all_defined (obj : Option StopSurface) (ss : List StopSurface)
    (sensor : Option StopSurface) :
    surfacesAll obj ss sensor = none ↔ obj = none ∧ ss = [] ∧ sensor = none := by
  unfold surfacesAll
  simp only
  split
  · rename_i h
    constructor
    · intro h'; exact absurd h' (by simp)
    · rintro ⟨rfl, rfl, rfl⟩; simp at h
  · rename_i h
    cases hl : obj.toList ++ ss ++ sensor.toList with
    | nil =>
      simp only [true_iff]
      simp only [List.append_eq_nil_iff] at hl
      refine ⟨?_, hl.1.2, ?_⟩
      · cases obj <;> simp_all
      · cases sensor <;> simp_all
    | cons s l =>
      simp only [reduceCtorEq, false_iff]
      rintro ⟨rfl, rfl, rfl⟩
      simp at hl

/-- **C22**: `surfaces_all` always contains a field stop; it consists of the object, the surfaces
and the sensor in this order, and differs from that list at most in the field stop flag of the
first surface, and only if no surface is marked. -/
theorem C22_field_stop (obj : Option StopSurface) (ss : List StopSurface)
    (sensor : Option StopSurface) (l : List StopSurface)
    (h : surfacesAll obj ss sensor = some l) :
    (∃ s ∈ l, s.isFieldStop = true) ∧
    l.length = (obj.toList ++ ss ++ sensor.toList).length ∧
    (∀ i, 0 < i → l[i]? = (obj.toList ++ ss ++ sensor.toList)[i]?) ∧
    ((∃ s ∈ obj.toList ++ ss ++ sensor.toList, s.isFieldStop = true) →
      l = obj.toList ++ ss ++ sensor.toList) ∧
    ∀ s, (obj.toList ++ ss ++ sensor.toList)[0]? = some s → ∃ s', l[0]? = some s' ∧
      s'.surface = s.surface ∧ s'.isPupilStop = s.isPupilStop := by
  unfold surfacesAll at h
  generalize obj.toList ++ ss ++ sensor.toList = result at h ⊢
  simp only at h
  split at h
  · rename_i hany
    obtain rfl : result = l := by simpa using h
    refine ⟨by simpa using hany, rfl, fun _ _ => rfl, fun _ => rfl, fun s hs => ⟨s, hs, rfl, rfl⟩⟩
  · rename_i hany
    cases result with
    | nil => exact absurd h (by simp)
    | cons s r =>
      simp only [Option.some.injEq] at h
      subst h
      refine ⟨⟨_, List.mem_cons_self, rfl⟩, rfl, ?_, ?_, ?_⟩
      · intro i hi
        obtain ⟨k, rfl⟩ := Nat.exists_eq_succ_of_ne_zero (Nat.pos_iff_ne_zero.1 hi)
        rfl
      · intro hex
        exact absurd (by simpa using hex) hany
      · intro s' hs'
        simp only [List.getElem?_cons_zero, Option.some.injEq] at hs'
        subst hs'
        exact ⟨_, rfl, rfl, rfl⟩

theorem mem_stopIndices {flag : StopSurface → Bool} {l : List StopSurface} {i : ℕ} :
    i ∈ stopIndices flag l ↔ ∃ s, l[i]? = some s ∧ flag s = true := by
  unfold stopIndices
  rw [List.mem_filter, List.mem_range, Option.any_eq_true]
  constructor
  · rintro ⟨-, h⟩; exact h
  · rintro ⟨s, h, hf⟩
    exact ⟨(List.getElem?_eq_some_iff.1 h).1, s, h, hf⟩

theorem stopIndices_sorted (flag : StopSurface → Bool) (l : List StopSurface) :
    (stopIndices flag l).Pairwise (· < ·) :=
  List.Pairwise.filter _ List.pairwise_lt_range

theorem le_getLast {l : List ℕ} (hs : l.Pairwise (· < ·)) {m : ℕ} (h : l.getLast? = some m)
    {i : ℕ} (hi : i ∈ l) : i ≤ m := by
  induction l with
  | nil => exact absurd hi (by simp)
  | cons a l ih =>
    rw [List.pairwise_cons] at hs
    cases l with
    | nil => simp at h hi; omega
    | cons b l =>
      rw [List.getLast?_cons_cons] at h
      rcases List.mem_cons.1 hi with rfl | hi
      · have := hs.1 m (List.mem_of_getLast? h); omega
      · exact ih hs.2 h hi

/-- **C22**: `index_field_stop` and `index_pupil_stop` return the last marked surface. -/
theorem C22_index (flag : StopSurface → Bool) (l : List StopSurface) (i : ℕ) :
    indexStop flag l = some i ↔
      (∃ s, l[i]? = some s ∧ flag s = true) ∧ ∀ j s, i < j → l[j]? = some s → flag s = false := by
  unfold indexStop
  constructor
  · intro h
    refine ⟨mem_stopIndices.1 (List.mem_of_getLast? h), ?_⟩
    intro j s hj hs
    by_contra hf
    have := le_getLast (stopIndices_sorted flag l) h
      (mem_stopIndices.2 ⟨s, hs, by simpa using hf⟩)
    omega
  · rintro ⟨h1, h2⟩
    have hm := mem_stopIndices.2 h1
    cases hlast : (stopIndices flag l).getLast? with
    | none => rw [List.getLast?_eq_none_iff] at hlast; rw [hlast] at hm; simp at hm
    | some m =>
      have h3 := le_getLast (stopIndices_sorted flag l) hlast hm
      obtain ⟨s, hs, hf⟩ := mem_stopIndices.1 (List.mem_of_getLast? hlast)
      rcases Nat.lt_or_eq_of_le h3 with h4 | h4
      · rw [h2 m s h4 hs] at hf; exact absurd hf (by simp)
      · rw [h4]

/-- **C22**: they raise exactly if no surface is marked. -/
theorem C22_index_undefined (flag : StopSurface → Bool) (l : List StopSurface) :
    indexStop flag l = none ↔ ∀ s ∈ l, flag s = false := by
  unfold indexStop
  rw [List.getLast?_eq_none_iff, List.eq_nil_iff_forall_not_mem]
  constructor
  · intro h s hs
    obtain ⟨i, hi⟩ := List.mem_iff_getElem?.1 hs
    by_contra hf
    exact h i (mem_stopIndices.2 ⟨s, hi, by simpa using hf⟩)
  · intro h i hi
    obtain ⟨s, hs, hf⟩ := mem_stopIndices.1 hi
    rw [h s (List.mem_of_getElem? hs)] at hf
    exact absurd hf (by simp)

/-- **C22**: in every system with a surface the index of the field stop is defined. -/
theorem C22_field_index_defined (obj : Option StopSurface) (ss : List StopSurface)
    (sensor : Option StopSurface) (l : List StopSurface)
    (h : surfacesAll obj ss sensor = some l) : ∃ i, indexStop (·.isFieldStop) l = some i := by
  obtain ⟨s, hs, hf⟩ := (C22_field_stop obj ss sensor l h).1
  cases hi : indexStop (·.isFieldStop) l with
  | some i => exact ⟨i, rfl⟩
  | none => rw [C22_index_undefined] at hi; have := hi s hs; simp_all

/-- **C22**: the loop connecting the stops runs at least once and at most `p + f - 1` times, for
`p` pupil stops and `f` field stops. -/
theorem C22_loop_terminates (isPupil : ℕ → Bool) (P F : List ℕ) :
    (stopPairs isPupil P F).length ≤ P.length + F.length - 1 ∧
    (P ≠ [] → F ≠ [] → stopPairs isPupil P F ≠ []) := by
  fun_induction stopPairs isPupil P F with
  | case1 => simp
  | case2 => simp
  | case3 p ps f fs ih1 ih2 =>
    refine ⟨?_, by simp⟩
    split
    · have := ih1.1; simp at this ⊢; omega
    · have := ih2.1; simp at this ⊢; omega

theorem stopPairs_last (isPupil : ℕ → Bool) (P F : List ℕ) (hP : P.Pairwise (· < ·))
    (hF : F.Pairwise (· < ·)) (h1 : ∀ i ∈ P, isPupil i = true) (h2 : ∀ i ∈ F, isPupil i = false)
    {p f : ℕ} (hp : P.getLast? = some p) (hf : F.getLast? = some f) :
    ∃ b, (stopPairs isPupil P F).getLast? = some (min p f, b) := by
  fun_induction stopPairs isPupil P F with
  | case1 => exact absurd hp (by simp)
  | case2 => exact absurd hf (by simp)
  | case3 p' ps f' fs ih1 ih2 =>
    have hne : p' ≠ f' := by
      intro e
      have a := h1 p' List.mem_cons_self
      have b := h2 f' List.mem_cons_self
      rw [e, b] at a; exact absurd a (by simp)
    rcases Nat.lt_or_gt_of_ne hne with hlt | hlt
    · rw [min_eq_left hlt.le, if_pos (h1 p' List.mem_cons_self)]
      cases ps with
      | nil =>
        simp only [List.getLast?_singleton, Option.some.injEq] at hp
        subst hp
        have := le_getLast hF hf (List.mem_cons_self (a := f'))
        refine ⟨max p' f', ?_⟩
        rw [min_eq_left (by omega)]
        simp [stopPairs]
      | cons a ps =>
        rw [List.getLast?_cons_cons] at hp
        obtain ⟨b, hb⟩ := ih1 (List.pairwise_cons.1 hP).2 hF
          (fun i hi => h1 i (List.mem_cons_of_mem _ hi)) h2 hp hf
        refine ⟨b, ?_⟩
        rw [List.getLast?_cons, hb]; simp
    · rw [min_eq_right hlt.le, if_neg (by simp [h2 f' List.mem_cons_self])]
      cases fs with
      | nil =>
        simp only [List.getLast?_singleton, Option.some.injEq] at hf
        subst hf
        have := le_getLast hP hp (List.mem_cons_self (a := p'))
        refine ⟨max p' f', ?_⟩
        rw [min_eq_right (a := p) (by omega)]
        simp [stopPairs]
      | cons a fs =>
        rw [List.getLast?_cons_cons] at hf
        obtain ⟨b, hb⟩ := ih2 hP (List.pairwise_cons.1 hF).2 h1
          (fun i hi => h2 i (List.mem_cons_of_mem _ hi)) hp hf
        refine ⟨b, ?_⟩
        rw [List.getLast?_cons, hb]; simp

/-- **C22**: if no surface is both field and pupil stop, the loop ends with rays that start at
the earlier of the two surfaces returned by `index_field_stop` and `index_pupil_stop`; this is
where the rays are traced back to the object from.  (Partial: without the assumption it is false,
see below.) -/
theorem C22_loop_result_partial (l : List StopSurface)
    (hboth : ∀ s ∈ l, ¬(s.isPupilStop = true ∧ s.isFieldStop = true)) {p f : ℕ}
    (hp : indexStop (·.isPupilStop) l = some p) (hf : indexStop (·.isFieldStop) l = some f) :
    ∃ b, (stopPairs (fun i => (l[i]?).any (·.isPupilStop)) (stopIndices (·.isPupilStop) l)
      (stopIndices (·.isFieldStop) l)).getLast? = some (min p f, b) := by
  apply stopPairs_last _ _ _ (stopIndices_sorted _ l) (stopIndices_sorted _ l) _ _ hp hf
  · intro i hi
    obtain ⟨s, hs, hfl⟩ := mem_stopIndices.1 hi
    simp [hs, hfl]
  · intro i hi
    obtain ⟨s, hs, hfl⟩ := mem_stopIndices.1 hi
    have := hboth s (List.mem_of_getElem? hs)
    simp_all

/-- A surface with the given flags. -/
noncomputable def flagged (field pupil : Bool) : StopSurface :=
  ⟨⟨flatSag, vacuum, none, none, none⟩, field, pupil⟩

/-- Two pupil stops and one field stop between them. -/
example : stopIndices (·.isPupilStop) [flagged false false, flagged false true, flagged true false,
      flagged false true] = [1, 3] ∧
    stopIndices (·.isFieldStop) [flagged false false, flagged false true, flagged true false,
      flagged false true] = [2] := by
  constructor <;> rfl

/-- The assumption of `C22_loop_result_partial` is needed: if the first surface is field and pupil
stop, the second one a pupil stop and the third one a field stop, the loop ends with rays that
start at the first surface, although the earlier of the two selected stops is the second. -/
theorem C22_loop_result_counterexample :
    let l := [flagged true true, flagged false true, flagged true false]
    indexStop (·.isPupilStop) l = some 1 ∧ indexStop (·.isFieldStop) l = some 2 ∧
    (stopPairs (fun i => (l[i]?).any (·.isPupilStop)) (stopIndices (·.isPupilStop) l)
      (stopIndices (·.isFieldStop) l)).getLast? = some (0, 1) := by
  refine ⟨rfl, rfl, ?_⟩
  simp [stopIndices, flagged, stopPairs, List.range_succ]

end Optika
