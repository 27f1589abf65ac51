import Verif.Props.Stops

/-!
# C68: which stops the rays strike if there are several
-/

namespace Optika

theorem head_le_getLast {a : ℕ} {l : List ℕ} (h : (a :: l).Pairwise (· < ·)) :
    a ≤ (a :: l).getLast (by simp) := by
  rcases List.eq_nil_or_concat l with rfl | ⟨l', b, rfl⟩
  · simp
  · have := List.rel_of_pairwise_cons h (a' := b) (by simp)
    simpa using this.le

/-- What is known about the last pair: it begins with the last stop of one kind and ends with the next
stop of the other kind. -/
theorem stopPairs_next (isPupil : ℕ → Bool) (n : ℕ) : ∀ (ps fs : List ℕ), ps.length + fs.length ≤ n →
    (∀ p ∈ ps, isPupil p = true) → (∀ f ∈ fs, isPupil f = false) → ps.Pairwise (· < ·) →
    fs.Pairwise (· < ·) → ∀ (np : ps ≠ []) (nf : fs ≠ []),
    ∃ i j, (stopPairs isPupil ps fs).getLast? = some (i, j) ∧ i < j ∧
      i = min (ps.getLast np) (fs.getLast nf) ∧
      ((i = ps.getLast np ∧ j ∈ fs ∧ ∀ f ∈ fs, i < f → j ≤ f) ∨
        (i = fs.getLast nf ∧ j ∈ ps ∧ ∀ p ∈ ps, i < p → j ≤ p)) := by
  induction n with
  | zero =>
    intro ps fs hn _ _ _ _ np
    exact absurd (List.eq_nil_of_length_eq_zero (by omega)) np
  | succ n ih =>
    intro ps fs hn hp hf sp sf np nf
    obtain ⟨p, ps, rfl⟩ := List.exists_cons_of_ne_nil np
    obtain ⟨f, fs, rfl⟩ := List.exists_cons_of_ne_nil nf
    have hpf : p ≠ f := by
      rintro rfl
      have h1 := hp p (by simp)
      rw [hf p (by simp)] at h1
      exact absurd h1 (by simp)
    have hlp := head_le_getLast sp
    have hlf := head_le_getLast sf
    rw [stopPairs]
    rcases lt_or_gt_of_ne hpf with h | h
    · rw [min_eq_left h.le, max_eq_right h.le, if_pos (hp p (by simp))]
      rcases eq_or_ne ps [] with rfl | hne
      · refine ⟨p, f, by simp [stopPairs], h, ?_, Or.inl ⟨by simp, by simp, ?_⟩⟩
        · rw [List.getLast_singleton, min_eq_left (h.le.trans hlf)]
        · intro k hk _
          rcases List.mem_cons.1 hk with rfl | hk
          · exact le_rfl
          · exact (List.rel_of_pairwise_cons sf hk).le
      · obtain ⟨i, j, h1, h2, h3, h4⟩ := ih ps (f :: fs) (by simp at hn ⊢; omega)
          (fun k hk => hp k (by simp [hk])) hf (List.Pairwise.of_cons sp) sf hne nf
        have hl : (p :: ps).getLast np = ps.getLast hne := List.getLast_cons hne
        refine ⟨i, j, ?_, h2, by rw [hl]; exact h3, ?_⟩
        · rw [List.getLast?_cons, h1]; rfl
        · rw [hl]
          rcases h4 with h4 | ⟨h4, h5, h6⟩
          · exact Or.inl h4
          · refine Or.inr ⟨h4, by simp [h5], ?_⟩
            intro k hk hik
            rcases List.mem_cons.1 hk with rfl | hk
            · rw [h4] at hik; omega
            · exact h6 k hk hik
    · rw [min_eq_right h.le, max_eq_left h.le, if_neg (by rw [hf f (by simp)]; simp)]
      rcases eq_or_ne fs [] with rfl | hne
      · refine ⟨f, p, by simp [stopPairs], h, ?_, Or.inr ⟨by simp, by simp, ?_⟩⟩
        · rw [List.getLast_singleton, min_eq_right (h.le.trans hlp)]
        · intro k hk _
          rcases List.mem_cons.1 hk with rfl | hk
          · exact le_rfl
          · exact (List.rel_of_pairwise_cons sp hk).le
      · obtain ⟨i, j, h1, h2, h3, h4⟩ := ih (p :: ps) fs (by simp at hn ⊢; omega)
          hp (fun k hk => hf k (by simp [hk])) sp (List.Pairwise.of_cons sf) np hne
        have hl : (f :: fs).getLast nf = fs.getLast hne := List.getLast_cons hne
        refine ⟨i, j, ?_, h2, by rw [hl]; exact h3, ?_⟩
        · rw [List.getLast?_cons, h1]; rfl
        · rw [hl]
          rcases h4 with ⟨h4, h5, h6⟩ | h4
          · refine Or.inl ⟨h4, by simp [h5], ?_⟩
            intro k hk hik
            rcases List.mem_cons.1 hk with rfl | hk
            · rw [h4] at hik; omega
            · exact h6 k hk hik
          · exact Or.inr h4

/-- The two surfaces between which `_calc_rayfunction_stops_only` determines the rays that it returns:
those of the last iteration of its loop, `optika/systems/_sequential.py` lines 418–455. -/
def stopPair (l : List StopSurface) : Option (ℕ × ℕ) :=
  (stopPairs (fun i => (l[i]?).any (·.isPupilStop)) (stopIndices (·.isPupilStop) l)
    (stopIndices (·.isFieldStop) l)).getLast?

/-- **C68**, the choice of the stops: if there are stops of both kinds and no surface is a stop of both
kinds, the rays are determined between two surfaces `i < j` of different kinds: `i` is the earlier one
of `field_stop` and `pupil_stop`, and `j` is the next stop of the other kind after it.
(Partial: `j` is not always the later one of `field_stop` and `pupil_stop`, see
`C68_several_counterexample`.) -/
theorem C68_selection_partial (l : List StopSurface)
    (hboth : ∀ s ∈ l, ¬(s.isPupilStop = true ∧ s.isFieldStop = true)) {p f : ℕ}
    (hp : indexStop (·.isPupilStop) l = some p) (hf : indexStop (·.isFieldStop) l = some f) :
    ∃ i j, stopPair l = some (i, j) ∧ i < j ∧ i = min p f ∧
      ((i = p ∧ (l[j]?).any (·.isFieldStop) = true ∧
          ∀ k : ℕ, (l[k]?).any (·.isFieldStop) = true → i < k → j ≤ k) ∨
        (i = f ∧ (l[j]?).any (·.isPupilStop) = true ∧
          ∀ k : ℕ, (l[k]?).any (·.isPupilStop) = true → i < k → j ≤ k)) := by
  unfold indexStop at hp hf
  have np : stopIndices (·.isPupilStop) l ≠ [] := by
    intro h; rw [h] at hp; exact absurd hp (by simp)
  have nf : stopIndices (·.isFieldStop) l ≠ [] := by
    intro h; rw [h] at hf; exact absurd hf (by simp)
  obtain ⟨i, j, h1, h2, h3, h4⟩ := stopPairs_next (fun i => (l[i]?).any (·.isPupilStop)) _
    (stopIndices (·.isPupilStop) l) (stopIndices (·.isFieldStop) l) le_rfl
    (by
      intro i hi
      obtain ⟨s, hs, hfl⟩ := mem_stopIndices.1 hi
      simp [hs, hfl])
    (by
      intro i hi
      obtain ⟨s, hs, hfl⟩ := mem_stopIndices.1 hi
      have := hboth s (List.mem_of_getElem? hs)
      simp_all)
    (stopIndices_sorted _ _) (stopIndices_sorted _ _) np nf
  rw [List.getLast?_eq_some_getLast np, Option.some.injEq] at hp
  rw [List.getLast?_eq_some_getLast nf, Option.some.injEq] at hf
  rw [hp, hf] at h3 h4
  refine ⟨i, j, h1, h2, h3, ?_⟩
  have hmem : ∀ (flag : StopSurface → Bool) (k : ℕ),
      k ∈ stopIndices flag l ↔ (l[k]?).any flag = true := by
    intro flag k
    rw [mem_stopIndices, Option.any_eq_true]
  simpa only [hmem] using h4

/-- **C68**: with exactly one stop of each kind, the rays are determined between these two. -/
theorem C68_selection (l : List StopSurface) (f p : ℕ) (hne : f ≠ p)
    (hf : ∀ k : ℕ, (l[k]?).any (·.isFieldStop) = true ↔ k = f)
    (hp : ∀ k : ℕ, (l[k]?).any (·.isPupilStop) = true ↔ k = p) :
    stopPair l = some (min p f, max p f) := by
  have hindex : ∀ (flag : StopSurface → Bool) (m : ℕ), (∀ k : ℕ, (l[k]?).any flag = true ↔ k = m) →
      indexStop flag l = some m := by
    intro flag m h
    rw [C22_index]
    refine ⟨?_, ?_⟩
    · have := (h m).2 rfl
      rwa [Option.any_eq_true] at this
    · intro j s hj hs
      by_contra hc
      have := (h j).1 (by rw [Option.any_eq_true]; exact ⟨s, hs, by simpa using hc⟩)
      omega
  obtain ⟨i, j, h1, h2, h3, h4⟩ := C68_selection_partial l (by
    rintro s hs ⟨h1, h2⟩
    obtain ⟨k, hk⟩ := List.mem_iff_getElem?.1 hs
    have e1 := (hp k).1 (by rw [Option.any_eq_true]; exact ⟨s, hk, h1⟩)
    have e2 := (hf k).1 (by rw [Option.any_eq_true]; exact ⟨s, hk, h2⟩)
    exact hne (e2 ▸ e1)) (hindex _ p hp) (hindex _ f hf)
  simp only [hf, hp] at h4
  rcases h4 with ⟨rfl, rfl, -⟩ | ⟨rfl, rfl, -⟩
  · rw [min_eq_left h2.le, max_eq_right h2.le]; exact h1
  · rw [min_eq_right h2.le, max_eq_left h2.le]; exact h1

/-- A system with pupil stops at 0 and 3 and field stops at 1 and 2 has rays between 2 and 3. -/
example : stopPair [flagged false true, flagged true false, flagged true false, flagged false true] =
    some (2, 3) := by
  simp [stopPair, stopIndices, flagged, stopPairs, List.range_succ]

/-- **C68** fails for a pupil stop which is followed by two field stops: `field_stop` is the last of
them, but the rays are determined for the border of the other one. -/
theorem C68_several_counterexample :
    let l := [flagged false true, flagged true false, flagged true false]
    stopPair l = some (0, 1) ∧ indexStop (·.isFieldStop) l = some 2 := by
  refine ⟨?_, rfl⟩
  simp [stopPair, stopIndices, flagged, stopPairs, List.range_succ]

end Optika
