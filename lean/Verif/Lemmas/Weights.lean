import Verif.Lemmas.Interp
import Mathlib.Algebra.BigOperators.Fin
import Mathlib.Algebra.Order.BigOperators.Group.Finset

/-!
# Interpolation as a weighted mean
-/

namespace Optika

/-- The weights of the points of a table depend on the query and the first column only. -/
theorem interp_weights {α : Type} (l : List α) (e : α → ℝ) (hl : l.Pairwise fun a b => e a ≤ e b)
    (hne : l ≠ []) (x : ℝ) : ∃ w : Fin l.length → ℝ, (∀ i, 0 ≤ w i) ∧ ∑ i, w i = 1
      ∧ ∀ f : α → ℝ, interp none none (l.map fun r => (e r, f r)) x
        = some (∑ i, w i * f (l.get i)) := by
  have inc : ∀ f : α → ℝ, Increasing (l.map fun r => (e r, f r)) := by
    intro f
    unfold Increasing
    rw [List.pairwise_map]
    exact hl
  have hne' : ∀ f : α → ℝ, (l.map fun r => (e r, f r)) ≠ [] := fun f => by simpa using hne
  have hpos : 0 < l.length := List.length_pos_iff.2 hne
  have single : ∀ j : Fin l.length, ∀ f : α → ℝ,
      ∑ i, (Pi.single j 1 : Fin l.length → ℝ) i * f (l.get i) = f (l.get j) := by
    intro j f
    rw [Finset.sum_eq_single j]
    · simp
    · intro b _ hb; simp [Pi.single_eq_of_ne hb]
    · simp
  have single_nonneg : ∀ j i : Fin l.length, 0 ≤ (Pi.single j 1 : Fin l.length → ℝ) i := by
    intro j i
    by_cases h : i = j
    · subst h; simp
    · simp [Pi.single_eq_of_ne h]
  have last : ∀ f : α → ℝ, (l.map fun r => (e r, f r)).getLast (hne' f)
      = (e (l.get ⟨l.length - 1, by omega⟩), f (l.get ⟨l.length - 1, by omega⟩)) := by
    intro f
    rw [List.getLast_eq_getElem]
    simp
  rcases interp_cases (hne' fun _ => 0) none none x with ⟨h, -⟩ | ⟨i, hi, h1, h2, -⟩ | ⟨h, -⟩
    | ⟨h, -⟩
  · refine ⟨Pi.single ⟨0, hpos⟩ 1, single_nonneg _, by simp, fun f => ?_⟩
    rw [single]
    obtain ⟨a, l, rfl⟩ := List.exists_cons_of_ne_nil hne
    simp only [List.map_cons, List.head_cons] at h
    simp [interp, h]
  · simp only [List.length_map] at hi
    simp only [List.getElem_map] at h1 h2
    have hd : 0 < e l[i + 1] - e l[i] := by linarith
    set c := (x - e l[i]) / (e l[i + 1] - e l[i]) with hc
    have hc0 : 0 ≤ c := div_nonneg (by linarith) hd.le
    have hc1 : c ≤ 1 := (div_le_one hd).2 (by linarith)
    refine ⟨fun j => (1 - c) * (Pi.single ⟨i, by omega⟩ 1 : Fin l.length → ℝ) j
      + c * (Pi.single ⟨i + 1, hi⟩ 1 : Fin l.length → ℝ) j, fun j => ?_, ?_, fun f => ?_⟩
    · have := single_nonneg ⟨i, by omega⟩ j
      have := single_nonneg ⟨i + 1, hi⟩ j
      have : 0 ≤ 1 - c := by linarith
      positivity
    · rw [Finset.sum_add_distrib, ← Finset.mul_sum, ← Finset.mul_sum]
      simp
    · rw [interp_between (inc f) none none (by simpa using hi) (by simpa using h1)
        (by simpa using h2)]
      simp only [add_mul, mul_assoc, Finset.sum_add_distrib, ← Finset.mul_sum]
      rw [single, single]
      unfold lerp
      simp only [List.getElem_map, List.get_eq_getElem, hc, Option.some.injEq]
      have := hd.ne'
      field_simp
      ring
  all_goals
    refine ⟨Pi.single ⟨l.length - 1, by omega⟩ 1, single_nonneg _, by simp, fun f => ?_⟩
    rw [single]
    have h' : ((l.map fun r => (e r, f r)).getLast (hne' f)).1 ≤ x := by
      rw [last] at h ⊢
      first | exact h | exact h.le
    rw [interp_right (inc f) (hne' f) h', last]
    simp

/-- The weights of the three temperatures. -/
theorem tempInterp_weights (T : ℝ) : ∃ a b c : ℝ, 0 ≤ a ∧ 0 ≤ b ∧ 0 ≤ c ∧ a + b + c = 1
    ∧ ∀ v0 v100 v300 : ℝ, interp none none [(0, v0), (100, v100), (300, v300)] T
      = some (a * v0 + b * v100 + c * v300) := by
  obtain ⟨w, h0, h1, h⟩ := interp_weights [(0 : Fin 3), 1, 2] (fun i => ![(0 : ℝ), 100, 300] i)
    (by
      simp only [List.pairwise_cons, List.mem_cons, List.not_mem_nil, or_false]
      refine ⟨?_, ?_, by simp, List.Pairwise.nil⟩
      · rintro a (rfl | rfl)
        · show (0 : ℝ) ≤ 100; norm_num
        · show (0 : ℝ) ≤ 300; norm_num
      · rintro a rfl; show (100 : ℝ) ≤ 300; norm_num) (by simp) T
  refine ⟨w ⟨0, by simp⟩, w ⟨1, by simp⟩, w ⟨2, by simp⟩, h0 _, h0 _, h0 _, ?_, fun v0 v1 v2 => ?_⟩
  · rw [← h1]
    exact (Fin.sum_univ_three (f := fun i : Fin 3 => w i)).symm
  · have := h fun i => ![v0, v1, v2] i
    simp only [List.map_cons, List.map_nil] at this
    refine this.trans ?_
    congr 1
    exact Fin.sum_univ_three (f := fun i : Fin 3 => w i * ![v0, v1, v2] ([(0 : Fin 3), 1, 2].get i))

end Optika
