import Verif.Model.Sensor
import Mathlib.Algebra.BigOperators.Group.Finset.Basic
import Mathlib.Data.Finset.Prod

/-!
# Binning
-/

namespace Optika

theorem getElem_le_iff_lt_countP {l : List ℝ} (hs : l.Pairwise (· < ·)) (x : ℝ) :
    ∀ i (h : i < l.length), l[i] ≤ x ↔ i < l.countP fun e => decide (e ≤ x) := by
  induction l with
  | nil => intro i h; simp at h
  | cons a l ih =>
    intro i h
    rw [List.pairwise_cons] at hs
    rw [List.countP_cons]
    by_cases ha : a ≤ x
    · rw [if_pos (by simpa using ha)]
      cases i with
      | zero => simp [ha]
      | succ i =>
        rw [List.getElem_cons_succ, ih hs.2 i (by simpa using h)]
        omega
    · rw [if_neg (by simpa using ha)]
      have h0 : l.countP (fun e => decide (e ≤ x)) = 0 := by
        rw [List.countP_eq_zero]
        intro b hb
        have := hs.1 b hb
        simp only [decide_eq_true_eq]
        intro hbx
        exact ha (by linarith)
      rw [h0]
      cases i with
      | zero => simp [ha]
      | succ i =>
        rw [List.getElem_cons_succ]
        have := hs.1 _ (List.getElem_mem (by simpa using h : i < l.length))
        constructor
        · intro h1; exact absurd (by linarith) ha
        · intro h1; omega

/-- The `k`-th bin: closed on the left, open on the right except for the last one. -/
def InBin (edges : List ℝ) (k : ℕ) (x : ℝ) : Prop :=
  ∃ h : k + 1 < edges.length, edges[k] ≤ x ∧ (x < edges[k + 1] ∨ (x = edges[k + 1] ∧ k + 2 = edges.length))

theorem getElem_lt_of_sorted {l : List ℝ} (hs : l.Pairwise (· < ·)) {i j : ℕ} (hij : i < j)
    (hj : j < l.length) : l[i] < l[j] := List.pairwise_iff_getElem.1 hs i j (by omega) hj hij

theorem binIndex_eq_some_iff {edges : List ℝ} (hs : edges.Pairwise (· < ·)) (x : ℝ) (k : ℕ) :
    binIndex edges x = some k ↔ InBin edges k x := by
  have hc := getElem_le_iff_lt_countP hs x
  have hcl : edges.countP (fun e => decide (e ≤ x)) ≤ edges.length := List.countP_le_length
  unfold binIndex InBin
  dsimp only
  generalize edges.countP (fun e => decide (e ≤ x)) = c at *
  have hlast : edges.getLast? = some x ↔ ∃ h : 0 < edges.length, edges[edges.length - 1] = x := by
    rw [List.getLast?_eq_getElem?, List.getElem?_eq_some_iff]
    constructor
    · rintro ⟨h, e⟩; exact ⟨by omega, e⟩
    · rintro ⟨h, e⟩; exact ⟨by omega, e⟩
  by_cases hl : edges.getLast? = some x
  · rw [if_pos hl]
    obtain ⟨h0, e⟩ := hlast.1 hl
    have hcn : c = edges.length := by
      have := (hc (edges.length - 1) (by omega)).1 e.le
      omega
    subst hcn
    constructor
    · intro h
      split at h
      · rename_i h1
        rw [Option.some.injEq] at h
        have hk : k + 2 = edges.length := by omega
        refine ⟨by omega, (hc k (by omega)).2 (by omega), Or.inr ⟨?_, hk⟩⟩
        rw [← e]; congr 1; omega
      · simp at h
    · rintro ⟨h1, h2, h3⟩
      rcases h3 with h3 | ⟨-, h3⟩
      · exfalso
        have : edges[k + 1] ≤ edges[edges.length - 1] := by
          rcases Nat.lt_or_ge (k + 1) (edges.length - 1) with h | h
          · exact (getElem_lt_of_sorted hs h (by omega)).le
          · have : k + 1 = edges.length - 1 := by omega
            simp [this]
        linarith
      · rw [if_pos ⟨by omega, by omega⟩]; congr 1; omega
  · rw [if_neg hl]
    constructor
    · intro h
      split at h
      · rename_i h1
        rw [Option.some.injEq] at h
        have hk : k + 1 < edges.length := by omega
        refine ⟨hk, (hc k (by omega)).2 (by omega), Or.inl ?_⟩
        by_contra hx
        have := (hc (k + 1) hk).1 (not_lt.1 hx)
        omega
      · simp at h
    · rintro ⟨h1, h2, h3⟩
      have h4 := (hc k (by omega)).1 h2
      rcases h3 with h3 | ⟨h3, h5⟩
      · have h5 : ¬ (k + 1 < c) := fun h => absurd ((hc (k + 1) h1).2 h) (not_le.2 h3)
        rw [if_pos ⟨by omega, by omega⟩]; congr 1; omega
      · exfalso
        refine hl (hlast.2 ⟨by omega, ?_⟩)
        rw [h3]; congr 1; omega

theorem binIndex_isSome_iff {edges : List ℝ} (hs : edges.Pairwise (· < ·)) (h2 : 2 ≤ edges.length)
    (x : ℝ) : (∃ k, binIndex edges x = some k) ↔
      edges[0] ≤ x ∧ x ≤ edges[edges.length - 1] := by
  have hmono : ∀ i j (_ : i ≤ j) (hj : j < edges.length), edges[i] ≤ edges[j] := by
    intro i j hij hj
    rcases hij.lt_or_eq with h | h
    · exact (getElem_lt_of_sorted hs h hj).le
    · subst h; rfl
  constructor
  · rintro ⟨k, hk⟩
    obtain ⟨h1, h3, h4⟩ := (binIndex_eq_some_iff hs x k).1 hk
    refine ⟨(hmono 0 k (by omega) (by omega)).trans h3, ?_⟩
    have := hmono (k + 1) (edges.length - 1) (by omega) (by omega)
    rcases h4 with h4 | ⟨h4, -⟩ <;> linarith
  · rintro ⟨h0, h1⟩
    have hc := getElem_le_iff_lt_countP hs x
    have hcl : edges.countP (fun e => decide (e ≤ x)) ≤ edges.length := List.countP_le_length
    have hc0 := (hc 0 (by omega)).1 h0
    set c := edges.countP (fun e => decide (e ≤ x)) with hcdef
    rcases hcl.lt_or_eq with h | h
    · refine ⟨c - 1, (binIndex_eq_some_iff hs x _).2 ⟨by omega, (hc (c - 1) (by omega)).2 (by omega),
        Or.inl ?_⟩⟩
      by_contra hx
      have := (hc (c - 1 + 1) (by omega)).1 (not_lt.1 hx)
      omega
    · have hx : edges[edges.length - 1] = x :=
        le_antisymm ((hc _ (by omega)).2 (by omega)) h1
      refine ⟨edges.length - 2, (binIndex_eq_some_iff hs x _).2 ⟨by omega,
        (hc _ (by omega)).2 (by omega), Or.inr ⟨?_, by omega⟩⟩⟩
      refine hx.symm.trans ?_
      congr 1; omega

theorem linspaceEdges_length (a b : ℝ) (n : ℕ) : (linspaceEdges a b n).length = n + 1 := by
  simp [linspaceEdges]

theorem linspaceEdges_getElem (a b : ℝ) (n k : ℕ) (h : k < (linspaceEdges a b n).length) :
    (linspaceEdges a b n)[k] = a + k * ((b - a) / n) := by
  simp [linspaceEdges]

theorem linspaceEdges_sorted {a b : ℝ} (hab : a < b) {n : ℕ} (hn : 0 < n) :
    (linspaceEdges a b n).Pairwise (· < ·) := by
  rw [List.pairwise_iff_getElem]
  intro i j hi hj hij
  rw [linspaceEdges_getElem, linspaceEdges_getElem]
  have hn' : (0 : ℝ) < n := by exact_mod_cast hn
  have h1 : 0 < (b - a) / n := div_pos (by linarith) hn'
  have h2 : (i : ℝ) < j := by exact_mod_cast hij
  nlinarith

/-- Summing a histogram over all the bins that can occur. -/
theorem histogram_sum (s : SensorGrid) (wavelength : List ℝ) (weight : Ray → ℝ) (rays : List Ray)
    (K : Finset (ℕ × ℕ × ℕ)) (hK : ∀ r ∈ rays, ∀ k, s.bin wavelength r = some k → k ∈ K) :
    ∑ k ∈ K, s.histogram wavelength weight rays k
      = (rays.map fun r => if (s.bin wavelength r).isSome then weight r else 0).sum := by
  induction rays with
  | nil => simp [SensorGrid.histogram]
  | cons r rays ih =>
    have ih := ih fun r' hr' => hK r' (List.mem_cons_of_mem _ hr')
    unfold SensorGrid.histogram at ih ⊢
    simp only [List.map_cons, List.sum_cons]
    rw [Finset.sum_add_distrib, ih]
    congr 1
    cases hb : s.bin wavelength r with
    | none => simp
    | some k =>
      have := hK r (List.mem_cons_self) k hb
      simp only [Option.some.injEq, Option.isSome_some, if_true]
      rw [Finset.sum_ite_eq K k]
      simp [this]

end Optika
