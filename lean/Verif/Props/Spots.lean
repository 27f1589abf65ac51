import Verif.Model.Spots
import Mathlib.Tactic.Ring
import Mathlib.Tactic.FieldSimp
import Mathlib.Tactic.NormNum
import Mathlib.Tactic.Linarith
import Mathlib.Algebra.BigOperators.Group.List.Basic

/-!
# C92: what a spot diagram shows
-/

namespace Optika
open V3

/-- Rays that all have a position. -/
def finiteRays (l : List (V3 × Bool)) : List (Option V3 × Bool) := l.map fun r => (some r.1, r.2)

theorem spotDiagram_finite (l : List (V3 × Bool)) :
    spotDiagram (finiteRays l)
      = some ((l.filter (·.2)).map fun r => r.1 - spotMean (l.map (·.1))) := by
  have h : (finiteRays l).mapM (fun r => r.1.map fun p => (p, r.2)) = some l := by
    induction l with
    | nil => rfl
    | cons a l ih =>
      simp only [finiteRays, List.map_cons, List.mapM_cons] at ih ⊢
      rw [ih]; rfl
  unfold spotDiagram
  rw [h]; rfl

/-- **C92 (shape).**  The points of a spot diagram are the positions of the rays that are not
vignetted, all shifted by one vector: the shape of the spot is not changed. -/
theorem C92_shape (l : List (V3 × Bool)) :
    ∃ c : V3, spotDiagram (finiteRays l)
      = some (((l.filter (·.2)).map (·.1)).map fun p => p - c) :=
  ⟨spotMean (l.map (·.1)), by rw [spotDiagram_finite, List.map_map]; rfl⟩

theorem sum_map_sub (l : List V3) (f : V3 → ℝ) (c : ℝ) :
    (l.map fun p => f p - c).sum = (l.map f).sum - l.length * c := by
  induction l with
  | nil => simp
  | cons a l ih => simp only [List.map_cons, List.sum_cons, ih, List.length_cons]; push_cast; ring

/-- **C92 (centering, partial).**  If no ray is vignetted, the points are centered: their
coordinates sum to zero.  With vignetted rays they are not, see the counterexample. -/
theorem C92_centered_partial (l : List (V3 × Bool)) (h : ∀ r ∈ l, r.2 = true) :
    ∃ pts, spotDiagram (finiteRays l) = some pts ∧ pts.length = l.length ∧
      (pts.map V3.x).sum = 0 ∧ (pts.map V3.y).sum = 0 ∧ (pts.map V3.z).sum = 0 := by
  have hf : l.filter (·.2) = l := List.filter_eq_self.2 h
  refine ⟨_, spotDiagram_finite l, by rw [List.length_map, hf], ?_⟩
  rw [hf]
  have e : (l.map fun r => r.1 - spotMean (l.map (·.1)))
      = (l.map (·.1)).map fun p => p - spotMean (l.map (·.1)) := by rw [List.map_map]; rfl
  rw [e]
  set m := l.map (·.1) with hm
  by_cases h0 : m.length = 0
  · rw [List.length_eq_zero_iff] at h0; simp [h0]
  have hne : (m.length : ℝ) ≠ 0 := by exact_mod_cast h0
  refine ⟨?_, ?_, ?_⟩
  · have : ((m.map fun p => p - spotMean m).map V3.x) = m.map fun p => p.x - (spotMean m).x := by
      rw [List.map_map]; rfl
    rw [this, sum_map_sub m V3.x]
    simp only [spotMean]; field_simp; ring
  · have : ((m.map fun p => p - spotMean m).map V3.y) = m.map fun p => p.y - (spotMean m).y := by
      rw [List.map_map]; rfl
    rw [this, sum_map_sub m V3.y]
    simp only [spotMean]; field_simp; ring
  · have : ((m.map fun p => p - spotMean m).map V3.z) = m.map fun p => p.z - (spotMean m).z := by
      rw [List.map_map]; rfl
    rw [this, sum_map_sub m V3.z]
    simp only [spotMean]; field_simp; ring

/-- **C92 (registration).**  Moving the whole image of one wavelength changes nothing in its
diagram: each wavelength is centered by itself, so lateral color does not show. -/
theorem C92_translation (l : List (V3 × Bool)) (v : V3) :
    spotDiagram (finiteRays (l.map fun r => (r.1 + v, r.2))) = spotDiagram (finiteRays l) := by
  rw [spotDiagram_finite, spotDiagram_finite]
  by_cases hl : l = []
  · simp [hl]
  have hne : (l.length : ℝ) ≠ 0 := by
    exact_mod_cast (List.length_pos_of_ne_nil hl).ne'
  have hmean : spotMean ((l.map fun r => (r.1 + v, r.2)).map (·.1))
      = spotMean (l.map (·.1)) + v := by
    have e (f : V3 → ℝ) (hf : ∀ a b, f (a + b) = f a + f b) :
        ((((l.map fun r => (r.1 + v, r.2)).map (·.1)).map f).sum)
          = ((l.map (·.1)).map f).sum + l.length * f v := by
      clear hl hne
      induction l with
      | nil => simp
      | cons a l ih =>
        simp only [List.map_cons, List.sum_cons, List.length_cons] at ih ⊢
        rw [ih, hf]; push_cast; ring
    unfold spotMean
    rw [e V3.x (fun _ _ => rfl), e V3.y (fun _ _ => rfl), e V3.z (fun _ _ => rfl)]
    simp only [List.length_map]
    apply V3.ext <;> simp <;> field_simp
  rw [hmean, List.filter_map, List.map_map]
  congr 1
  apply List.map_congr_left
  intro r _
  simp only [Function.comp]
  vring

/-- **C92 (what fails: vignetting).**  A single ray that reaches the detector is drawn away from
the center, because a ray that was stopped takes part in the mean. -/
theorem C92_vignetted_counterexample :
    spotDiagram [(some ⟨1, 0, 0⟩, true), (some ⟨-3, 0, 0⟩, false)] = some [⟨2, 0, 0⟩] := by
  have := spotDiagram_finite [(⟨1, 0, 0⟩, true), (⟨-3, 0, 0⟩, false)]
  simp only [finiteRays, List.map_cons, List.map_nil] at this
  rw [this]
  simp only [List.filter_cons, if_true, Bool.false_eq_true, if_false, List.filter_nil,
    List.map_cons, List.map_nil, Option.some.injEq, List.cons.injEq, and_true]
  apply V3.ext <;> norm_num [spotMean]

/-- **C92 (what fails: rays that miss).**  One ray that misses a surface, and so has no position,
empties the diagram of its wavelength, even though it would not be drawn. -/
theorem C92_missing_counterexample (l l' : List (Option V3 × Bool)) :
    spotDiagram (l ++ (none, false) :: l') = none := by
  unfold spotDiagram
  rw [Option.map_eq_none_iff]
  induction l with
  | nil => rfl
  | cons a l ih =>
    rw [List.cons_append, List.mapM_cons, ih]
    cases Option.map (fun p => (p, a.2)) a.1 <;> rfl

/-- Two rays that are not vignetted. -/
example : ∃ pts, spotDiagram (finiteRays [(⟨1, 0, 0⟩, true), (⟨3, 4, 0⟩, true)]) = some pts ∧
    pts = [⟨-1, -2, 0⟩, ⟨1, 2, 0⟩] := by
  refine ⟨_, spotDiagram_finite _, ?_⟩
  simp only [List.filter_cons, if_true, List.filter_nil, List.map_cons, List.map_nil,
    List.cons.injEq, and_true]
  constructor <;> apply V3.ext <;> norm_num [spotMean]

end Optika
