import Verif.Model.Interp
import Mathlib.Tactic.Linarith
import Mathlib.Tactic.FieldSimp
import Mathlib.Data.List.Sort
import Mathlib.Analysis.Convex.Basic

/-!
# Lemmas on interpolation
-/

namespace Optika

/-- The table is sorted by its first column (which may contain a value more than once). -/
def Increasing (l : List (ℝ × ℝ)) : Prop := l.Pairwise fun p q => p.1 ≤ q.1

/-- The value between two points. -/
noncomputable def lerp (p q : ℝ × ℝ) (x : ℝ) : ℝ :=
  ((q.1 - x) * p.2 + (x - p.1) * q.2) / (q.1 - p.1)

theorem lerp_eq {p q : ℝ × ℝ} (h : p.1 < q.1) (x : ℝ) :
    (q.2 - p.2) / (q.1 - p.1) * (x - p.1) + p.2 = lerp p q x := by
  have : q.1 - p.1 ≠ 0 := by linarith
  unfold lerp
  field_simp
  ring

/-- The interpolated value lies on the segment of two neighbouring points around `x`, or is that of
the last point. -/
theorem interpFrom_cases (p : ℝ × ℝ) (r : List (ℝ × ℝ)) {x : ℝ} (h : p.1 ≤ x) :
    (∃ i, ∃ hi : i + 1 < (p :: r).length, (p :: r)[i].1 ≤ x ∧ x < (p :: r)[i + 1].1
        ∧ interpFrom p r x = lerp (p :: r)[i] (p :: r)[i + 1] x)
      ∨ (((p :: r).getLast (List.cons_ne_nil p r)).1 ≤ x
        ∧ interpFrom p r x = ((p :: r).getLast (List.cons_ne_nil p r)).2) := by
  induction r generalizing p with
  | nil => right; exact ⟨h, rfl⟩
  | cons q r ih =>
    unfold interpFrom
    by_cases hq : x < q.1
    · left
      refine ⟨0, by simp, h, hq, ?_⟩
      rw [if_pos hq, lerp_eq (lt_of_le_of_lt h hq)]
      rfl
    · rw [if_neg hq]
      rcases ih q (not_lt.1 hq) with ⟨i, hi, h1, h2, h3⟩ | ⟨h1, h2⟩
      · left
        exact ⟨i + 1, by simpa using hi, h1, h2, h3⟩
      · right
        rw [List.getLast_cons (List.cons_ne_nil q r)]
        exact ⟨h1, h2⟩

theorem Increasing.getElem_le {l : List (ℝ × ℝ)} (h : Increasing l) {i j : ℕ} (hij : i ≤ j)
    (hj : j < l.length) : (l[i]'(by omega)).1 ≤ l[j].1 := by
  rcases eq_or_lt_of_le hij with rfl | hlt
  · exact le_rfl
  · exact List.pairwise_iff_getElem.1 h i j (by omega) hj hlt

theorem Increasing.getElem_le_last {l : List (ℝ × ℝ)} (h : Increasing l) {i : ℕ} (hi : i < l.length)
    (hne : l ≠ []) : l[i].1 ≤ (l.getLast hne).1 := by
  rw [List.getLast_eq_getElem]
  exact h.getElem_le (by omega) (by omega)

theorem lerp_between {p q : ℝ × ℝ} {x : ℝ} (h1 : p.1 ≤ x) (h2 : x < q.1) {a b : ℝ}
    (hp : a ≤ p.2 ∧ p.2 ≤ b) (hq : a ≤ q.2 ∧ q.2 ≤ b) : a ≤ lerp p q x ∧ lerp p q x ≤ b := by
  have h : 0 < q.1 - p.1 := by linarith
  have h3 : 0 ≤ q.1 - x := by linarith
  have h4 : 0 ≤ x - p.1 := by linarith
  unfold lerp
  constructor
  · rw [le_div_iff₀ h]
    nlinarith [mul_nonneg h3 (sub_nonneg.2 hp.1), mul_nonneg h4 (sub_nonneg.2 hq.1)]
  · rw [div_le_iff₀ h]
    nlinarith [mul_nonneg h3 (sub_nonneg.2 hp.2), mul_nonneg h4 (sub_nonneg.2 hq.2)]

theorem interp_between {t : List (ℝ × ℝ)} (ht : Increasing t) (left right : Option ℝ) {i : ℕ}
    (hi : i + 1 < t.length) {x : ℝ} (h1 : t[i].1 ≤ x) (h2 : x < t[i + 1].1) :
    interp left right t x = some (lerp t[i] t[i + 1] x) := by
  cases t with
  | nil => simp at hi
  | cons p r =>
    have h3 : p.1 ≤ x := (ht.getElem_le (Nat.zero_le i) (by omega)).trans h1
    have h4 := ht.getElem_le_last hi (List.cons_ne_nil p r)
    unfold interp
    dsimp only
    rw [if_neg (not_lt.2 h3), if_neg (by linarith)]
    rcases interpFrom_cases p r h3 with ⟨j, hj, h5, h6, h7⟩ | ⟨h5, _⟩
    · have : j = i := by
        rcases lt_trichotomy j i with h | h | h
        · have := ht.getElem_le (show j + 1 ≤ i by omega) (by omega); linarith
        · exact h
        · have := ht.getElem_le (show i + 1 ≤ j by omega) (by omega); linarith
      subst this
      rw [h7]
    · linarith

theorem interp_right {t : List (ℝ × ℝ)} (ht : Increasing t) (hne : t ≠ []) {x : ℝ}
    (h : (t.getLast hne).1 ≤ x) (left right : Option ℝ) :
    interp left right t x
      = some (if (t.getLast hne).1 = x then (t.getLast hne).2 else right.getD (t.getLast hne).2) := by
  cases t with
  | nil => exact absurd rfl hne
  | cons p r =>
    have h0 := ht.getElem_le_last (i := 0) (by simp) hne
    have h3 : p.1 ≤ x := le_trans h0 h
    unfold interp
    dsimp only
    rw [if_neg (not_lt.2 h3)]
    by_cases hx : ((p :: r).getLast hne).1 = x
    · rw [if_neg (by linarith), if_pos hx]
      rcases interpFrom_cases p r h3 with ⟨j, hj, h5, h6, h7⟩ | ⟨_, h5⟩
      · have := ht.getElem_le_last hj hne
        linarith
      · rw [h5]
    · rw [if_pos (lt_of_le_of_ne h hx), if_neg hx]

/-- Every value is that of the first or last point or between two points. -/
theorem interp_cases {t : List (ℝ × ℝ)} (hne : t ≠ []) (left right : Option ℝ)
    (x : ℝ) :
    (x < (t.head hne).1 ∧ interp left right t x = some (left.getD (t.head hne).2))
      ∨ (∃ i, ∃ hi : i + 1 < t.length, t[i].1 ≤ x ∧ x < t[i + 1].1
        ∧ interp left right t x = some (lerp t[i] t[i + 1] x))
      ∨ ((t.getLast hne).1 ≤ x ∧ interp left right t x = some (t.getLast hne).2)
      ∨ ((t.getLast hne).1 < x ∧ interp left right t x = some (right.getD (t.getLast hne).2)) := by
  cases t with
  | nil => exact absurd rfl hne
  | cons p r =>
    unfold interp
    dsimp only
    by_cases h : x < p.1
    · left; exact ⟨h, if_pos h⟩
    · right
      rw [if_neg h]
      by_cases h2 : ((p :: r).getLast hne).1 < x
      · right; right
        exact ⟨h2, if_pos h2⟩
      · rw [if_neg h2]
        rcases interpFrom_cases p r (not_lt.1 h) with ⟨j, hj, h5, h6, h7⟩ | ⟨h4, h5⟩
        · left; exact ⟨j, hj, h5, h6, by rw [h7]⟩
        · right; left; exact ⟨h4, by rw [h5]⟩

end Optika
