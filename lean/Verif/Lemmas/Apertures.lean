import Verif.Model.Apertures
import Verif.Spec.Aperture

/-!
# Lemmas about apertures
-/

namespace Optika
open V3 Real

theorem applyFlags_iff (a i m : Bool) :
    applyFlags a i m = true ↔ Accepts a i (m = true) := by
  cases a <;> cases i <;> cases m <;> simp [applyFlags, Accepts]

theorem accepts_congr {a i : Bool} {p q : Prop} (h : p ↔ q) : Accepts a i p ↔ Accepts a i q := by
  unfold Accepts; rw [h]

@[simp] theorem toLocal_toParent (g : Option Rigid) (q : V3) : toLocal g (toParent g q) = q := by
  cases g <;> simp [toLocal, toParent]

@[simp] theorem toParent_toLocal (g : Option Rigid) (q : V3) : toParent g (toLocal g q) = q := by
  cases g <;> simp [toLocal, toParent]

theorem xyLength_le (q : V3) (r : ℝ) : xyLength q ≤ r ↔ 0 ≤ r ∧ q.x ^ 2 + q.y ^ 2 ≤ r ^ 2 := by
  unfold xyLength
  constructor
  · intro h
    have h0 : 0 ≤ r := le_trans (Real.sqrt_nonneg _) h
    exact ⟨h0, (Real.sqrt_le_left h0).1 h⟩
  · rintro ⟨h0, h⟩
    exact (Real.sqrt_le_left h0).2 h

/-! ### pyMod -/

theorem pyMod_pos_range (x : ℝ) {m : ℝ} (hm : 0 < m) : 0 ≤ pyMod x m ∧ pyMod x m < m := by
  unfold pyMod
  have h1 := Int.floor_le (x / m)
  have h2 := Int.lt_floor_add_one (x / m)
  rw [le_div_iff₀ hm] at h1
  rw [div_lt_iff₀ hm] at h2
  constructor <;> nlinarith

theorem pyMod_neg_range (x : ℝ) {m : ℝ} (hm : 0 < m) : -m < pyMod x (-m) ∧ pyMod x (-m) ≤ 0 := by
  unfold pyMod
  have h1 := Int.floor_le (x / (-m))
  have h2 := Int.lt_floor_add_one (x / (-m))
  rw [div_neg] at *
  have e : x = -(-(x / m)) * m := by field_simp
  constructor <;> nlinarith

theorem pyMod_shift (x m : ℝ) : ∃ k : ℤ, pyMod x m = x - m * k := ⟨⌊x / m⌋, rfl⟩

theorem pyMod_eq_of {x m y : ℝ} (hm : 0 < m) (k : ℤ) (h : y = x + m * k) (h0 : 0 ≤ y)
    (h1 : y < m) : pyMod x m = y := by
  have hf : ⌊x / m⌋ = -k := by
    rw [Int.floor_eq_iff]
    constructor
    · rw [le_div_iff₀ hm]; push_cast; nlinarith
    · rw [div_lt_iff₀ hm]; push_cast; nlinarith
  unfold pyMod
  rw [hf, h]; push_cast; ring

theorem pyMod_neg_eq_of {x m y : ℝ} (hm : 0 < m) (k : ℤ) (h : y = x + m * k) (h0 : -m < y)
    (h1 : y ≤ 0) : pyMod x (-m) = y := by
  have hf : ⌊x / (-m)⌋ = k := by
    rw [Int.floor_eq_iff, div_neg, ← neg_div]
    constructor
    · rw [le_div_iff₀ hm]; nlinarith
    · rw [div_lt_iff₀ hm]; nlinarith
  unfold pyMod
  rw [hf, h]; ring

theorem pyMod_of_mem {x m : ℝ} (hm : 0 < m) (h0 : 0 ≤ x) (h1 : x < m) : pyMod x m = x :=
  pyMod_eq_of hm 0 (by simp) h0 h1

theorem cos_sub_int (x : ℝ) (k : ℤ) : Real.cos (x - 2 * π * k) = Real.cos x := by
  have := Real.cos_sub_int_mul_two_pi x k
  rw [← this]; congr 1; ring

theorem sin_sub_int (x : ℝ) (k : ℤ) : Real.sin (x - 2 * π * k) = Real.sin x := by
  have := Real.sin_sub_int_mul_two_pi x k
  rw [← this]; congr 1; ring

theorem cos_pyMod (x : ℝ) : Real.cos (pyMod x (2 * π)) = Real.cos x := by
  obtain ⟨k, hk⟩ := pyMod_shift x (2 * π); rw [hk, cos_sub_int]

theorem sin_pyMod (x : ℝ) : Real.sin (pyMod x (2 * π)) = Real.sin x := by
  obtain ⟨k, hk⟩ := pyMod_shift x (2 * π); rw [hk, sin_sub_int]

theorem cos_pyMod_neg (x : ℝ) : Real.cos (pyMod x (-(2 * π))) = Real.cos x := by
  obtain ⟨k, hk⟩ := pyMod_shift x (-(2 * π)); rw [hk]
  have := cos_sub_int x (-k); rw [← this]; congr 1; push_cast; ring

theorem sin_pyMod_neg (x : ℝ) : Real.sin (pyMod x (-(2 * π))) = Real.sin x := by
  obtain ⟨k, hk⟩ := pyMod_shift x (-(2 * π)); rw [hk]
  have := sin_sub_int x (-k); rw [← this]; congr 1; push_cast; ring

/-! ### Polar coordinates -/

theorem polar (a b : ℝ) : ∃ R : ℝ, 0 ≤ R ∧ R ^ 2 = a ^ 2 + b ^ 2 ∧ a = R * Real.cos (arctan2 b a) ∧
    b = R * Real.sin (arctan2 b a) := by
  refine ⟨‖(⟨a, b⟩ : ℂ)‖, norm_nonneg _, ?_, ?_, ?_⟩
  · rw [Complex.sq_norm, Complex.normSq_mk]; ring
  · exact (Complex.norm_mul_cos_arg ⟨a, b⟩).symm
  · exact (Complex.norm_mul_sin_arg ⟨a, b⟩).symm

theorem arctan2_range (y x : ℝ) : -π < arctan2 y x ∧ arctan2 y x ≤ π :=
  ⟨Complex.neg_pi_lt_arg _, Complex.arg_le_pi _⟩

theorem arctan2_polar {ρ θ : ℝ} (hρ : 0 < ρ) :
    ∃ k : ℤ, arctan2 (ρ * Real.sin θ) (ρ * Real.cos θ) = θ + 2 * π * k := by
  have e : (⟨ρ * Real.cos θ, ρ * Real.sin θ⟩ : ℂ) =
      ρ * (Complex.cos θ + Complex.sin θ * Complex.I) := by
    apply Complex.ext <;> simp [Complex.cos_ofReal_re, Complex.sin_ofReal_re]
  unfold arctan2
  rw [e, Complex.arg_mul_cos_add_sin_mul_I_eq_toIocMod hρ]
  refine ⟨-(toIocDiv two_pi_pos (-π) θ), ?_⟩
  have h := toIocMod_add_toIocDiv_zsmul two_pi_pos (-π) θ
  rw [zsmul_eq_mul] at h
  push_cast; linarith

/-! ### Extrema along an arc -/

theorem cos_le_max {a x b : ℝ} (h0 : -(2 * π) ≤ a) (h1 : a ≤ x) (h2 : x ≤ b) (h3 : b ≤ 0) :
    Real.cos x ≤ Real.cos a ∨ Real.cos x ≤ Real.cos b := by
  rcases le_total x (-π) with h | h
  · left
    have := Real.cos_le_cos_of_nonneg_of_le_pi (x := a + 2 * π) (y := x + 2 * π) (by linarith)
      (by linarith) (by linarith)
    simpa using this
  · right
    have := Real.cos_le_cos_of_nonneg_of_le_pi (x := -b) (y := -x) (by linarith)
      (by linarith) (by linarith)
    simpa using this

theorem arc_max {R φ start stop θ M : ℝ} (hR : 0 ≤ R) (h1 : start ≤ θ) (h2 : θ ≤ stop)
    (_h3 : stop - start < 2 * π) (m1 : R * Real.cos (start - φ) ≤ M)
    (m2 : R * Real.cos (stop - φ) ≤ M)
    (m3 : pyMod (φ - start) (2 * π) ≤ stop - start → R ≤ M) : R * Real.cos (θ - φ) ≤ M := by
  by_cases h : pyMod (φ - start) (2 * π) ≤ stop - start
  · have := m3 h
    nlinarith [Real.cos_le_one (θ - φ)]
  · push Not at h
    obtain ⟨k, hk⟩ := pyMod_shift (φ - start) (2 * π)
    obtain ⟨hr0, hr1⟩ := pyMod_pos_range (φ - start) two_pi_pos
    have key (x : ℝ) : Real.cos (x - φ) =
        Real.cos (x - start - pyMod (φ - start) (2 * π)) := by
      have := cos_sub_int (x - φ) (-k)
      rw [← this, hk]; congr 1; push_cast; ring
    rw [key] at m1 m2 ⊢
    set δ := pyMod (φ - start) (2 * π)
    rcases cos_le_max (a := start - start - δ) (x := θ - start - δ) (b := stop - start - δ)
      (by linarith) (by linarith) (by linarith) (by linarith) with h' | h'
    · exact le_trans (mul_le_mul_of_nonneg_left h' hR) m1
    · exact le_trans (mul_le_mul_of_nonneg_left h' hR) m2

theorem foldl_max_ge (l : List ℝ) (x : ℝ) : x ≤ l.foldl max x ∧ ∀ y ∈ l, y ≤ l.foldl max x := by
  induction l generalizing x with
  | nil => simp
  | cons a l ih =>
    obtain ⟨h1, h2⟩ := ih (max x a)
    simp only [List.foldl_cons, List.mem_cons]
    refine ⟨le_trans (le_max_left _ _) h1, ?_⟩
    rintro y (rfl | hy)
    · exact le_trans (le_max_right _ _) h1
    · exact h2 y hy

theorem foldl_min_le (l : List ℝ) (x : ℝ) : l.foldl min x ≤ x ∧ ∀ y ∈ l, l.foldl min x ≤ y := by
  induction l generalizing x with
  | nil => simp
  | cons a l ih =>
    obtain ⟨h1, h2⟩ := ih (min x a)
    simp only [List.foldl_cons, List.mem_cons]
    refine ⟨le_trans h1 (min_le_left _ _), ?_⟩
    rintro y (rfl | hy)
    · exact le_trans h1 (min_le_right _ _)
    · exact h2 y hy

theorem le_reduceMax {l : List ℝ} {y : ℝ} (h : y ∈ l) : y ≤ reduceMax l := by
  cases l with
  | nil => simp at h
  | cons x l =>
    rcases List.mem_cons.1 h with rfl | h
    · exact (foldl_max_ge l _).1
    · exact (foldl_max_ge l _).2 y h

theorem reduceMin_le {l : List ℝ} {y : ℝ} (h : y ∈ l) : reduceMin l ≤ y := by
  cases l with
  | nil => simp at h
  | cons x l =>
    rcases List.mem_cons.1 h with rfl | h
    · exact (foldl_min_le l _).1
    · exact (foldl_min_le l _).2 y h

theorem foldl_max_mem (l : List ℝ) (x : ℝ) : l.foldl max x = x ∨ l.foldl max x ∈ l := by
  induction l generalizing x with
  | nil => simp
  | cons a l ih =>
    simp only [List.foldl_cons, List.mem_cons]
    rcases ih (max x a) with h | h
    · rw [h]; rcases max_choice x a with h' | h' <;> simp [h']
    · right; right; exact h

theorem foldl_min_mem (l : List ℝ) (x : ℝ) : l.foldl min x = x ∨ l.foldl min x ∈ l := by
  induction l generalizing x with
  | nil => simp
  | cons a l ih =>
    simp only [List.foldl_cons, List.mem_cons]
    rcases ih (min x a) with h | h
    · rw [h]; rcases min_choice x a with h' | h' <;> simp [h']
    · right; right; exact h

theorem reduceMax_mem {l : List ℝ} (h : l ≠ []) : reduceMax l ∈ l := by
  cases l with
  | nil => simp at h
  | cons x l =>
    rcases foldl_max_mem l x with h | h
    · simp [reduceMax, h]
    · exact List.mem_cons_of_mem _ h

theorem reduceMin_mem {l : List ℝ} (h : l ≠ []) : reduceMin l ∈ l := by
  cases l with
  | nil => simp at h
  | cons x l =>
    rcases foldl_min_mem l x with h | h
    · simp [reduceMin, h]
    · exact List.mem_cons_of_mem _ h

/-- Every point of a sector is below the maximum of the candidates. -/
theorem sector_upper (c a b start stop θ ρ : ℝ) (h1 : start ≤ θ) (h2 : θ ≤ stop)
    (h3 : stop - start < 2 * π) (hρ : 0 ≤ ρ) (hρ1 : ρ ≤ 1) :
    c + ρ * (a * Real.cos θ + b * Real.sin θ) ≤
      reduceMax (sectorCandidates c a b start stop) := by
  obtain ⟨R, hR, -, ha, hb⟩ := polar a b
  have hspan : pyMod (stop - start) (2 * π) = stop - start :=
    pyMod_of_mem two_pi_pos (by linarith) h3
  have hform (x : ℝ) : a * Real.cos x + b * Real.sin x = R * Real.cos (x - arctan2 b a) := by
    rw [Real.cos_sub]; nth_rewrite 1 [ha]; nth_rewrite 2 [hb]; ring
  set M := reduceMax (sectorCandidates c a b start stop) with hM
  have mc : c ≤ M := le_reduceMax (by simp [sectorCandidates])
  have ms : c + (a * Real.cos start + b * Real.sin start) ≤ M := by
    rw [← add_assoc]; exact le_reduceMax (by simp [sectorCandidates])
  have me : c + (a * Real.cos stop + b * Real.sin stop) ≤ M := by
    rw [← add_assoc]; exact le_reduceMax (by simp [sectorCandidates])
  have arc : c + (a * Real.cos θ + b * Real.sin θ) ≤ M := by
    rw [hform] at ms me ⊢
    have := arc_max (M := M - c) hR h1 h2 h3 (by linarith) (by linarith) (φ := arctan2 b a)
      (fun h => by
        have : c + a * Real.cos (arctan2 b a) + b * Real.sin (arctan2 b a) ≤ M := by
          apply le_reduceMax
          simp only [sectorCandidates, hspan, if_pos h]; simp
        rw [add_assoc, hform, sub_self, Real.cos_zero] at this
        linarith)
    linarith
  nlinarith

/-- Every point of a sector is above the minimum of the candidates. -/
theorem sector_lower (c a b start stop θ ρ : ℝ) (h1 : start ≤ θ) (h2 : θ ≤ stop)
    (h3 : stop - start < 2 * π) (hρ : 0 ≤ ρ) (hρ1 : ρ ≤ 1) :
    reduceMin (sectorCandidates c a b start stop) ≤
      c + ρ * (a * Real.cos θ + b * Real.sin θ) := by
  obtain ⟨R, hR, -, ha, hb⟩ := polar a b
  have hspan : pyMod (stop - start) (2 * π) = stop - start :=
    pyMod_of_mem two_pi_pos (by linarith) h3
  have hform (x : ℝ) : a * Real.cos x + b * Real.sin x =
      -(R * Real.cos (x - (arctan2 b a + π))) := by
    rw [← sub_sub, Real.cos_sub_pi, Real.cos_sub]; nth_rewrite 1 [ha]; nth_rewrite 2 [hb]; ring
  set M := reduceMin (sectorCandidates c a b start stop) with hM
  have mc : M ≤ c := reduceMin_le (by simp [sectorCandidates])
  have ms : M ≤ c + (a * Real.cos start + b * Real.sin start) := by
    rw [← add_assoc]; exact reduceMin_le (by simp [sectorCandidates])
  have me : M ≤ c + (a * Real.cos stop + b * Real.sin stop) := by
    rw [← add_assoc]; exact reduceMin_le (by simp [sectorCandidates])
  have arc : M ≤ c + (a * Real.cos θ + b * Real.sin θ) := by
    rw [hform] at ms me ⊢
    have := arc_max (M := c - M) hR h1 h2 h3 (by linarith) (by linarith) (φ := arctan2 b a + π)
      (fun h => by
        have : M ≤ c + a * Real.cos (arctan2 b a + π) + b * Real.sin (arctan2 b a + π) := by
          apply reduceMin_le
          simp only [sectorCandidates, hspan, if_pos h]; simp
        rw [add_assoc, hform, sub_self, Real.cos_zero] at this
        linarith)
    linarith
  nlinarith

/-! ### Transformed points of the aperture plane -/

theorem toParent_plane (g : Option Rigid) (x y : ℝ) :
    toParent g ⟨x, y, 0⟩ = toParent g 0 + x • axisA 1 g + y • axisB 1 g := by
  cases g with
  | none => apply V3.ext <;> simp [toParent, axisA, axisB]
  | some g =>
    apply V3.ext <;> simp [toParent, axisA, axisB, Rigid.point, M3.mulVec, dot] <;> ring

theorem axisA_smul (r : ℝ) (g : Option Rigid) : axisA r g = r • axisA 1 g := by
  cases g with
  | none => apply V3.ext <;> simp [toParent, axisA]
  | some g =>
    apply V3.ext <;> simp [toParent, axisA, Rigid.point, M3.mulVec, dot] <;> ring

theorem axisB_smul (r : ℝ) (g : Option Rigid) : axisB r g = r • axisB 1 g := by
  cases g with
  | none => apply V3.ext <;> simp [toParent, axisB]
  | some g =>
    apply V3.ext <;> simp [toParent, axisB, Rigid.point, M3.mulVec, dot] <;> ring

/-- The rows of the matrix have length one. -/
theorem row_norm (g : Option Rigid) :
    (axisA 1 g).x ^ 2 + (axisB 1 g).x ^ 2 ≤ 1 ∧ (axisA 1 g).y ^ 2 + (axisB 1 g).y ^ 2 ≤ 1 ∧
    (axisA 1 g).z ^ 2 + (axisB 1 g).z ^ 2 ≤ 1 := by
  cases g with
  | none => simp [axisA, axisB, toParent]
  | some g =>
    have h1 := congrArg V3.x (g.right_inv ⟨1, 0, 0⟩)
    have h2 := congrArg V3.y (g.right_inv ⟨0, 1, 0⟩)
    have h3 := congrArg V3.z (g.right_inv ⟨0, 0, 1⟩)
    simp [M3.mulVec, M3.transpose, dot] at h1 h2 h3
    simp [axisA, axisB, toParent, Rigid.point, M3.mulVec, dot]
    refine ⟨?_, ?_, ?_⟩
    · nlinarith [sq_nonneg g.rot.r1.z]
    · nlinarith [sq_nonneg g.rot.r2.z]
    · nlinarith [sq_nonneg g.rot.r3.z]

theorem cauchy2 {x y a b s : ℝ} (hs : 0 ≤ s) (h : (x ^ 2 + y ^ 2) * (a ^ 2 + b ^ 2) ≤ s ^ 2) :
    |x * a + y * b| ≤ s := by
  apply abs_le_of_sq_le_sq' _ hs |> abs_le.2
  nlinarith [sq_nonneg (x * b - y * a)]

/-! ### Samples -/

theorem linspace01_length (n : ℕ) (e : Bool) : (linspace01 n e).length = n := by
  simp [linspace01]

theorem linspace01_mem {n : ℕ} {e : Bool} {t : ℝ} (h : t ∈ linspace01 n e) : 0 ≤ t ∧ t ≤ 1 := by
  simp only [linspace01, List.mem_map, List.mem_range] at h
  obtain ⟨k, hk, rfl⟩ := h
  cases e
  · have hn : n ≠ 0 := by omega
    simp only [Bool.false_eq_true, if_false, if_neg hn]
    have : (0 : ℝ) < n := by exact_mod_cast Nat.pos_of_ne_zero hn
    refine ⟨by positivity, ?_⟩
    rw [div_le_one this]; exact_mod_cast hk.le
  · simp only [if_true]
    split
    · have : k = 0 := by omega
      subst this; simp
    · rename_i hn
      have : (0 : ℝ) < ((n - 1 : ℕ) : ℝ) := by exact_mod_cast Nat.pos_of_ne_zero hn
      refine ⟨by positivity, ?_⟩
      rw [div_le_one this]
      exact_mod_cast (by omega : k ≤ n - 1)

theorem mem_sampleSides {side : ℕ → ℝ → V3} {v : ℕ} {l : List (ℕ × Bool)} {p : V3}
    (h : p ∈ sampleSides side v l) :
    ∃ k t, k < l.length ∧ 0 ≤ t ∧ t ≤ 1 ∧ p = side (v + k) t := by
  induction l generalizing v with
  | nil => simp [sampleSides] at h
  | cons a l ih =>
    obtain ⟨n, e⟩ := a
    simp only [sampleSides, List.mem_append, List.mem_map] at h
    rcases h with ⟨t, ht, rfl⟩ | h
    · obtain ⟨h0, h1⟩ := linspace01_mem ht
      exact ⟨0, t, by simp, h0, h1, rfl⟩
    · obtain ⟨k, t, hk, h0, h1, rfl⟩ := ih h
      exact ⟨k + 1, t, by simp; omega, h0, h1, by congr 1; omega⟩

theorem sampleSides_length (side : ℕ → ℝ → V3) (v : ℕ) (l : List (ℕ × Bool)) :
    (sampleSides side v l).length = (l.map Prod.fst).sum := by
  induction l generalizing v with
  | nil => simp [sampleSides]
  | cons a l ih =>
    obtain ⟨n, e⟩ := a
    simp [sampleSides, ih, linspace01_length]

theorem sideCounts_length (rnd : ℚ → ℚ) (num : ℕ) (per : ℚ) (k v : ℕ) (cum : ℤ) :
    (sideCounts rnd num per k v cum).length = k := by
  induction k generalizing v cum with
  | zero => simp [sideCounts]
  | succ k ih => simp [sideCounts, ih]

end Optika
