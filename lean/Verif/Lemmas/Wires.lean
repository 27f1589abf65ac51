import Verif.Lemmas.Apertures
import Mathlib.Tactic.Push

/-!
# Lemmas about the number of samples of wires
-/

namespace Optika

/-- The numbers of samples if the floating point operations are exact. -/
theorem sideCounts_exact {rnd : ℚ → ℚ} {num n : ℕ} (hn : 0 < n)
    (hr : ∀ k : ℕ, k ≤ n * num → rnd ((k : ℚ) / (n : ℚ)) = (k : ℚ) / (n : ℚ)) (k v : ℕ)
    (hv : v + k ≤ n) :
    sideCounts rnd num ((num : ℚ) / (n : ℚ)) k v ((v * num / n : ℕ) : ℤ) =
      (List.range k).map fun i =>
        ((v + i + 1) * num / n - (v + i) * num / n, decide ((v + i + 1) * num / n = num)) := by
  induction k generalizing v with
  | zero => simp [sideCounts]
  | succ k ih =>
    have hnq : (n : ℚ) ≠ 0 := by exact_mod_cast hn.ne'
    have hle : n * (v * num / n) ≤ (v + 1) * num :=
      le_trans (Nat.mul_div_le _ _) (Nat.mul_le_mul_right _ (by omega))
    have hle2 : (v + 1) * num ≤ n * num := Nat.mul_le_mul_right _ (by omega)
    have e1 : ((v + 1 : ℕ) : ℚ) * ((num : ℚ) / (n : ℚ)) = (((v + 1) * num : ℕ) : ℚ) / (n : ℚ) := by
      push_cast; ring
    have e2 : (((v + 1) * num : ℕ) : ℚ) / (n : ℚ) - (((v * num / n : ℕ) : ℤ) : ℚ) =
        (((v + 1) * num - n * (v * num / n) : ℕ) : ℚ) / (n : ℚ) := by
      rw [Nat.cast_sub hle]
      generalize v * num / n = c
      push_cast; field_simp
    have hdiv : ((v + 1) * num - n * (v * num / n)) / n = (v + 1) * num / n - v * num / n := by
      rw [Nat.sub_mul_div]
    have hmono : v * num / n ≤ (v + 1) * num / n :=
      Nat.div_le_div_right (Nat.mul_le_mul_right _ (by omega))
    have e3 : pyInt (rnd (rnd (((v + 1 : ℕ) : ℚ) * ((num : ℚ) / (n : ℚ))) -
        (((v * num / n : ℕ) : ℤ) : ℚ))) = (((v + 1) * num / n - v * num / n : ℕ) : ℤ) := by
      rw [e1, hr _ hle2, e2, hr _ (le_trans (Nat.sub_le _ _) hle2)]
      unfold pyInt
      rw [if_pos (by positivity), ← hdiv]
      rw [Rat.floor_natCast_div_natCast]; rfl
    rw [sideCounts]
    simp only [e3]
    have e4 : ((v * num / n : ℕ) : ℤ) + (((v + 1) * num / n - v * num / n : ℕ) : ℤ) =
        (((v + 1) * num / n : ℕ) : ℤ) := by
      rw [← Nat.cast_add]; congr 1; omega
    rw [e4, ih (v + 1) (by omega), List.range_succ_eq_map, List.map_cons, List.map_map]
    congr 1
    · simp only [Int.toNat_natCast, Nat.cast_inj, add_zero]
    · apply List.map_congr_left
      intro i _
      simp only [Function.comp_apply, Nat.succ_eq_add_one]
      rw [show v + 1 + i + 1 = v + (i + 1) + 1 by omega, show v + 1 + i = v + (i + 1) by omega]

theorem sum_counts (num n k : ℕ) :
    ((List.range k).map fun i => (i + 1) * num / n - i * num / n).sum = k * num / n := by
  induction k with
  | zero => simp
  | succ k ih =>
    rw [List.range_succ, List.map_append, List.sum_append, ih]
    have : k * num / n ≤ (k + 1) * num / n :=
      Nat.div_le_div_right (Nat.mul_le_mul_right _ (by omega))
    simp; omega

/-- Every side gets its share. -/
theorem count_share (num n v : ℕ) (hn : 0 < n) :
    num / n ≤ (v + 1) * num / n - v * num / n ∧
      (v + 1) * num / n - v * num / n ≤ num / n + 1 := by
  have h1 := Nat.add_mul_div_left (v * num % n + num) (v * num / n) hn
  have h2 : v * num % n + num + n * (v * num / n) = (v + 1) * num := by
    have := Nat.mod_add_div (v * num) n
    rw [Nat.succ_mul]; omega
  rw [h2] at h1
  rw [h1, Nat.add_sub_cancel]
  have h3 : num / n ≤ (v * num % n + num) / n := Nat.div_le_div_right (by omega)
  have h4 : (v * num % n + num) / n ≤ num / n + 1 := by
    have : v * num % n < n := Nat.mod_lt _ hn
    calc (v * num % n + num) / n ≤ (num + n) / n := Nat.div_le_div_right (by omega)
      _ = num / n + 1 := Nat.add_div_right _ hn
  exact ⟨h3, h4⟩

/-! ### Rounding -/

theorem roundHalfEven_int (k : ℤ) : roundHalfEven (k : ℚ) = k := by
  simp [roundHalfEven]

theorem binary64_dyadic (k j : ℕ) (hk : k < 2 ^ 53) :
    binary64 ((k : ℚ) / ((2 ^ j : ℕ) : ℚ)) = (k : ℚ) / ((2 ^ j : ℕ) : ℚ) := by
  unfold binary64
  split
  · rfl
  · rename_i h
    push Not at h
    set x : ℚ := (k : ℚ) / ((2 ^ j : ℕ) : ℚ) with hx
    have hlog : Int.log 2 x < 53 - j := by
      rw [← Int.lt_zpow_iff_log_lt (by norm_num) h, hx]
      push_cast
      rw [zpow_sub₀ (by norm_num : (2 : ℚ) ≠ 0), zpow_natCast]
      apply div_lt_div_of_pos_right _ (by positivity)
      exact_mod_cast hk
    obtain ⟨m, hm⟩ : ∃ m : ℕ, (52 - j - Int.log 2 x : ℤ) = m :=
      ⟨(52 - j - Int.log 2 x).toNat, by rw [Int.toNat_of_nonneg]; linarith⟩
    have hxu : x / (2 : ℚ) ^ (Int.log 2 x - 52) = ((k * 2 ^ m : ℤ) : ℚ) := by
      have e : Int.log 2 x - 52 = -(m : ℤ) - j := by linarith
      rw [e, hx, zpow_sub₀ (by norm_num : (2 : ℚ) ≠ 0), zpow_neg, zpow_natCast, zpow_natCast]
      push_cast
      field_simp
    simp only [hxu, roundHalfEven_int]
    rw [← hxu]
    field_simp

theorem binary64_of_log {x : ℚ} {e : ℤ} (h1 : (2 : ℚ) ^ e ≤ x) (h2 : x < (2 : ℚ) ^ (e + 1)) :
    binary64 x = roundHalfEven (x / (2 : ℚ) ^ (e - 52)) * (2 : ℚ) ^ (e - 52) := by
  have h0 : 0 < x := lt_of_lt_of_le (by positivity) h1
  have hl : Int.log 2 x = e := by
    apply le_antisymm
    · have := (Int.lt_zpow_iff_log_lt (b := 2) (by norm_num) h0 (x := e + 1)).1 (by exact_mod_cast h2)
      omega
    · exact (Int.zpow_le_iff_le_log (b := 2) (by norm_num) h0).1 (by exact_mod_cast h1)
  unfold binary64
  rw [if_neg (not_le.2 h0), hl]

end Optika
