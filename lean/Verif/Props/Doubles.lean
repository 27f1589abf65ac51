import Verif.Props.Rounding
import Mathlib.Algebra.Order.Round
import Mathlib.Data.Int.Log

/-!
# Double precision

The numbers of a computer are integers of 53 bits times powers of two; overflow and underflow are left out.
-/

namespace Optika
open Slot V3

/-- The numbers of double precision. -/
def IsDouble (x : ℝ) : Prop := ∃ m e : ℤ, |m| < 2 ^ 53 ∧ x = m * (2 : ℝ) ^ e

/-- `fl` rounds to a nearest number of double precision; which, if there are two, is left open. -/
def RoundsToNearest (fl : ℝ → ℝ) : Prop := ∀ x, IsDouble (fl x) ∧ ∀ z, IsDouble z → |x - fl x| ≤ |x - z|

/-- What a computer makes of a formula, if it rounds every result and every constant. -/
noncomputable def Expr.float (fl : ℝ → ℝ) (env : Slot → ℝ) : Expr → Option ℝ
  | .var s => some (env s)
  | .const c => some (fl c)
  | .neg a => (a.float fl env).map fun x => -x
  | .add a b => (lift2 (fun x y => some (x + y)) (a.float fl env) (b.float fl env)).map fl
  | .sub a b => (lift2 (fun x y => some (x - y)) (a.float fl env) (b.float fl env)).map fl
  | .mul a b => (lift2 (fun x y => some (x * y)) (a.float fl env) (b.float fl env)).map fl
  | .sq a => ((a.float fl env).map fun x => x ^ 2).map fl
  | .div a b => (lift2 div? (a.float fl env) (b.float fl env)).map fl
  | .sqrt a => ((a.float fl env).bind sqrt?).map fl
  | .exp a => ((a.float fl env).map Real.exp).map fl
  | .ifneg c a b => (c.float fl env).bind fun x => if x < 0 then a.float fl env else b.float fl env

/-! ## Rounding to nearest -/

theorem isDouble_zero : IsDouble 0 := ⟨0, 0, by norm_num, by simp⟩

theorem IsDouble.neg {x : ℝ} (h : IsDouble x) : IsDouble (-x) := by
  obtain ⟨m, e, hm, rfl⟩ := h
  exact ⟨-m, e, by rwa [abs_neg], by push_cast; ring⟩

/-- Every number has a nearest one of double precision, which differs by less than half of the last digit. -/
theorem exists_nearest_pos {x : ℝ} (hx : 0 < x) :
    ∃ z, IsDouble z ∧ |x - z| ≤ 2⁻¹ ^ 53 * x ∧ ∀ z', IsDouble z' → |x - z| ≤ |x - z'| := by
  set e := Int.log 2 x with he
  have h1 : (2 : ℝ) ^ e ≤ x := by exact_mod_cast Int.zpow_log_le_self (R := ℝ) (b := 2) (by norm_num) hx
  have h2 : x < (2 : ℝ) ^ (e + 1) := by exact_mod_cast Int.lt_zpow_succ_log_self (R := ℝ) (b := 2) (by norm_num) x
  have hp : (0 : ℝ) < 2 ^ (e - 52) := by positivity
  set m := round (x / 2 ^ (e - 52)) with hm
  have h3 : |x / 2 ^ (e - 52) - m| ≤ 1 / 2 := abs_sub_round _
  have h4 : |x - m * 2 ^ (e - 52)| ≤ 1 / 2 * 2 ^ (e - 52) := by
    have : x - m * 2 ^ (e - 52) = (x / 2 ^ (e - 52) - m) * 2 ^ (e - 52) := by
      rw [sub_mul, div_mul_cancel₀ _ hp.ne']
    rw [this, abs_mul, abs_of_pos hp]
    exact mul_le_mul_of_nonneg_right h3 hp.le
  have e1 : (2 : ℝ) ^ e = 2 ^ 52 * 2 ^ (e - 52) := by
    rw [zpow_sub₀ (by norm_num)]; field_simp
  have e2 : (2 : ℝ) ^ (e + 1) = 2 ^ 53 * 2 ^ (e - 52) := by
    rw [zpow_add₀ (by norm_num), e1]; ring
  have hround : ∀ j : ℤ, |x - m * 2 ^ (e - 52)| ≤ |x - j * 2 ^ (e - 52)| := by
    intro j
    have h5 := round_le (x / 2 ^ (e - 52)) j
    have : ∀ y : ℝ, x - y * 2 ^ (e - 52) = (x / 2 ^ (e - 52) - y) * 2 ^ (e - 52) := fun y => by
      rw [sub_mul, div_mul_cancel₀ _ hp.ne']
    rw [this, this, abs_mul, abs_mul]
    exact mul_le_mul_of_nonneg_right h5 (abs_nonneg _)
  refine ⟨m * 2 ^ (e - 52), ?_, h4.trans ?_, ?_⟩
  · have h5 : x / 2 ^ (e - 52) < 2 ^ 53 := by rwa [div_lt_iff₀ hp, ← e2]
    have h6 : 0 < x / 2 ^ (e - 52) := by positivity
    rw [abs_le] at h3
    have h7 : (m : ℝ) < 2 ^ 53 + 1 := by linarith
    have h8 : (-1 : ℝ) < m := by linarith
    have h7' : m < 2 ^ 53 + 1 := by exact_mod_cast h7
    have h8' : -1 < m := by exact_mod_cast h8
    rcases (show m = 2 ^ 53 ∨ m < 2 ^ 53 by omega) with h9 | h9
    · refine ⟨1, e + 1, by norm_num, ?_⟩
      rw [h9, e2]
      push_cast
      ring
    · exact ⟨m, e - 52, by rw [abs_of_nonneg (by omega)]; exact h9, rfl⟩
  · calc (1 / 2 : ℝ) * 2 ^ (e - 52) = 2⁻¹ ^ 53 * 2 ^ e := by rw [e1]; norm_num; ring
      _ ≤ 2⁻¹ ^ 53 * x := by gcongr
  · rintro z' ⟨m', e', hm', rfl⟩
    rcases le_or_gt (e - 52) e' with he' | he'
    · obtain ⟨j, hj⟩ := Int.eq_ofNat_of_zero_le (show 0 ≤ e' - (e - 52) by omega)
      have := hround (m' * 2 ^ j)
      rwa [show ((m' * 2 ^ j : ℤ) : ℝ) * 2 ^ (e - 52) = m' * 2 ^ e' by
        rw [show e' = (j : ℤ) + (e - 52) by omega, zpow_add₀ (by norm_num), zpow_natCast]
        push_cast
        ring] at this
    · have h5 := hround (2 ^ 52)
      rw [show (((2 : ℤ) ^ 52 : ℤ) : ℝ) = 2 ^ 52 by norm_num, ← e1] at h5
      refine h5.trans ?_
      have h6 : (2 : ℝ) ^ e' ≤ 2 ^ (e - 53) := zpow_le_zpow_right₀ (by norm_num) (by omega)
      have h7 : (m' : ℝ) * 2 ^ e' ≤ 2 ^ e := by
        have h8 : (m' : ℝ) ≤ 2 ^ 53 := by exact_mod_cast (le_abs_self m').trans hm'.le
        calc (m' : ℝ) * 2 ^ e' ≤ 2 ^ 53 * 2 ^ e' := by gcongr
          _ ≤ 2 ^ 53 * 2 ^ (e - 53) := by gcongr
          _ = 2 ^ e := by rw [zpow_sub₀ (by norm_num)]; field_simp
      rw [abs_of_nonneg (by linarith), abs_of_nonneg (by linarith)]
      linarith

theorem exists_nearest (x : ℝ) : ∃ y, IsDouble y ∧ ∀ z, IsDouble z → |x - y| ≤ |x - z| := by
  rcases lt_trichotomy x 0 with hx | rfl | hx
  · obtain ⟨z, hz, -, h⟩ := exists_nearest_pos (neg_pos.2 hx)
    refine ⟨-z, hz.neg, fun z' hz' => ?_⟩
    have := h _ hz'.neg
    rwa [show x - -z = -(-x - z) by ring, abs_neg, show x - z' = -(-x - -z') by ring, abs_neg]
  · exact ⟨0, isDouble_zero, fun z _ => by simp⟩
  · obtain ⟨z, hz, -, h⟩ := exists_nearest_pos hx
    exact ⟨z, hz, h⟩

/-- There is a rounding to nearest. -/
example : ∃ fl, RoundsToNearest fl := by
  choose fl h using exists_nearest
  exact ⟨fl, h⟩

section
variable {fl : ℝ → ℝ} (hfl : RoundsToNearest fl)
include hfl

theorem fl_isDouble {x : ℝ} (hx : IsDouble x) : fl x = x := by
  have := (hfl x).2 x hx
  rw [sub_self, abs_zero, abs_nonpos_iff, sub_eq_zero] at this
  exact this.symm

theorem fl_nonneg {x : ℝ} (hx : 0 ≤ x) : 0 ≤ fl x := by
  by_contra h
  push Not at h
  have := (hfl x).2 0 isDouble_zero
  rw [abs_of_nonneg (by linarith), sub_zero, abs_of_nonneg hx] at this
  linarith

theorem fl_nonpos {x : ℝ} (hx : x ≤ 0) : fl x ≤ 0 := by
  by_contra h
  push Not at h
  have := (hfl x).2 0 isDouble_zero
  rw [abs_of_nonpos (by linarith), sub_zero, abs_of_nonpos hx] at this
  linarith

theorem fl_error (x : ℝ) : |fl x - x| ≤ 2⁻¹ ^ 53 * |x| := by
  rcases lt_trichotomy x 0 with hx | rfl | hx
  · obtain ⟨z, hz, h, -⟩ := exists_nearest_pos (neg_pos.2 hx)
    rw [abs_sub_comm, abs_of_neg hx]
    refine ((hfl x).2 _ hz.neg).trans ?_
    rwa [show x - -z = -(-x - z) by ring, abs_neg]
  · rw [fl_isDouble hfl isDouble_zero]; simp
  · obtain ⟨z, hz, h, -⟩ := exists_nearest_pos hx
    rw [abs_sub_comm, abs_of_pos hx]
    exact ((hfl x).2 _ hz).trans h

theorem fl_rounded (x : ℝ) : Rounded (2⁻¹ ^ 53) x (fl x) where
  error := (fl_error hfl x).trans (by gcongr; linarith [abs_nonneg x])
  nonneg := fl_nonneg hfl
  nonpos := fl_nonpos hfl

theorem fl_roundedTo (x : Option ℝ) : RoundedTo (2⁻¹ ^ 53) x (x.map fl) := by
  cases x with
  | none => rfl
  | some x => exact ⟨_, rfl, fl_rounded hfl x⟩

/-- Double precision is one of the arithmetics of C112. -/
theorem float_computes (env : Slot → ℝ) (e : Expr) : e.Computes (2⁻¹ ^ 53) env (e.float fl env) := by
  induction e with
  | var s => rfl
  | const c => exact fl_roundedTo hfl (some c)
  | neg a ih => exact ⟨_, ih, rfl⟩
  | add a b iha ihb => exact ⟨_, _, iha, ihb, fl_roundedTo hfl _⟩
  | sub a b iha ihb => exact ⟨_, _, iha, ihb, fl_roundedTo hfl _⟩
  | mul a b iha ihb => exact ⟨_, _, iha, ihb, fl_roundedTo hfl _⟩
  | div a b iha ihb => exact ⟨_, _, iha, ihb, fl_roundedTo hfl _⟩
  | sq a ih => exact ⟨_, ih, fl_roundedTo hfl _⟩
  | sqrt a ih => exact ⟨_, ih, fl_roundedTo hfl _⟩
  | exp a ih => exact ⟨_, ih, fl_roundedTo hfl _⟩
  | ifneg c a b ihc iha ihb =>
    refine ⟨_, ihc, ?_⟩
    cases hc : c.float fl env with
    | none => simp [Expr.float, hc]
    | some x =>
      simp only [Expr.float, hc, Option.bind_some]
      split_ifs
      · exact iha
      · exact ihb

theorem fl_exact {x y : ℝ} (m : ℤ) (k : ℕ) (hm : |m| < 2 ^ 53) (hx : x = m / 2 ^ k) (hy : y = m / 2 ^ k) : fl x = y := by
  rw [hy, ← hx]
  refine fl_isDouble hfl ⟨m, -k, hm, ?_⟩
  rw [hx, zpow_neg, zpow_natCast, div_eq_mul_inv]

/-- A number of double precision with all digits is the nearest one to all numbers that differ by less than half of the last
digit. -/
theorem fl_near {x y : ℝ} (m : ℤ) (k : ℕ) (hy : y = m / 2 ^ k) (h1 : 2 ^ 52 < |m|) (h2 : |m| < 2 ^ 53)
    (h3 : |x - y| < 1 / 2 ^ (k + 1)) : fl x = y := by
  by_contra hne
  have hk : (0 : ℝ) < 2 ^ k := by positivity
  have hd : (1 : ℝ) / 2 ^ k ≤ |fl x - y| := by
    obtain ⟨m', e, hm', hz⟩ := (hfl x).1
    rw [hz] at hne ⊢
    rcases le_or_gt (-(k : ℤ)) e with he | he
    · obtain ⟨j, hj⟩ := Int.eq_ofNat_of_zero_le (show 0 ≤ e + k by omega)
      have e1 : (m' : ℝ) * 2 ^ e - y = ((m' * 2 ^ j - m : ℤ) : ℝ) / 2 ^ k := by
        rw [show e = (j : ℤ) - k by omega, zpow_sub₀ (by norm_num), zpow_natCast, zpow_natCast, hy]
        push_cast
        field_simp
      have e2 : m' * 2 ^ j - m ≠ 0 := by
        intro h0
        rw [h0] at e1
        refine hne (sub_eq_zero.1 (e1.trans ?_))
        simp
      rw [e1, abs_div, abs_of_pos hk]
      refine div_le_div_of_nonneg_right ?_ hk.le
      exact_mod_cast Int.one_le_abs e2
    · have e1 : (2 : ℝ) ^ e ≤ 1 / 2 ^ (k + 1) := by
        rw [one_div, ← zpow_natCast, ← zpow_neg]
        exact zpow_le_zpow_right₀ (by norm_num) (by push_cast; omega)
      have e2 : |(m' : ℝ) * 2 ^ e| ≤ 2 ^ 53 * (1 / 2 ^ (k + 1)) := by
        rw [abs_mul, abs_of_pos (show (0 : ℝ) < 2 ^ e by positivity)]
        have : |(m' : ℝ)| ≤ 2 ^ 53 := by exact_mod_cast hm'.le
        gcongr
      have e3 : ((2 : ℝ) ^ 52 + 1) / 2 ^ k ≤ |y| := by
        rw [hy, abs_div, abs_of_pos hk]
        refine div_le_div_of_nonneg_right ?_ hk.le
        exact_mod_cast h1
      have e4 : (2 : ℝ) ^ 53 * (1 / 2 ^ (k + 1)) = 2 ^ 52 / 2 ^ k := by rw [pow_succ 2 k]; ring
      have e5 := abs_sub_abs_le_abs_sub y ((m' : ℝ) * 2 ^ e)
      rw [abs_sub_comm y] at e5
      have e6 : ((2 : ℝ) ^ 52 + 1) / 2 ^ k = 2 ^ 52 / 2 ^ k + 1 / 2 ^ k := by ring
      linarith
  have hy' : IsDouble y := ⟨m, -k, h2, by rw [hy, zpow_neg, zpow_natCast, div_eq_mul_inv]⟩
  have h4 := (hfl x).2 y hy'
  have h5 := abs_sub_le (fl x) x y
  rw [abs_sub_comm (fl x) x] at h5
  have h6 : (1 : ℝ) / 2 ^ k = 2 * (1 / 2 ^ (k + 1)) := by rw [pow_succ]; field_simp
  linarith

end

/-! ## Steps of a computation -/

section
variable (fl : ℝ → ℝ) (env : Slot → ℝ)

theorem float_const {c y : ℝ} (h : fl c = y) : (Expr.const c).float fl env = some y := by simp [Expr.float, h]
theorem float_var (s : Slot) {x : ℝ} (h : env s = x) : (Expr.var s).float fl env = some x := by simp [Expr.float, h]

variable {fl env} {a b c : Expr} {x y z : ℝ}

theorem float_add (ha : a.float fl env = some x) (hb : b.float fl env = some y) (h : fl (x + y) = z) :
    (a + b).float fl env = some z := by
  show Expr.float fl env (.add a b) = some z
  simp [Expr.float, lift2, ha, hb, h]
theorem float_sub (ha : a.float fl env = some x) (hb : b.float fl env = some y) (h : fl (x - y) = z) :
    (a - b).float fl env = some z := by
  show Expr.float fl env (.sub a b) = some z
  simp [Expr.float, lift2, ha, hb, h]
theorem float_mul (ha : a.float fl env = some x) (hb : b.float fl env = some y) (h : fl (x * y) = z) :
    (a * b).float fl env = some z := by
  show Expr.float fl env (.mul a b) = some z
  simp [Expr.float, lift2, ha, hb, h]
theorem float_div (ha : a.float fl env = some x) (hb : b.float fl env = some y) (hy : y ≠ 0) (h : fl (x / y) = z) :
    (a / b).float fl env = some z := by
  show Expr.float fl env (.div a b) = some z
  simp [Expr.float, lift2, ha, hb, h, hy]
theorem float_neg (ha : a.float fl env = some x) (h : -x = z) : (-a).float fl env = some z := by
  show Expr.float fl env (.neg a) = some z
  simp [Expr.float, ha, h]
theorem float_sq (ha : a.float fl env = some x) (h : fl (x ^ 2) = z) : (Expr.sq a).float fl env = some z := by
  simp [Expr.float, ha, h]
theorem float_sqrt (ha : a.float fl env = some x) (hx : 0 ≤ x) (h : fl (Real.sqrt x) = z) :
    (Expr.sqrt a).float fl env = some z := by
  simp [Expr.float, ha, hx, h]
theorem float_if_neg (hc : c.float fl env = some x) (hx : x < 0) : (Expr.ifneg c a b).float fl env = a.float fl env := by
  simp [Expr.float, hc, hx]
theorem float_if_nonneg (hc : c.float fl env = some x) (hx : 0 ≤ x) : (Expr.ifneg c a b).float fl env = b.float fl env := by
  simp [Expr.float, hc, hx.not_gt]
end

/-! ## The vertex of a conic -/

set_option linter.style.longLine false in
/-- The path length of the ray along the axis. -/
theorem vertex_path {fl : ℝ → ℝ} (hfl : RoundsToNearest fl) (env : Slot → ℝ) (hpx : env .px = 0) (hpy : env .py = 0)
    (hpz : env .pz = -7) (hdx : env .dx = 0) (hdy : env .dy = 0) (hdz : env .dz = 1) :
    (Profile.conic 3 0).pathE.float fl env = none := by
  have h1 := float_var fl env .px (x := 0) (by assumption)
  have h2 := float_var fl env .py (x := 0) (by assumption)
  have h3 := float_var fl env .pz (x := (-7)) (by assumption)
  have h4 := float_var fl env .dx (x := 0) (by assumption)
  have h5 := float_var fl env .dy (x := 0) (by assumption)
  have h6 := float_var fl env .dz (x := 1) (by assumption)
  have h7 := float_const fl env (c := 1) (y := 1) (fl_exact hfl (1) 0 (by norm_num) (by norm_num) (by norm_num))
  have h8 := float_const fl env (c := 3) (y := 3) (fl_exact hfl (3) 0 (by norm_num) (by norm_num) (by norm_num))
  have h9 := float_div h7 h8 (by norm_num) (z := (6004799503160661 / 18014398509481984)) (fl_near hfl (6004799503160661) 54 (by norm_num) (by norm_num) (by norm_num) (by rw [abs_lt]; constructor <;> norm_num))
  have h10 := float_const fl env (c := 0) (y := 0) (fl_exact hfl (0) 0 (by norm_num) (by norm_num) (by norm_num))
  have h11 := float_add h7 h10 (z := 1) (fl_exact hfl (1) 0 (by norm_num) (by norm_num) (by norm_num))
  have h12 := float_sq h4 (z := 0) (fl_exact hfl (0) 0 (by norm_num) (by norm_num) (by norm_num))
  have h13 := float_sq h5 (z := 0) (fl_exact hfl (0) 0 (by norm_num) (by norm_num) (by norm_num))
  have h14 := float_add h12 h13 (z := 0) (fl_exact hfl (0) 0 (by norm_num) (by norm_num) (by norm_num))
  have h15 := float_sq h6 (z := 1) (fl_exact hfl (1) 0 (by norm_num) (by norm_num) (by norm_num))
  have h16 := float_mul h11 h15 (z := 1) (fl_exact hfl (1) 0 (by norm_num) (by norm_num) (by norm_num))
  have h17 := float_add h14 h16 (z := 1) (fl_exact hfl (1) 0 (by norm_num) (by norm_num) (by norm_num))
  have h18 := float_mul h9 h17 (z := (6004799503160661 / 18014398509481984)) (fl_exact hfl (6004799503160661) 54 (by norm_num) (by norm_num) (by norm_num))
  have h19 := float_const fl env (c := 2) (y := 2) (fl_exact hfl (2) 0 (by norm_num) (by norm_num) (by norm_num))
  have h20 := float_mul h1 h4 (z := 0) (fl_exact hfl (0) 0 (by norm_num) (by norm_num) (by norm_num))
  have h21 := float_mul h2 h5 (z := 0) (fl_exact hfl (0) 0 (by norm_num) (by norm_num) (by norm_num))
  have h22 := float_add h20 h21 (z := 0) (fl_exact hfl (0) 0 (by norm_num) (by norm_num) (by norm_num))
  have h23 := float_mul h11 h3 (z := (-7)) (fl_exact hfl (-7) 0 (by norm_num) (by norm_num) (by norm_num))
  have h24 := float_mul h23 h6 (z := (-7)) (fl_exact hfl (-7) 0 (by norm_num) (by norm_num) (by norm_num))
  have h25 := float_add h22 h24 (z := (-7)) (fl_exact hfl (-7) 0 (by norm_num) (by norm_num) (by norm_num))
  have h26 := float_mul h9 h25 (z := (-2627099782632789 / 1125899906842624)) (fl_near hfl (-5254199565265578) 51 (by norm_num) (by norm_num) (by norm_num) (by rw [abs_lt]; constructor <;> norm_num))
  have h27 := float_sub h26 h6 (z := (-3752999689475413 / 1125899906842624)) (fl_exact hfl (-3752999689475413) 50 (by norm_num) (by norm_num) (by norm_num))
  have h28 := float_mul h19 h27 (z := (-3752999689475413 / 562949953421312)) (fl_exact hfl (-3752999689475413) 49 (by norm_num) (by norm_num) (by norm_num))
  have h29 := float_sq h1 (z := 0) (fl_exact hfl (0) 0 (by norm_num) (by norm_num) (by norm_num))
  have h30 := float_sq h2 (z := 0) (fl_exact hfl (0) 0 (by norm_num) (by norm_num) (by norm_num))
  have h31 := float_add h29 h30 (z := 0) (fl_exact hfl (0) 0 (by norm_num) (by norm_num) (by norm_num))
  have h32 := float_sq h3 (z := 49) (fl_exact hfl (49) 0 (by norm_num) (by norm_num) (by norm_num))
  have h33 := float_mul h11 h32 (z := 49) (fl_exact hfl (49) 0 (by norm_num) (by norm_num) (by norm_num))
  have h34 := float_add h31 h33 (z := 49) (fl_exact hfl (49) 0 (by norm_num) (by norm_num) (by norm_num))
  have h35 := float_mul h9 h34 (z := (4597424619607381 / 281474976710656)) (fl_near hfl (4597424619607381) 48 (by norm_num) (by norm_num) (by norm_num) (by rw [abs_lt]; constructor <;> norm_num))
  have h36 := float_mul h19 h3 (z := (-14)) (fl_exact hfl (-14) 0 (by norm_num) (by norm_num) (by norm_num))
  have h37 := float_sub h35 h36 (z := (8538074293556565 / 281474976710656)) (fl_exact hfl (8538074293556565) 48 (by norm_num) (by norm_num) (by norm_num))
  have h38 := float_sq h28 (z := (6254999482459021 / 140737488355328)) (fl_near hfl (6254999482459021) 47 (by norm_num) (by norm_num) (by norm_num) (by rw [abs_lt]; constructor <;> norm_num))
  have h39 := float_const fl env (c := 4) (y := 4) (fl_exact hfl (4) 0 (by norm_num) (by norm_num) (by norm_num))
  have h40 := float_mul h39 h18 (z := (6004799503160661 / 4503599627370496)) (fl_exact hfl (6004799503160661) 52 (by norm_num) (by norm_num) (by norm_num))
  have h41 := float_mul h40 h37 (z := (2846024764518855 / 70368744177664)) (fl_near hfl (5692049529037710) 47 (by norm_num) (by norm_num) (by norm_num) (by rw [abs_lt]; constructor <;> norm_num))
  have h42 := float_sub h38 h41 (z := (562949953421311 / 140737488355328)) (fl_exact hfl (562949953421311) 47 (by norm_num) (by norm_num) (by norm_num))
  have h43 := float_neg h28 (z := (3752999689475413 / 562949953421312)) (by norm_num)
  have h44 := float_const fl env (c := (-1)) (y := (-1)) (fl_exact hfl (-1) 0 (by norm_num) (by norm_num) (by norm_num))
  have h45 := float_sqrt h42 (by norm_num) (z := (1125899906842623 / 562949953421312)) (fl_near hfl (9007199254740984) 52 (by norm_num) (by norm_num) (by norm_num)
    (by rw [abs_lt]; constructor
        · rw [lt_sub_iff_add_lt]; refine Real.lt_sqrt_of_sq_lt ?_; norm_num
        · rw [sub_lt_iff_lt_add, Real.sqrt_lt' (by norm_num)]; norm_num))
  have h46 := float_mul h44 h45 (z := (-1125899906842623 / 562949953421312)) (fl_exact hfl (-1125899906842623) 49 (by norm_num) (by norm_num) (by norm_num))
  have h47 := float_add h43 h46 (z := (1313549891316395 / 281474976710656)) (fl_exact hfl (1313549891316395) 48 (by norm_num) (by norm_num) (by norm_num))
  have h48 := float_mul h19 h18 (z := (6004799503160661 / 9007199254740992)) (fl_exact hfl (6004799503160661) 53 (by norm_num) (by norm_num) (by norm_num))
  have h49 := float_div h47 h48 (by norm_num) (z := (3940649673949185 / 562949953421312)) (fl_near hfl (7881299347898370) 50 (by norm_num) (by norm_num) (by norm_num) (by rw [abs_lt]; constructor <;> norm_num))
  have h50 := float_mul h7 h45 (z := (1125899906842623 / 562949953421312)) (fl_exact hfl (1125899906842623) 49 (by norm_num) (by norm_num) (by norm_num))
  have h51 := float_add h43 h50 (z := (1219724899079509 / 140737488355328)) (fl_exact hfl (1219724899079509) 47 (by norm_num) (by norm_num) (by norm_num))
  have h52 := float_div h51 h48 (by norm_num) (z := (3659174697238527 / 281474976710656)) (fl_near hfl (7318349394477054) 49 (by norm_num) (by norm_num) (by norm_num) (by rw [abs_lt]; constructor <;> norm_num))
  have h53 := float_mul h4 h49 (z := 0) (fl_exact hfl (0) 0 (by norm_num) (by norm_num) (by norm_num))
  have h54 := float_add h1 h53 (z := 0) (fl_exact hfl (0) 0 (by norm_num) (by norm_num) (by norm_num))
  have h55 := float_mul h5 h49 (z := 0) (fl_exact hfl (0) 0 (by norm_num) (by norm_num) (by norm_num))
  have h56 := float_add h2 h55 (z := 0) (fl_exact hfl (0) 0 (by norm_num) (by norm_num) (by norm_num))
  have h57 := float_mul h6 h49 (z := (3940649673949185 / 562949953421312)) (fl_exact hfl (3940649673949185) 49 (by norm_num) (by norm_num) (by norm_num))
  have h58 := float_add h3 h57 (z := (1 / 562949953421312)) (fl_exact hfl (1) 49 (by norm_num) (by norm_num) (by norm_num))
  have h59 := float_sq h54 (z := 0) (fl_exact hfl (0) 0 (by norm_num) (by norm_num) (by norm_num))
  have h60 := float_sq h56 (z := 0) (fl_exact hfl (0) 0 (by norm_num) (by norm_num) (by norm_num))
  have h61 := float_add h59 h60 (z := 0) (fl_exact hfl (0) 0 (by norm_num) (by norm_num) (by norm_num))
  have h62 := float_mul h9 h61 (z := 0) (fl_exact hfl (0) 0 (by norm_num) (by norm_num) (by norm_num))
  have h63 := float_sub h62 h58 (z := (-1 / 562949953421312)) (fl_exact hfl (-1) 49 (by norm_num) (by norm_num) (by norm_num))
  have h64 := float_mul h58 h63 (z := (-1 / 316912650057057350374175801344)) (fl_exact hfl (-1) 98 (by norm_num) (by norm_num) (by norm_num))
  have h65 := float_mul h4 h52 (z := 0) (fl_exact hfl (0) 0 (by norm_num) (by norm_num) (by norm_num))
  have h66 := float_add h1 h65 (z := 0) (fl_exact hfl (0) 0 (by norm_num) (by norm_num) (by norm_num))
  have h67 := float_mul h5 h52 (z := 0) (fl_exact hfl (0) 0 (by norm_num) (by norm_num) (by norm_num))
  have h68 := float_add h2 h67 (z := 0) (fl_exact hfl (0) 0 (by norm_num) (by norm_num) (by norm_num))
  have h69 := float_mul h6 h52 (z := (3659174697238527 / 281474976710656)) (fl_exact hfl (3659174697238527) 48 (by norm_num) (by norm_num) (by norm_num))
  have h70 := float_add h3 h69 (z := (1688849860263935 / 281474976710656)) (fl_exact hfl (1688849860263935) 48 (by norm_num) (by norm_num) (by norm_num))
  have h71 := float_sq h66 (z := 0) (fl_exact hfl (0) 0 (by norm_num) (by norm_num) (by norm_num))
  have h72 := float_sq h68 (z := 0) (fl_exact hfl (0) 0 (by norm_num) (by norm_num) (by norm_num))
  have h73 := float_add h71 h72 (z := 0) (fl_exact hfl (0) 0 (by norm_num) (by norm_num) (by norm_num))
  have h74 := float_mul h9 h73 (z := 0) (fl_exact hfl (0) 0 (by norm_num) (by norm_num) (by norm_num))
  have h75 := float_sub h74 h70 (z := (-1688849860263935 / 281474976710656)) (fl_exact hfl (-1688849860263935) 48 (by norm_num) (by norm_num) (by norm_num))
  have h76 := float_mul h70 h75 (z := (-2533274790395901 / 70368744177664)) (fl_near hfl (-5066549580791802) 47 (by norm_num) (by norm_num) (by norm_num) (by rw [abs_lt]; constructor <;> norm_num))
  have hA : (conicAE 3 0).float fl env = some (6004799503160661 / 18014398509481984) := h18
  have hD : (conicDE 3 0).float fl env = some _ := h42
  have hsa : (conicSheetE 3 (conicRootE 3 0 (-1))).float fl env = some _ := h64
  have hsb : (conicSheetE 3 (conicRootE 3 0 1)).float fl env = some _ := h76
  have hinf : Expr.inf.float fl env = none := by
    show Expr.float fl env (.div (.const 1) (.const 0)) = none
    simp [Expr.float, lift2, fl_isDouble hfl isDouble_zero]
  have habs : (Expr.abs (conicAE 3 0)).float fl env = some (6004799503160661 / 18014398509481984) := by
    rw [Expr.abs, float_if_nonneg hA (by norm_num), hA]
  have htol : 0 ≤ fl ((6004799503160661 / 18014398509481984) - fl 1e-12) := by
    refine fl_nonneg hfl ?_
    have := fl_error hfl 1e-12
    rw [abs_of_pos (show (0 : ℝ) < 1e-12 by norm_num), abs_le] at this
    norm_num at this ⊢
    linarith
  show Expr.float fl env (conicPathE 3 0) = none
  unfold conicPathE
  rw [float_if_nonneg hD (by norm_num), float_if_nonneg (float_sub habs (float_const fl env rfl) rfl) htol,
    float_if_neg hsa (by norm_num), float_if_neg hsb (by norm_num), hinf]

/-- A conic surface, and nothing else. -/
noncomputable def conicElement : Element := ⟨.conic 3 0, .mirror, none, none, none⟩

/-- The ray along the axis. -/
noncomputable def axialRay : Ray := ⟨1, ⟨0, 0, -7⟩, ⟨0, 0, 1⟩, 1, 0, 1, true⟩

/-- **C112 fails at the vertex of conic surfaces.**  A ray along the axis of a conic mirror of radius 3 is reflected at the
vertex, and the errors of double precision, with whichever rounding to nearest, make the code lose it: the computed point is
not quite the vertex, and all points of the axis except the vertex are considered to be on the other sheet. -/
theorem C112_vertex_counterexample :
    propagateSurfaces [conicElement.surface] axialRay = some { axialRay with position := ⟨0, 0, 0⟩, direction := ⟨0, 0, -1⟩ } ∧
    (∀ fl, RoundsToNearest fl → (pathStage (.conic 3 0) .path).float fl axialRay.numbers = none) ∧
    ∀ fl, RoundsToNearest fl → Runs (2⁻¹ ^ 53) conicElement.program axialRay.numbers none := by
  refine ⟨?_, fun fl hfl => vertex_path hfl _ rfl rfl rfl rfl rfl rfl, fun fl hfl => ?_⟩
  · rw [propagateSurfaces_cons]
    have hs : Real.sqrt 4 = 2 := by rw [show (4 : ℝ) = 2 ^ 2 by norm_num]; exact Real.sqrt_sq (by norm_num)
    have ha : conicRoot (1 / 3) (1 + 0) ⟨0, 0, -7⟩ ⟨0, 0, 1⟩ (-1) = some 7 := by
      norm_num [conicRoot, hs, div?, abs_of_pos]
    have hb : conicRoot (1 / 3) (1 + 0) ⟨0, 0, -7⟩ ⟨0, 0, 1⟩ 1 = none := by
      norm_num [conicRoot, hs, div?, abs_of_pos]
    have hq : conicIntercept 3 0 ⟨0, 0, -7⟩ ⟨0, 0, 1⟩ = some ⟨0, 0, 0⟩ := by
      simp only [conicIntercept, div?_of_ne (show (3 : ℝ) ≠ 0 by norm_num), Option.bind_eq_bind, Option.bind_some, conicPath,
        ha, hb, Option.pure_def]
      norm_num
    have hn : conicNormal 3 0 ⟨0, 0, 0⟩ = some ⟨0, 0, -1⟩ := by
      norm_num [conicNormal, div?, sqrt?, len, dot]
    norm_num [conicElement, Element.surface, axialRay, Surface.propagate, Surface.propagateLocal, Sag.propagate,
      Surface.interact, Surface.effectiveRay, Surface.rulingFactor, Surface.clip, Profile.sag, conicSag, Filling.material, hq, hn,
      mirror, snellsLaw, div?, sqrt?, copysign1, propagateSurfaces_nil]
  · refine ⟨fun k => (pathStage (.conic 3 0) k).float fl axialRay.numbers, fun k => float_computes hfl _ _,
      .inr ⟨⟨.path, vertex_path hfl _ rfl rfl rfl rfl rfl rfl⟩, rfl⟩⟩

end Optika
