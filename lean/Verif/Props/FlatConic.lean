import Verif.Props.Doubles
import Verif.Props.Infinite

/-!
# C113: conic surfaces of infinite radius in double precision
-/

namespace Optika

/-- With the curvature of a finite radius, the path is the one of `Profile.pathE`. -/
theorem conicPathC_radius (r k : ℝ) : conicPathC (.const 1 / .const r) k = (Profile.conic r k).pathE := rfl

theorem float_abs_nonneg {fl : ℝ → ℝ} {env : Slot → ℝ} {e : Expr} {x : ℝ} (h : e.float fl env = some x) (hx : 0 ≤ x) :
    (Expr.abs e).float fl env = some x := by
  rw [Expr.abs, float_if_nonneg h hx, h]

theorem float_zero_mul {fl : ℝ → ℝ} (hfl : RoundsToNearest fl) {env : Slot → ℝ} {e : Expr} {x : ℝ}
    (h : e.float fl env = some x) : (Expr.const 0 * e).float fl env = some 0 :=
  float_mul (float_const fl env (fl_isDouble hfl isDouble_zero)) h (by rw [zero_mul]; exact fl_isDouble hfl isDouble_zero)

/-- **C113 fails in double precision for conics**: a ray that starts at `z = -1` and has the component `49/64` along `z` strikes
a plane, but is lost by a conic surface of infinite radius (the default): with whichever rounding to nearest the computed
point is not quite on the plane, and all points next to the plane are considered to be on the other sheet. -/
theorem C113_conic_rounding_counterexample {fl : ℝ → ℝ} (hfl : RoundsToNearest fl) (k : ℝ) (r : Ray)
    (hz : r.position.z = -1) (hd : r.direction.z = 49 / 64) :
    flatIntercept r.position r.direction =
      some ⟨r.position.x + r.direction.x * (64 / 49), r.position.y + r.direction.y * (64 / 49), 0⟩ ∧
    (conicPathC (.const 0) k).float fl r.numbers = none := by
  refine ⟨?_, ?_⟩
  · unfold flatIntercept
    rw [hz, hd, div?_of_ne (by norm_num)]
    norm_num
  set env := r.numbers
  have hz : env .pz = -1 := hz
  have hd : env .dz = 49 / 64 := hd
  have vz := float_var fl env .pz hz
  have vd := float_var fl env .dz hd
  have c1 := float_const fl env (c := 1) (y := 1) (fl_exact hfl (1) 0 (by norm_num) (by norm_num) (by norm_num))
  have c2 := float_const fl env (c := 2) (y := 2) (fl_exact hfl (2) 0 (by norm_num) (by norm_num) (by norm_num))
  have c4 := float_const fl env (c := 4) (y := 4) (fl_exact hfl (4) 0 (by norm_num) (by norm_num) (by norm_num))
  have f0 : fl 0 = 0 := fl_isDouble hfl isDouble_zero
  -- the coefficients
  have ha : (Expr.const 0 * (.sq (.var .dx) + .sq (.var .dy) + (.const 1 + .const k) * .sq (.var .dz)) : Expr).float fl env
      = some 0 := float_zero_mul hfl
    (float_add (float_add (float_sq (float_var fl env _ rfl) rfl) (float_sq (float_var fl env _ rfl) rfl) rfl)
      (float_mul (float_add c1 (float_const fl env rfl) rfl) (float_sq vd rfl) rfl) rfl)
  have hb0 : (Expr.const 0 * (.var .px * .var .dx + .var .py * .var .dy + (.const 1 + .const k) * .var .pz * .var .dz) :
      Expr).float fl env = some 0 := float_zero_mul hfl
    (float_add (float_add (float_mul (float_var fl env _ rfl) (float_var fl env _ rfl) rfl)
      (float_mul (float_var fl env _ rfl) (float_var fl env _ rfl) rfl) rfl)
      (float_mul (float_mul (float_add c1 (float_const fl env rfl) rfl) vz rfl) vd rfl) rfl)
  have hb := float_mul c2 (float_sub hb0 vd (z := -49 / 64)
    (fl_exact hfl (-49) 6 (by norm_num) (by norm_num) (by norm_num))) (z := -49 / 32)
    (fl_exact hfl (-49) 5 (by norm_num) (by norm_num) (by norm_num))
  have hc0 : (Expr.const 0 * (.sq (.var .px) + .sq (.var .py) + (.const 1 + .const k) * .sq (.var .pz)) : Expr).float fl env
      = some 0 := float_zero_mul hfl
    (float_add (float_add (float_sq (float_var fl env _ rfl) rfl) (float_sq (float_var fl env _ rfl) rfl) rfl)
      (float_mul (float_add c1 (float_const fl env rfl) rfl) (float_sq vz rfl) rfl) rfl)
  have hc := float_sub hc0 (float_mul c2 vz (z := -2) (fl_exact hfl (-2) 0 (by norm_num) (by norm_num) (by norm_num)))
    (z := 2) (fl_exact hfl (2) 0 (by norm_num) (by norm_num) (by norm_num))
  have hD := float_sub (float_sq hb (z := 2401 / 1024) (fl_exact hfl (2401) 10 (by norm_num) (by norm_num) (by norm_num)))
    (float_mul (float_mul c4 ha (z := 0) (by simpa using f0)) hc (z := 0) (by simpa using f0)) (z := 2401 / 1024)
    (fl_exact hfl (2401) 10 (by norm_num) (by norm_num) (by norm_num))
  have habs := float_abs_nonneg ha le_rfl
  have htol : fl (0 - fl 1e-12) < 0 := by
    have h1 := fl_error hfl 1e-12
    rw [abs_of_pos (show (0 : ℝ) < 1e-12 by norm_num), abs_le] at h1
    have h2 := fl_error hfl (0 - fl 1e-12)
    have h3 : 0 < fl 1e-12 := by norm_num at h1 ⊢; linarith
    rw [zero_sub, abs_neg, abs_of_pos h3, abs_le] at h2
    rw [zero_sub]
    have : (2⁻¹ : ℝ) ^ 53 * fl 1e-12 < fl 1e-12 := by
      have : (2⁻¹ : ℝ) ^ 53 < 1 := by norm_num
      nlinarith
    linarith
  -- the path and the point
  have ht := float_div (float_neg hc rfl) hb (by norm_num) (z := 5882252574524729 / 4503599627370496)
    (fl_near hfl (5882252574524729) 52 (by norm_num) (by norm_num) (by norm_num) (by rw [abs_lt]; constructor <;> norm_num))
  have hp := float_add vz (float_mul vd ht (z := 9007199254740991 / 9007199254740992)
    (fl_near hfl (9007199254740991) 53 (by norm_num) (by norm_num) (by norm_num) (by rw [abs_lt]; constructor <;> norm_num)))
    (z := -1 / 9007199254740992) (fl_exact hfl (-1) 53 (by norm_num) (by norm_num) (by norm_num))
  have hs := float_mul hp (float_sub (float_zero_mul hfl (float_add
    (float_sq (float_add (float_var fl env .px rfl) (float_mul (float_var fl env .dx rfl) ht rfl) rfl) rfl)
    (float_sq (float_add (float_var fl env .py rfl) (float_mul (float_var fl env .dy rfl) ht rfl) rfl) rfl) rfl)) hp
    (z := 1 / 9007199254740992) (fl_exact hfl (1) 53 (by norm_num) (by norm_num) (by norm_num)))
    (z := -1 / 2 ^ 106) (fl_exact hfl (-1) 106 (by norm_num) (by norm_num) (by norm_num))
  have hinf : Expr.inf.float fl env = none := by
    show Expr.float fl env (.div (.const 1) (.const 0)) = none
    simp [Expr.float, lift2, f0]
  refine (float_if_nonneg hD (by norm_num)).trans ((float_if_neg (float_sub habs (float_const fl env rfl) rfl) htol).trans
    ((float_if_neg hs (by norm_num)).trans hinf))

/-- Such a ray, whose direction is as close to a unit vector as double precision allows. -/
example : let u : V3 := ⟨2897107776102725 / 4503599627370496, 0, 49 / 64⟩
    |u.dot u - 1| < 2⁻¹ ^ 53 ∧ IsDouble u.x ∧ IsDouble u.z := by
  refine ⟨?_, ⟨2897107776102725, -52, by norm_num, by norm_num [zpow_neg]⟩, ⟨49, -6, by norm_num, by norm_num [zpow_neg]⟩⟩
  rw [abs_lt]
  constructor <;> norm_num [V3.dot]

end Optika
