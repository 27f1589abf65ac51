import Verif.Model.Infinite
import Mathlib.Tactic.Linarith
import Mathlib.Tactic.FieldSimp

/-!
# C113: surfaces with an infinite radius are flat
-/

namespace Optika

/-- The real number, if it is one. -/
def Fl.toOption : Fl → Option ℝ
  | .fin x => some x
  | _ => none

/-- The vector, if all of its components are real numbers. -/
def FV3.toOption (p : FV3) : Option V3 := do
  return ⟨← p.x.toOption, ← p.y.toOption, ← p.z.toOption⟩

/-! ## Arithmetic -/

namespace Fl

/-- Not a number if there is none. -/
noncomputable def ofOption : Option ℝ → Fl
  | some x => fin x
  | none => nan

@[simp] theorem ofOption_some (x : ℝ) : ofOption (some x) = fin x := rfl
@[simp] theorem ofOption_none : ofOption none = nan := rfl
@[simp] theorem toOption_fin (x : ℝ) : (fin x).toOption = some x := rfl
@[simp] theorem toOption_inf (s : Bool) : (inf s).toOption = none := rfl
@[simp] theorem toOption_nan : nan.toOption = none := rfl

@[simp] theorem fin_add (x y : ℝ) : fin x + fin y = fin (x + y) := rfl
@[simp] theorem fin_sub (x y : ℝ) : fin x - fin y = fin (x - y) := by
  rw [sub_eq_add_neg]; rfl
@[simp] theorem fin_mul (x y : ℝ) : fin x * fin y = fin (x * y) := rfl
@[simp] theorem fin_neg (x : ℝ) : -fin x = fin (-x) := rfl
@[simp] theorem fin_sq (x : ℝ) : sq (fin x) = fin (x ^ 2) := by rw [pow_two]; rfl
theorem fin_div (x y : ℝ) : fin x / fin y = ofOption (div? x y) := by
  show (if y = 0 then nan else fin (x / y)) = _
  unfold div?
  split_ifs <;> rfl
theorem fin_sqrt (x : ℝ) : Fl.sqrt (fin x) = ofOption (sqrt? x) := by
  show (if x < 0 then nan else fin (Real.sqrt x)) = _
  unfold sqrt?
  split_ifs <;> first | rfl | (exfalso; linarith)
@[simp] theorem fin_abs (x : ℝ) : Fl.abs (fin x) = fin |x| := rfl
@[simp] theorem fin_sign (x : ℝ) : Fl.sign (fin x) = fin (sgn x) := rfl
@[simp] theorem fin_lt (x y : ℝ) : Fl.lt (fin x) (fin y) = decide (x < y) := rfl
@[simp] theorem fin_le (x y : ℝ) : Fl.le (fin x) (fin y) = decide (x ≤ y) := rfl

@[simp] theorem nan_add (a : Fl) : nan + a = nan := by cases a <;> rfl
@[simp] theorem add_nan (a : Fl) : a + nan = nan := by cases a <;> rfl
@[simp] theorem nan_sub (a : Fl) : nan - a = nan := by cases a <;> rfl
@[simp] theorem sub_nan (a : Fl) : a - nan = nan := by cases a <;> rfl
@[simp] theorem nan_mul (a : Fl) : nan * a = nan := by cases a <;> rfl
@[simp] theorem mul_nan (a : Fl) : a * nan = nan := by cases a <;> rfl
@[simp] theorem nan_div (a : Fl) : nan / a = nan := by cases a <;> rfl
@[simp] theorem div_nan (a : Fl) : a / nan = nan := by cases a <;> rfl
@[simp] theorem neg_nan : -nan = nan := rfl
@[simp] theorem sq_nan : sq nan = nan := rfl
@[simp] theorem sqrt_nan : Fl.sqrt nan = nan := rfl
@[simp] theorem sign_nan : Fl.sign nan = nan := rfl
@[simp] theorem abs_nan : Fl.abs nan = nan := rfl
@[simp] theorem nan_lt (a : Fl) : Fl.lt nan a = false := by cases a <;> rfl
@[simp] theorem lt_nan (a : Fl) : Fl.lt a nan = false := by cases a <;> rfl
@[simp] theorem nan_le (a : Fl) : Fl.le nan a = false := by cases a <;> rfl
@[simp] theorem le_nan (a : Fl) : Fl.le a nan = false := by cases a <;> rfl

@[simp] theorem fin_div_inf (x : ℝ) (s : Bool) : fin x / inf s = fin 0 := rfl
@[simp] theorem inf_div_inf (s t : Bool) : inf s / inf t = nan := rfl
@[simp] theorem fin_add_inf (x : ℝ) (s : Bool) : fin x + inf s = inf s := rfl
@[simp] theorem inf_add_fin (x : ℝ) (s : Bool) : inf s + fin x = inf s := rfl
@[simp] theorem fin_sub_inf (x : ℝ) (s : Bool) : fin x - inf s = inf !s := rfl
@[simp] theorem inf_sub_fin (x : ℝ) (s : Bool) : inf s - fin x = inf s := rfl
@[simp] theorem inf_sub_inf (s : Bool) : inf s - inf s = nan := by cases s <;> rfl
@[simp] theorem inf_mul_inf (s t : Bool) : inf s * inf t = inf (s == t) := rfl
@[simp] theorem sq_inf (s : Bool) : sq (inf s) = inf true := by cases s <;> rfl
@[simp] theorem neg_inf (s : Bool) : -inf s = inf !s := rfl
theorem fin_mul_inf (x : ℝ) (s : Bool) : fin x * inf s = if x = 0 then nan else inf (decide (0 < x) == s) := rfl
theorem inf_mul_fin (x : ℝ) (s : Bool) : inf s * fin x = if x = 0 then nan else inf (s == decide (0 < x)) := rfl
theorem fin_div_ne (x : ℝ) {y : ℝ} (h : y ≠ 0) : fin x / fin y = fin (x / y) := if_neg h

theorem div_inf_not_finite (s : Bool) (a : Fl) : (inf s / a).toOption = none := by
  cases a with
  | fin y =>
    show (if y = 0 then nan else inf (s == decide (0 < y))).toOption = none
    split_ifs <;> rfl
  | inf => rfl
  | nan => rfl

end Fl

namespace FV3

theorem toOption_none_x {p : FV3} (h : p.x.toOption = none) : p.toOption = none := by
  unfold toOption; rw [h]; rfl
theorem toOption_none_z {p : FV3} (h : p.z.toOption = none) : p.toOption = none := by
  unfold toOption; rw [h]; cases p.x.toOption <;> cases p.y.toOption <;> rfl
@[simp] theorem toOption_fin (p : V3) : (FV3.fin p).toOption = some p := rfl
theorem toOption_mk (x y z : ℝ) : (⟨.fin x, .fin y, .fin z⟩ : FV3).toOption = some ⟨x, y, z⟩ := rfl
@[simp] theorem fin_x (p : V3) : (FV3.fin p).x = .fin p.x := rfl
@[simp] theorem fin_y (p : V3) : (FV3.fin p).y = .fin p.y := rfl
@[simp] theorem fin_z (p : V3) : (FV3.fin p).z = .fin p.z := rfl

theorem along_fin (o u : V3) (t : ℝ) : along (fin o) (fin u) (.fin t) =
    fin ⟨o.x + u.x * t, o.y + u.y * t, o.z + u.z * t⟩ := rfl

theorem along_not_finite (o u : V3) {t : Fl} (h : t.toOption = none) : (along (fin o) (fin u) t).toOption = none := by
  apply toOption_none_x
  unfold along
  cases t with
  | fin x => simp at h
  | nan => simp
  | inf s =>
    simp only [fin_x, Fl.fin_mul_inf]
    split_ifs <;> simp

theorem along_toOption (o u : V3) (t : Fl) : (along (fin o) (fin u) t).toOption =
    t.toOption.map fun t => (⟨o.x + u.x * t, o.y + u.y * t, o.z + u.z * t⟩ : V3) := by
  cases h : t.toOption with
  | none => exact along_not_finite o u h
  | some x =>
    cases t with
    | fin y => simp at h; subst h; rfl
    | inf => simp at h
    | nan => simp at h

end FV3

open FV3


/-! ## Finite radii -/

/-- Splits on the divisions and square roots that may fail. -/
macro "fsimp" : tactic => `(tactic| simp only [Fl.ofOption_some, Fl.ofOption_none, Fl.fin_sq, Fl.fin_add, Fl.fin_mul, Fl.fin_sub,
  Fl.fin_neg, Fl.fin_sign, Fl.fin_sqrt, Fl.fin_div, Fl.fin_abs, Fl.fin_lt, Fl.fin_le, Option.bind_eq_bind, Option.bind_some,
  Option.bind_none, Option.pure_def, FV3.fin_x, FV3.fin_y, FV3.fin_z, Fl.nan_add, Fl.add_nan, Fl.nan_sub, Fl.sub_nan, Fl.nan_mul,
  Fl.mul_nan, Fl.nan_div, Fl.div_nan, Fl.neg_nan, Fl.sq_nan, Fl.sqrt_nan, Fl.sign_nan, Fl.abs_nan, Fl.toOption_fin,
  Fl.toOption_nan, Fl.nan_le, Fl.le_nan, Fl.nan_lt, Fl.lt_nan])

theorem sphereHeightF_fin (R : ℝ) (p : V3) : (sphereHeightF (.fin R) (FV3.fin p)).toOption = sphereHeight R p := by
  unfold sphereHeightF sphereHeight
  fsimp
  cases div? 1 R with
  | none => fsimp
  | some c =>
    fsimp
    cases sqrt? (1 - c ^ 2 * (p.x ^ 2 + p.y ^ 2)) with
    | none => fsimp
    | some s =>
      fsimp
      cases div? (c * (p.x ^ 2 + p.y ^ 2)) (1 + s) <;> rfl

theorem sphereNormalF_fin (R : ℝ) (p : V3) : (sphereNormalF (.fin R) (FV3.fin p)).toOption = sphereNormal R p := by
  unfold sphereNormalF sphereNormal
  fsimp
  cases div? 1 R with
  | none => rfl
  | some c =>
    fsimp
    cases sqrt? (1 - (c * p.x) ^ 2 - (c * p.y) ^ 2) <;> rfl

theorem sphereInterceptF_fin (R : ℝ) (o u : V3) :
    (sphereInterceptF (.fin R) (FV3.fin o) (FV3.fin u)).toOption = sphereIntercept R o u := by
  unfold sphereInterceptF sphereIntercept
  rw [along_toOption]
  fsimp
  cases sqrt? ((u.x * o.x + u.y * o.y + u.z * (o.z - R)) ^ 2 - (o.x ^ 2 + o.y ^ 2 + (o.z - R) ^ 2 - R ^ 2)) <;> rfl

theorem conicHeightF_fin (R k : ℝ) (p : V3) :
    (conicHeightF (.fin R) (.fin k) (FV3.fin p)).toOption = conicHeight R k p := by
  unfold conicHeightF conicHeight
  fsimp
  cases div? 1 R with
  | none => fsimp
  | some c =>
    fsimp
    cases sqrt? (1 - (1 + k) * c ^ 2 * (p.x ^ 2 + p.y ^ 2)) with
    | none => fsimp
    | some s =>
      fsimp
      cases div? (c * (p.x ^ 2 + p.y ^ 2)) (1 + s) <;> rfl

theorem len_fin (x y z : ℝ) : FV3.len ⟨.fin x, .fin y, .fin z⟩ = .fin (V3.len ⟨x, y, z⟩) := by
  unfold FV3.len
  fsimp
  rw [sqrt?_eq_some.2 ⟨by positivity, rfl⟩]
  simp only [Fl.ofOption_some, V3.len, V3.dot, pow_two]

theorem over_len (x y : ℝ) : (FV3.over ⟨.fin x, .fin y, .fin (-1)⟩ (FV3.len ⟨.fin x, .fin y, .fin (-1)⟩)).toOption =
    (do
      let result : V3 := ⟨x, y, -1⟩
      let l := result.len
      let nx ← div? result.x l
      let ny ← div? result.y l
      let nz ← div? result.z l
      return ⟨nx, ny, nz⟩) := by
  rw [len_fin]
  unfold FV3.over
  fsimp
  cases div? x (V3.len ⟨x, y, -1⟩) with
  | none => rfl
  | some a =>
    cases div? y (V3.len ⟨x, y, -1⟩) with
    | none => rfl
    | some b => cases div? (-1) (V3.len ⟨x, y, -1⟩) <;> rfl

theorem over_len_nan_x (y : Fl) : (FV3.over ⟨.nan, y, .fin (-1)⟩ (FV3.len ⟨.nan, y, .fin (-1)⟩)).toOption = none := by
  apply toOption_none_x
  unfold FV3.over
  fsimp

theorem over_len_nan_y (x : Fl) : (FV3.over ⟨x, .nan, .fin (-1)⟩ (FV3.len ⟨x, .nan, .fin (-1)⟩)).toOption = none := by
  apply toOption_none_x
  unfold FV3.over FV3.len
  fsimp

theorem conicNormalF_fin (R k : ℝ) (p : V3) :
    (conicNormalF (.fin R) (.fin k) (FV3.fin p)).toOption = conicNormal R k p := by
  unfold conicNormalF conicNormal
  fsimp
  cases div? 1 R with
  | none => fsimp; exact over_len_nan_x _
  | some c =>
    fsimp
    cases sqrt? (1 - (1 + k) * c ^ 2 * (p.x ^ 2 + p.y ^ 2)) with
    | none => fsimp; exact over_len_nan_x _
    | some g =>
      fsimp
      cases div? (c * p.x) g with
      | none => fsimp; exact over_len_nan_x _
      | some a =>
        cases div? (c * p.y) g with
        | none => fsimp; exact over_len_nan_y _
        | some b => exact over_len a b

theorem conicRootF_fin (c kp1 : ℝ) (o u : V3) (s : ℝ) :
    (conicRootF (.fin c) (.fin kp1) (FV3.fin o) (FV3.fin u) s).toOption = conicRoot c kp1 o u s ∧
    conicRootF (.fin c) (.fin kp1) (FV3.fin o) (FV3.fin u) s ≠ .nan ∧
    conicRootF (.fin c) (.fin kp1) (FV3.fin o) (FV3.fin u) s ≠ .inf false := by
  unfold conicRootF conicRoot
  fsimp
  set a := c * (u.x ^ 2 + u.y ^ 2 + kp1 * u.z ^ 2)
  set b := 2 * (c * (o.x * u.x + o.y * u.y + kp1 * o.z * u.z) - u.z)
  set cc := c * (o.x ^ 2 + o.y ^ 2 + kp1 * o.z ^ 2) - 2 * o.z
  by_cases hd : b ^ 2 - 4 * a * cc < 0
  · have : ¬ 0 ≤ b ^ 2 - 4 * a * cc := not_le.2 hd
    simp [this, hd]
  · have hd' : 0 ≤ b ^ 2 - 4 * a * cc := not_lt.1 hd
    simp only [hd', hd, decide_true, if_true, if_false, Bool.true_and]
    fsimp
    rw [sqrt?_eq_some.2 ⟨hd', rfl⟩]
    fsimp
    have key : ∀ q : Option ℝ,
        ((if Fl.le (.fin 0) ((along (FV3.fin o) (FV3.fin u) (Fl.ofOption q)).z *
            (.fin c * (Fl.sq (along (FV3.fin o) (FV3.fin u) (Fl.ofOption q)).x +
              Fl.sq (along (FV3.fin o) (FV3.fin u) (Fl.ofOption q)).y) -
              (along (FV3.fin o) (FV3.fin u) (Fl.ofOption q)).z)) = true then Fl.ofOption q else .inf true) : Fl).toOption =
          (q.bind fun t => if (o.z + u.z * t) * (c * ((o.x + u.x * t) ^ 2 + (o.y + u.y * t) ^ 2) - (o.z + u.z * t)) ≥ 0
            then some t else none) ∧
        ((if Fl.le (.fin 0) ((along (FV3.fin o) (FV3.fin u) (Fl.ofOption q)).z *
            (.fin c * (Fl.sq (along (FV3.fin o) (FV3.fin u) (Fl.ofOption q)).x +
              Fl.sq (along (FV3.fin o) (FV3.fin u) (Fl.ofOption q)).y) -
              (along (FV3.fin o) (FV3.fin u) (Fl.ofOption q)).z)) = true then Fl.ofOption q else .inf true) : Fl) ≠ .nan ∧
        ((if Fl.le (.fin 0) ((along (FV3.fin o) (FV3.fin u) (Fl.ofOption q)).z *
            (.fin c * (Fl.sq (along (FV3.fin o) (FV3.fin u) (Fl.ofOption q)).x +
              Fl.sq (along (FV3.fin o) (FV3.fin u) (Fl.ofOption q)).y) -
              (along (FV3.fin o) (FV3.fin u) (Fl.ofOption q)).z)) = true then Fl.ofOption q else .inf true) : Fl) ≠
            .inf false := by
      intro q
      cases q with
      | none => unfold along; fsimp; simp
      | some t =>
        rw [Fl.ofOption_some, along_fin]
        fsimp
        by_cases h : 0 ≤ (o.z + u.z * t) * (c * ((o.x + u.x * t) ^ 2 + (o.y + u.y * t) ^ 2) - (o.z + u.z * t))
        · simp [h]
        · simp [h]
    by_cases ha : |a| < 1e-12
    · simp only [ha, decide_true, if_true]
      exact key _
    · simp only [ha, decide_false, if_false, Bool.false_eq_true]
      fsimp
      exact key _

theorem chosen {ta tb : Fl} (h1 : ta ≠ .nan) (h2 : ta ≠ .inf false) (h3 : tb ≠ .nan) (h4 : tb ≠ .inf false) :
    (if Fl.le (Fl.abs ta) (Fl.abs tb) = true then ta else tb).toOption =
      match ta.toOption, tb.toOption with
      | none, none => none
      | some ta, none => some ta
      | none, some tb => some tb
      | some ta, some tb => if |ta| ≤ |tb| then some ta else some tb := by
  rcases ta with x | s | _
  · rcases tb with y | s | _
    · fsimp
      by_cases h : |x| ≤ |y| <;> simp [h]
    · cases s <;> simp_all [Fl.abs, Fl.le]
    · simp_all
  · rcases tb with y | t | _
    · cases s <;> simp_all [Fl.abs, Fl.le]
    · cases s <;> cases t <;> simp_all [Fl.abs, Fl.le]
    · simp_all
  · simp_all

theorem conicInterceptF_fin (R k : ℝ) (o u : V3) :
    (conicInterceptF (.fin R) (.fin k) (FV3.fin o) (FV3.fin u)).toOption = conicIntercept R k o u := by
  unfold conicInterceptF conicIntercept
  rw [along_toOption]
  fsimp
  cases div? 1 R with
  | none =>
    fsimp
    unfold conicRootF
    fsimp
    simp
  | some c =>
    unfold conicPath
    obtain ⟨h1, h2, h3⟩ := conicRootF_fin c (1 + k) o u (-1)
    obtain ⟨h4, h5, h6⟩ := conicRootF_fin c (1 + k) o u 1
    refine (congrArg _ (chosen h2 h3 h5 h6)).trans ?_
    simp only [Option.bind_eq_bind, Option.bind_some, Option.pure_def]
    rw [← h1, ← h4]
    generalize (conicRootF (.fin c) (.fin (1 + k)) (FV3.fin o) (FV3.fin u) (-1)).toOption = x
    generalize (conicRootF (.fin c) (.fin (1 + k)) (FV3.fin o) (FV3.fin u) 1).toOption = y
    rcases x with _ | x <;> rcases y with _ | y <;> simp only [Option.map_none, Option.map_some, Option.bind_none,
      Option.bind_some]
    by_cases h : |x| ≤ |y| <;> simp [h]

theorem parabolaHeightF_fin (f : ℝ) (p : V3) : (parabolaHeightF (.fin f) (FV3.fin p)).toOption = parabolaHeight f p :=
  conicHeightF_fin (2 * f) (-1) p

theorem parabolaNormalF_fin (f : ℝ) (p : V3) : (parabolaNormalF (.fin f) (FV3.fin p)).toOption = parabolaNormal f p := by
  unfold parabolaNormalF parabolaNormal
  by_cases h : 2 * f = 0
  · have : ∀ x : ℝ, div? x (2 * f) = none := fun x => by unfold div?; rw [if_pos h]
    fsimp
    simp only [this]
    fsimp
    rfl
  · unfold FV3.over
    fsimp
    rw [div?_of_ne h, div?_of_ne h]
    fsimp
    rw [sqrt?_eq_some.2 ⟨by positivity, rfl⟩]
    have hs : Real.sqrt ((p.x / (2 * f)) ^ 2 + (p.y / (2 * f)) ^ 2 + 1) ≠ 0 := (Real.sqrt_pos.2 (by positivity)).ne'
    fsimp
    rw [div?_of_ne hs, div?_of_ne hs, div?_of_ne hs]
    fsimp
    rw [div?_of_ne h, div?_of_ne h, div?_of_ne h]
    rfl

theorem parabolaInterceptF_fin (f : ℝ) (o u : V3) :
    (parabolaInterceptF (.fin f) (FV3.fin o) (FV3.fin u)).toOption = parabolaIntercept f o u := by
  unfold parabolaInterceptF parabolaIntercept
  rw [along_toOption]
  fsimp
  by_cases h : (1e-10 : ℝ) < u.x ^ 2 + u.y ^ 2
  · simp only [h, decide_true, if_true, gt_iff_lt]
    cases sqrt? (-(o.y * u.x) ^ 2 - (o.x * u.y) ^ 2 + 2 * o.y * u.y * (o.x * u.x - 2 * f * u.z)
        + 4 * f * (o.z * (u.x ^ 2 + u.y ^ 2) - o.x * u.x * u.z + f * u.z ^ 2)) with
    | none => rfl
    | some s =>
      fsimp
      cases div? (-o.x * u.x - o.y * u.y + 2 * f * u.z - sgn (f * u.z) * s) (u.x ^ 2 + u.y ^ 2) <;> rfl
  · simp only [h, decide_false, if_false, gt_iff_lt, Bool.false_eq_true]
    cases div? (o.x ^ 2 + o.y ^ 2 - 4 * f * o.z) (4 * f * u.z) <;> rfl

theorem cylinderHeightF_fin (R : ℝ) (p : V3) : (cylinderHeightF (.fin R) (FV3.fin p)).toOption = cylinderHeight R p := by
  unfold cylinderHeightF cylinderHeight
  fsimp
  cases div? 1 R with
  | none => fsimp
  | some c =>
    fsimp
    cases sqrt? (1 - c ^ 2 * p.x ^ 2) with
    | none => fsimp
    | some s =>
      fsimp
      cases div? (c * p.x ^ 2) (1 + s) <;> rfl

theorem cylinderNormalF_fin (R : ℝ) (p : V3) : (cylinderNormalF (.fin R) (FV3.fin p)).toOption = cylinderNormal R p := by
  unfold cylinderNormalF cylinderNormal
  fsimp
  cases div? p.x R with
  | none => rfl
  | some a =>
    fsimp
    cases sqrt? (1 - a ^ 2) <;> rfl

theorem cylinderInterceptF_fin (R : ℝ) (o n : V3) :
    (cylinderInterceptF (.fin R) (FV3.fin o) (FV3.fin n)).toOption = cylinderIntercept R o n := by
  unfold cylinderInterceptF cylinderIntercept FV3.cross FV3.dot FV3.sub
  fsimp
  have hs : ∀ a b : V3, a - b = ⟨a.x - b.x, a.y - b.y, a.z - b.z⟩ := fun _ _ => rfl
  simp only [V3.cross, V3.dot, hs, gt_iff_lt]
  have key : ∀ q : Option ℝ, (⟨.fin o.x + Fl.ofOption q * .fin n.x, .fin o.y + Fl.ofOption q * .fin n.y,
      .fin o.z + Fl.ofOption q * .fin n.z⟩ : FV3).toOption =
        q.bind fun d => some ⟨o.x + d * n.x, o.y + d * n.y, o.z + d * n.z⟩ := by
    intro q
    cases q <;> rfl
  split_ifs with h1 h2 h2
  · rw [sqrt?_eq_some.2 ⟨(of_decide_eq_true h1).le, rfl⟩]
    fsimp
    exact key _
  · exact absurd (of_decide_eq_true h1) h2
  · exact absurd (decide_eq_true h2) h1
  · exact key _

theorem torusHeightF_fin (R r : ℝ) (p : V3) : (torusHeightF (.fin R) (.fin r) (FV3.fin p)).toOption = torusHeight R r p := by
  unfold torusHeightF torusHeight
  fsimp
  cases div? 1 R with
  | none => fsimp
  | some c =>
    fsimp
    cases sqrt? (1 - c ^ 2 * p.y ^ 2) with
    | none => fsimp
    | some s =>
      fsimp
      cases div? (c * p.y ^ 2) (1 + s) with
      | none => fsimp
      | some z =>
        fsimp
        cases sqrt? ((r - z) ^ 2 - p.x ^ 2) <;> rfl

theorem torusNormalF_fin (R r : ℝ) (p : V3) : (torusNormalF (.fin R) (.fin r) (FV3.fin p)).toOption = torusNormal R r p := by
  unfold torusNormalF torusNormal
  fsimp
  cases div? 1 R with
  | none => fsimp; exact over_len_nan_x _
  | some c =>
    fsimp
    cases sqrt? (1 - c ^ 2 * p.y ^ 2) with
    | none => fsimp; exact over_len_nan_x _
    | some g =>
      fsimp
      cases div? (c * p.y ^ 2) (1 + g) with
      | none => fsimp; exact over_len_nan_x _
      | some z =>
        fsimp
        cases sqrt? ((r - z) ^ 2 - p.x ^ 2) with
        | none => fsimp; exact over_len_nan_x _
        | some f =>
          fsimp
          cases div? p.x f with
          | none => fsimp; exact over_len_nan_x _
          | some a =>
            fsimp
            cases div? (c * p.y) g with
            | none => fsimp; exact over_len_nan_y _
            | some b =>
              fsimp
              cases div? ((r - z) * b) f with
              | none => fsimp; exact over_len_nan_y _
              | some d => exact over_len a d

/-- **C113**: for finite radii the formulas are those of `Model/Sags`, whose `none` are the results that are not finite. -/
theorem C113_finite (R k r : ℝ) (p o u : V3) :
    ((sphereHeightF (.fin R) (FV3.fin p)).toOption = sphereHeight R p ∧
      (sphereNormalF (.fin R) (FV3.fin p)).toOption = sphereNormal R p ∧
      (sphereInterceptF (.fin R) (FV3.fin o) (FV3.fin u)).toOption = sphereIntercept R o u) ∧
    ((conicHeightF (.fin R) (.fin k) (FV3.fin p)).toOption = conicHeight R k p ∧
      (conicNormalF (.fin R) (.fin k) (FV3.fin p)).toOption = conicNormal R k p ∧
      (conicInterceptF (.fin R) (.fin k) (FV3.fin o) (FV3.fin u)).toOption = conicIntercept R k o u) ∧
    ((parabolaHeightF (.fin R) (FV3.fin p)).toOption = parabolaHeight R p ∧
      (parabolaNormalF (.fin R) (FV3.fin p)).toOption = parabolaNormal R p ∧
      (parabolaInterceptF (.fin R) (FV3.fin o) (FV3.fin u)).toOption = parabolaIntercept R o u) ∧
    ((cylinderHeightF (.fin R) (FV3.fin p)).toOption = cylinderHeight R p ∧
      (cylinderNormalF (.fin R) (FV3.fin p)).toOption = cylinderNormal R p ∧
      (cylinderInterceptF (.fin R) (FV3.fin o) (FV3.fin u)).toOption = cylinderIntercept R o u) ∧
    ((torusHeightF (.fin R) (.fin r) (FV3.fin p)).toOption = torusHeight R r p ∧
      (torusNormalF (.fin R) (.fin r) (FV3.fin p)).toOption = torusNormal R r p) :=
  ⟨⟨sphereHeightF_fin R p, sphereNormalF_fin R p, sphereInterceptF_fin R o u⟩,
    ⟨conicHeightF_fin R k p, conicNormalF_fin R k p, conicInterceptF_fin R k o u⟩,
    ⟨parabolaHeightF_fin R p, parabolaNormalF_fin R p, parabolaInterceptF_fin R o u⟩,
    ⟨cylinderHeightF_fin R p, cylinderNormalF_fin R p, cylinderInterceptF_fin R o u⟩,
    torusHeightF_fin R r p, torusNormalF_fin R r p⟩

/-! ## Infinite radii -/

theorem add_not_finite {a : Fl} (b : Fl) (h : a.toOption = none) : (a + b).toOption = none := by
  rcases a with x | s | _
  · simp at h
  · rcases b with y | t | _
    · rfl
    · cases s <;> cases t <;> rfl
    · simp
  · simp

theorem sub_not_finite {a : Fl} (b : Fl) (h : a.toOption = none) : (a - b).toOption = none :=
  add_not_finite _ h

theorem fin_add_not_finite (x : ℝ) {b : Fl} (h : b.toOption = none) : (.fin x + b : Fl).toOption = none := by
  rcases b with y | t | _
  · simp at h
  · rfl
  · rfl

theorem fin_sub_not_finite (x : ℝ) {b : Fl} (h : b.toOption = none) : (.fin x - b : Fl).toOption = none := by
  rcases b with y | t | _
  · simp at h
  · rfl
  · rfl

theorem inf_mul_not_finite (s : Bool) (x : ℝ) : (.inf s * .fin x : Fl).toOption = none := by
  rw [Fl.inf_mul_fin]; split_ifs <;> rfl

theorem div_not_finite {a : Fl} (b : Fl) (h : a.toOption = none) : (a / b).toOption = none := by
  rcases a with x | s | _
  · simp at h
  · exact Fl.div_inf_not_finite s b
  · simp

theorem sqrt?_one : sqrt? 1 = some 1 := by rw [sqrt?_eq_some]; simp

theorem flatNormal_len (x y : ℝ) (h : x = 0) (h' : y = 0) :
    (FV3.over ⟨.fin x, .fin y, .fin (-1)⟩ (FV3.len ⟨.fin x, .fin y, .fin (-1)⟩)).toOption = some ⟨0, 0, -1⟩ := by
  subst h h'
  rw [len_fin]
  have : V3.len ⟨0, 0, -1⟩ = 1 := by simp [V3.len, V3.dot]
  rw [this]
  unfold FV3.over
  simp only [Fl.fin_div_ne _ one_ne_zero, div_one]
  rfl

theorem conicRootF_flat (kp1 : ℝ) (o u : V3) (s : ℝ) :
    (conicRootF (.fin 0) (.fin kp1) (FV3.fin o) (FV3.fin u) s).toOption = div? (-o.z) u.z := by
  rw [(conicRootF_fin 0 kp1 o u s).1]
  unfold conicRoot
  simp only [zero_mul, zero_sub, mul_zero, sub_zero, abs_zero]
  rw [if_neg (by nlinarith [sq_nonneg u.z]), if_pos (by norm_num)]
  by_cases h : u.z = 0
  · simp [div?, h]
  · rw [div?_of_ne (by simpa using h), div?_of_ne h]
    simp only [Option.bind_eq_bind, Option.bind_some]
    have e : -(-(2 * o.z)) / (2 * -u.z) = -o.z / u.z := by field_simp
    rw [e]
    have : o.z + u.z * (-o.z / u.z) = 0 := by field_simp; ring
    rw [this]
    simp

/-- **C113**: a conic surface with infinite radius (the default) is flat: for all conic constants its height is zero, its
normal is that of `NoSag`, and rays strike it where they strike `NoSag`. -/
theorem C113_conic (s : Bool) (k : ℝ) (p o u : V3) :
    (conicHeightF (.inf s) (.fin k) (FV3.fin p)).toOption = flatHeight p ∧
    (conicNormalF (.inf s) (.fin k) (FV3.fin p)).toOption = flatNormal p ∧
    (conicInterceptF (.inf s) (.fin k) (FV3.fin o) (FV3.fin u)).toOption = flatIntercept o u := by
  refine ⟨?_, ?_, ?_⟩
  · unfold conicHeightF flatHeight
    simp only [Fl.fin_div_inf]
    fsimp
    have e : 1 - (1 + k) * 0 ^ 2 * (p.x ^ 2 + p.y ^ 2) = 1 := by ring
    rw [e, sqrt?_one]
    fsimp
    rw [div?_of_ne (by norm_num)]
    simp
  · unfold conicNormalF flatNormal
    simp only [Fl.fin_div_inf]
    fsimp
    have e : 1 - (1 + k) * 0 ^ 2 * (p.x ^ 2 + p.y ^ 2) = 1 := by ring
    rw [e, sqrt?_one]
    fsimp
    rw [div?_of_ne one_ne_zero, div?_of_ne one_ne_zero]
    exact flatNormal_len _ _ (by simp) (by simp)
  · unfold conicInterceptF
    rw [along_toOption, Fl.fin_div_inf, Fl.fin_add]
    have h1 := conicRootF_flat (1 + k) o u (-1)
    have h2 := conicRootF_flat (1 + k) o u 1
    have h3 := (conicRootF_fin 0 (1 + k) o u (-1)).2
    have h4 := (conicRootF_fin 0 (1 + k) o u 1).2
    refine (congrArg _ (chosen h3.1 h3.2 h4.1 h4.2)).trans ?_
    rw [h1, h2]
    unfold flatIntercept
    cases div? (-o.z) u.z <;> simp

/-- **C113**: likewise a cylinder with infinite radius (the default), for rays that are not parallel to its axis. -/
theorem C113_cylinder (s : Bool) (p o u : V3) (hu : u.x ≠ 0 ∨ u.z ≠ 0) :
    (cylinderHeightF (.inf s) (FV3.fin p)).toOption = flatHeight p ∧
    (cylinderNormalF (.inf s) (FV3.fin p)).toOption = flatNormal p ∧
    (cylinderInterceptF (.inf s) (FV3.fin o) (FV3.fin u)).toOption = flatIntercept o u := by
  refine ⟨?_, ?_, ?_⟩
  · unfold cylinderHeightF flatHeight
    simp only [Fl.fin_div_inf]
    fsimp
    have e : 1 - 0 ^ 2 * p.x ^ 2 = 1 := by ring
    rw [e, sqrt?_one]
    fsimp
    rw [div?_of_ne (by norm_num)]
    simp
  · unfold cylinderNormalF flatNormal
    rw [FV3.fin_x, Fl.fin_div_inf]
    fsimp
    have e : (1 : ℝ) - 0 ^ 2 = 1 := by ring
    rw [e, sqrt?_one]
    rfl
  · unfold cylinderInterceptF FV3.cross FV3.dot FV3.sub
    simp only [FV3.fin_x, FV3.fin_y, FV3.fin_z, Fl.fin_mul, Fl.fin_sub, Fl.fin_add, Fl.inf_sub_fin, Fl.sq_inf]
    rw [if_neg]
    · rw [Fl.fin_neg, Fl.fin_div]
      unfold flatIntercept
      cases div? (-o.z) u.z with
      | none => rfl
      | some d =>
        simp only [Fl.ofOption_some, Fl.fin_mul, Fl.fin_add, FV3.toOption_mk, Option.bind_eq_bind, Option.bind_some,
          Option.pure_def, mul_comm]
    · have hq : 0 < (u.y * 0 - u.z * 1) * (u.y * 0 - u.z * 1) + (u.z * 0 - u.x * 0) * (u.z * 0 - u.x * 0)
          + (u.x * 1 - u.y * 0) * (u.x * 1 - u.y * 0) := by
        rcases hu with h | h
        · have := mul_self_pos.2 h; nlinarith [mul_self_nonneg u.z]
        · have := mul_self_pos.2 h; nlinarith [mul_self_nonneg u.x]
      rw [Fl.fin_mul_inf, if_neg hq.ne', decide_eq_true hq, Fl.inf_mul_fin]
      split_ifs
      · simp
      · simp

/-- **C113**: a toroidal surface with infinite radius (the default) is a cylinder with the radius of rotation, if this is
positive. -/
theorem C113_torus (s : Bool) {r : ℝ} (hr : 0 < r) (p : V3) (h : |p.x| < r) :
    (torusHeightF (.inf s) (.fin r) (FV3.fin p)).toOption = cylinderHeight r p ∧
    (torusNormalF (.inf s) (.fin r) (FV3.fin p)).toOption = cylinderNormal r p := by
  have hx : p.x ^ 2 < r ^ 2 := by
    rw [← sq_abs p.x]; nlinarith [abs_nonneg p.x]
  have e1 : (1 : ℝ) - 0 ^ 2 * p.y ^ 2 = 1 := by ring
  have e2 : 0 < (r - 0) ^ 2 - p.x ^ 2 := by rw [sub_zero]; linarith
  have hd : div? (0 * p.y ^ 2) (1 + 1) = some 0 := by rw [div?_of_ne (by norm_num)]; simp
  set f := Real.sqrt ((r - 0) ^ 2 - p.x ^ 2) with hf
  have hf0 : 0 < f := Real.sqrt_pos.2 e2
  have hff : f ^ 2 = r ^ 2 - p.x ^ 2 := by rw [hf, Real.sq_sqrt e2.le, sub_zero]
  have hnn : 0 ≤ 1 - (1 / r) ^ 2 * p.x ^ 2 := by
    have : (1 / r) ^ 2 * p.x ^ 2 ≤ (1 / r) ^ 2 * r ^ 2 := mul_le_mul_of_nonneg_left hx.le (by positivity)
    have : (1 / r) ^ 2 * r ^ 2 = 1 := by field_simp
    linarith
  have hc : Real.sqrt (1 - (1 / r) ^ 2 * p.x ^ 2) = f / r := by
    rw [Real.sqrt_eq_iff_mul_self_eq hnn (by positivity)]
    field_simp
    linarith
  constructor
  · unfold torusHeightF cylinderHeight
    simp only [Fl.fin_div_inf]
    fsimp
    rw [e1, sqrt?_one]
    fsimp
    rw [hd]
    fsimp
    rw [sqrt?_eq_some.2 ⟨e2.le, rfl⟩, div?_of_ne hr.ne']
    fsimp
    rw [sqrt?_eq_some.2 ⟨hnn, rfl⟩, hc]
    fsimp
    have : 1 + f / r ≠ 0 := by positivity
    rw [div?_of_ne this, ← hf]
    congr 1
    field_simp
    nlinarith
  · unfold torusNormalF cylinderNormal
    simp only [Fl.fin_div_inf]
    fsimp
    rw [e1, sqrt?_one]
    fsimp
    rw [hd]
    fsimp
    rw [sqrt?_eq_some.2 ⟨e2.le, rfl⟩, div?_of_ne hr.ne', ← hf]
    fsimp
    rw [div?_of_ne hf0.ne', div?_of_ne one_ne_zero]
    fsimp
    rw [div?_of_ne hf0.ne']
    rw [Fl.ofOption_some, over_len]
    have e3 : (r - 0) * (0 * p.y / 1) / f = 0 := by ring
    have hl : V3.len ⟨p.x / f, 0, -1⟩ = r / f := by
      unfold V3.len V3.dot
      rw [Real.sqrt_eq_iff_mul_self_eq (by nlinarith [mul_self_nonneg (p.x / f)]) (by positivity)]
      field_simp
      nlinarith
    have hl0 : r / f ≠ 0 := by positivity
    have hc' : Real.sqrt (1 - (p.x / r) ^ 2) = f / r := by
      rw [← hc]; congr 1; field_simp
    rw [e3]
    simp only [hl, div?_of_ne hl0, Option.bind_eq_bind, Option.bind_some, Option.pure_def]
    rw [sqrt?_eq_some.2 ⟨by convert hnn using 1; field_simp, rfl⟩, hc']
    simp only [Option.bind_some, Option.some.injEq, V3.mk.injEq]
    refine ⟨by field_simp, by simp, by field_simp⟩

/-- **C113 fails for spheres**: rays strike a sphere of infinite radius, which is the default, at no finite point, although its
height is zero and its normal that of a plane. -/
theorem C113_sphere_counterexample (s : Bool) (p o u : V3) :
    (sphereHeightF (.inf s) (FV3.fin p)).toOption = flatHeight p ∧
    (sphereNormalF (.inf s) (FV3.fin p)).toOption = flatNormal p ∧
    (sphereInterceptF (.inf s) (FV3.fin o) (FV3.fin u)).toOption = none := by
  refine ⟨?_, ?_, ?_⟩
  · unfold sphereHeightF flatHeight
    simp only [Fl.fin_div_inf]
    fsimp
    have e : 1 - 0 ^ 2 * (p.x ^ 2 + p.y ^ 2) = 1 := by ring
    rw [e, sqrt?_one]
    fsimp
    rw [div?_of_ne (by norm_num)]
    simp
  · unfold sphereNormalF flatNormal
    rw [Fl.fin_div_inf]
    fsimp
    have e : (1 : ℝ) - (0 * p.x) ^ 2 - (0 * p.y) ^ 2 = 1 := by ring
    rw [e, sqrt?_one]
    simp only [Fl.ofOption_some, zero_mul]
    rfl
  · unfold sphereInterceptF
    rw [along_toOption]
    simp only [FV3.fin_x, FV3.fin_y, FV3.fin_z, Fl.fin_sub_inf, Fl.sq_inf, Fl.fin_sq, Fl.fin_mul, Fl.fin_add,
      Fl.fin_add_inf, Fl.inf_sub_inf, Fl.sub_nan, Fl.sqrt_nan, Fl.mul_nan]
    rfl

/-- **C113 fails for paraboloids**: with an infinite focal length, which is the default, neither the normal nor the points that
rays strike are finite, although the height is zero. -/
theorem C113_parabola_counterexample (s : Bool) (p o u : V3) :
    (parabolaHeightF (.inf s) (FV3.fin p)).toOption = flatHeight p ∧
    (parabolaNormalF (.inf s) (FV3.fin p)).toOption = none ∧
    (parabolaInterceptF (.inf s) (FV3.fin o) (FV3.fin u)).toOption = none := by
  have h2 : Fl.fin 2 * .inf s = .inf s := by rw [Fl.fin_mul_inf]; cases s <;> norm_num
  have h4 : Fl.fin 4 * .inf s = .inf s := by rw [Fl.fin_mul_inf]; cases s <;> norm_num
  refine ⟨?_, ?_, ?_⟩
  · unfold parabolaHeightF
    rw [h2]
    exact (C113_conic s (-1) p o u).1
  · unfold parabolaNormalF
    apply toOption_none_z
    rw [h2]
    unfold FV3.over
    simp only [FV3.fin_x, FV3.fin_y, Fl.fin_div_inf]
    fsimp
    have e : (0 : ℝ) ^ 2 + 0 ^ 2 + 1 = 1 := by ring
    rw [e, sqrt?_one, Fl.ofOption_some, Fl.neg_inf]
    have : Fl.inf (!s) / .fin 1 = .inf (!s) := by
      show (if (1 : ℝ) = 0 then Fl.nan else _) = _
      rw [if_neg one_ne_zero]; cases s <;> norm_num
    rw [this, Fl.inf_div_inf]
    rfl
  · unfold parabolaInterceptF
    rw [h2, h4]
    apply along_not_finite
    split_ifs
    · apply div_not_finite
      apply sub_not_finite
      simp only [FV3.fin_x, FV3.fin_y, FV3.fin_z, Fl.fin_neg, Fl.fin_mul, Fl.fin_sub]
      exact fin_add_not_finite _ (inf_mul_not_finite _ _)
    · apply div_not_finite
      simp only [FV3.fin_x, FV3.fin_y, FV3.fin_z, Fl.fin_sq, Fl.fin_add]
      exact fin_sub_not_finite _ (inf_mul_not_finite _ _)

/-- **C113 fails for tori**: with an infinite radius of rotation the height is finite nowhere. -/
theorem C113_torus_counterexample (s : Bool) (R : ℝ) (p : V3) :
    (torusHeightF (.fin R) (.inf s) (FV3.fin p)).toOption = none :=
  sub_not_finite _ rfl

/-- A ray that strikes a conic and a cylinder of infinite radius at `(3, 0, 0)`. -/
example : (conicInterceptF (.inf true) (.fin 0) (FV3.fin ⟨0, 0, -4⟩) (FV3.fin ⟨3 / 5, 0, 4 / 5⟩)).toOption = some ⟨3, 0, 0⟩ ∧
    (cylinderInterceptF (.inf true) (FV3.fin ⟨0, 0, -4⟩) (FV3.fin ⟨3 / 5, 0, 4 / 5⟩)).toOption = some ⟨3, 0, 0⟩ := by
  rw [(C113_conic true 0 ⟨0, 0, 0⟩ ⟨0, 0, -4⟩ ⟨3 / 5, 0, 4 / 5⟩).2.2,
    (C113_cylinder true ⟨0, 0, 0⟩ ⟨0, 0, -4⟩ ⟨3 / 5, 0, 4 / 5⟩ (.inl (by norm_num))).2.2]
  simp [flatIntercept, div?]

end Optika
