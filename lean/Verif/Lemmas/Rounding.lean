import Verif.Model.Rounding
import Mathlib.Topology.Algebra.Order.Field
import Mathlib.Analysis.SpecialFunctions.Sqrt

/-!
# Rounding errors vanish with the precision
-/

namespace Optika

/-- Formulas that cannot become negative, whatever the errors. -/
def Expr.Nonneg : Expr → Prop
  | .const c => 0 ≤ c
  | .add a b => a.Nonneg ∧ b.Nonneg
  | .sq _ => True
  | _ => False

/-- The value of a formula whose operations are all possible. -/
noncomputable def Expr.val (env : Slot → ℝ) : Expr → ℝ
  | .var s => env s
  | .const c => c
  | .neg a => -a.val env
  | .add a b => a.val env + b.val env
  | .sub a b => a.val env - b.val env
  | .mul a b => a.val env * b.val env
  | .sq a => a.val env ^ 2
  | .div a b => a.val env / b.val env
  | .sqrt a => Real.sqrt (a.val env)
  | .exp a => Real.exp (a.val env)
  | .ifneg c a b => if c.val env < 0 then a.val env else b.val env

/-- Nothing is divided by zero, no square root is taken of zero (unless it cannot be negative), and no comparison is
undecided (unless it does not matter). -/
def Expr.Regular (env : Slot → ℝ) : Expr → Prop
  | .var _ => True
  | .const _ => True
  | .neg a => a.Regular env
  | .add a b => a.Regular env ∧ b.Regular env
  | .sub a b => a.Regular env ∧ b.Regular env
  | .mul a b => a.Regular env ∧ b.Regular env
  | .sq a => a.Regular env
  | .div a b => a.Regular env ∧ b.Regular env ∧ b.val env ≠ 0
  | .sqrt a => a.Regular env ∧ (a.Nonneg ∨ 0 < a.val env)
  | .exp a => a.Regular env
  | .ifneg c a b => c.Regular env ∧ (c.val env ≤ 0 → a.Regular env) ∧ (0 ≤ c.val env → b.Regular env) ∧
      (c.val env = 0 → a.val env = b.val env)

/-- The exact result of a sequence of steps. -/
def Exact : List Stage → (Slot → ℝ) → (Slot → ℝ) → Prop
  | [], env, out => out = env
  | s :: ss, env, out => ∃ mid : Slot → ℝ, (∀ k, (s k).eval env = some (mid k)) ∧ Exact ss mid out

/-- All formulas of all steps are regular. -/
def RegularAll : List Stage → (Slot → ℝ) → Prop
  | [], _ => True
  | s :: ss, env => (∀ k, (s k).Regular env) ∧ RegularAll ss fun k => (s k).val env

/-- The result of a sequence of steps whose operations are all possible. -/
noncomputable def valAll : List Stage → (Slot → ℝ) → (Slot → ℝ)
  | [], env => env
  | s :: ss, env => valAll ss fun k => (s k).val env

/-! ## Errors vanish with the precision -/

theorem Expr.Nonneg.computes {u : ℝ} {env : Slot → ℝ} {e : Expr} (h : e.Nonneg) {y : ℝ} (hy : e.Computes u env (some y)) :
    0 ≤ y := by
  induction e generalizing y with
  | const c =>
    obtain ⟨y', hy', hr⟩ := hy
    rw [Option.some.injEq] at hy'
    subst hy'
    exact hr.nonneg h
  | add a b iha ihb =>
    obtain ⟨x, z, hx, hz, hr⟩ := hy
    cases x with
    | none => simp [lift2, RoundedTo] at hr
    | some x =>
      cases z with
      | none => simp [lift2, RoundedTo] at hr
      | some z =>
        obtain ⟨y', hy', hr⟩ := hr
        rw [Option.some.injEq] at hy'
        subst hy'
        exact hr.nonneg (add_nonneg (iha h.1 hx) (ihb h.2 hz))
  | sq a ih =>
    obtain ⟨x, hx, hr⟩ := hy
    cases x with
    | none => simp [RoundedTo] at hr
    | some x =>
      obtain ⟨y', hy', hr⟩ := hr
      rw [Option.some.injEq] at hy'
      subst hy'
      exact hr.nonneg (sq_nonneg x)
  | _ => exact absurd h (by simp [Nonneg])


theorem Expr.Nonneg.eval {env : Slot → ℝ} {e : Expr} (h : e.Nonneg) {y : ℝ} (hy : e.eval env = some y) : 0 ≤ y := by
  induction e generalizing y with
  | const c => simp only [Expr.eval, Option.some.injEq] at hy; subst hy; exact h
  | add a b iha ihb =>
    simp only [Expr.eval, lift2, Option.bind_eq_some_iff, Option.some.injEq] at hy
    obtain ⟨x, hx, z, hz, rfl⟩ := hy
    exact add_nonneg (iha h.1 hx) (ihb h.2 hz)
  | sq a ih =>
    simp only [Expr.eval, Option.map_eq_some_iff] at hy
    obtain ⟨x, hx, rfl⟩ := hy
    positivity
  | _ => exact h.elim

/-- The computed value `r` is close to `v` if precision and arguments are close enough. -/
def Near (env : Slot → ℝ) (e : Expr) (v : ℝ) : Prop :=
  ∀ ε > 0, ∃ η > 0, ∀ u env' r, 0 ≤ u → u < η → (∀ s, |env' s - env s| < η) → e.Computes u env' r →
    ∃ y, r = some y ∧ |y - v| < ε

theorem rounded_near {u x y v ε : ℝ} (h : Rounded u x y) (hu : 0 ≤ u) (h1 : |x - v| < ε / 2) (h2 : ε ≤ 1)
    (h3 : u * (2 + |v|) < ε / 2) : |y - v| < ε := by
  have h4 : |x| ≤ 1 + |v| := by
    have := abs_sub_abs_le_abs_sub x v
    linarith
  have h5 : u * (1 + |x|) ≤ u * (2 + |v|) := mul_le_mul_of_nonneg_left (by linarith) hu
  have h6 := abs_sub_le y x v
  have := h.error
  linarith

/-- One operand. -/
theorem near_map {env : Slot → ℝ} {a : Expr} {v w : ℝ} (ha : Near env a v) {f : ℝ → Option ℝ} {g : ℝ → ℝ}
    (hg : ContinuousAt g v) (hw : g v = w) {P : ℝ → Prop} (hP : ∀ u env' x, a.Computes u env' (some x) → P x)
    (hf : ∃ δ > 0, ∀ x, |x - v| < δ → P x → f x = some (g x)) :
    ∀ ε > 0, ∃ η > 0, ∀ u env' r, 0 ≤ u → u < η → (∀ s, |env' s - env s| < η) →
      (∃ x, a.Computes u env' x ∧ RoundedTo u (x.bind f) r) → ∃ y, r = some y ∧ |y - w| < ε := by
  intro ε hε
  set ε' := min ε 1 with hε'
  have hε'0 : 0 < ε' := lt_min hε one_pos
  rw [Metric.continuousAt_iff] at hg
  obtain ⟨δ, hδ, hgδ⟩ := hg (ε' / 2) (by positivity)
  obtain ⟨δ', hδ', hfδ⟩ := hf
  obtain ⟨η, hη, hn⟩ := ha (min δ δ') (lt_min hδ hδ')
  refine ⟨min η (ε' / 2 / (2 + |w|)), lt_min hη (by positivity), ?_⟩
  rintro u env' r hu0 hu henv ⟨x, hx, hr⟩
  obtain ⟨y, rfl, hy⟩ := hn u env' x hu0 (hu.trans_le (min_le_left _ _))
    (fun s => (henv s).trans_le (min_le_left _ _)) hx
  rw [Option.bind_some, hfδ y (hy.trans_le (min_le_right _ _)) (hP u env' y hx)] at hr
  obtain ⟨z, rfl, hz⟩ := hr
  refine ⟨z, rfl, lt_of_lt_of_le (rounded_near hz hu0 ?_ (min_le_right _ _) ?_) (min_le_left ε 1)⟩
  · have := hgδ (x := y) (by rw [Real.dist_eq]; exact hy.trans_le (min_le_left _ _))
    rw [Real.dist_eq, hw] at this
    exact this
  · have := hu.trans_le (min_le_right _ _)
    rwa [lt_div_iff₀ (by positivity)] at this

/-- Two operands. -/
theorem near_map₂ {env : Slot → ℝ} {a b : Expr} {v w z : ℝ} (ha : Near env a v) (hb : Near env b w)
    {f : ℝ → ℝ → Option ℝ} {g : ℝ × ℝ → ℝ} (hg : ContinuousAt g (v, w)) (hz : g (v, w) = z)
    (hf : ∃ δ > 0, ∀ x y, |y - w| < δ → f x y = some (g (x, y))) :
    ∀ ε > 0, ∃ η > 0, ∀ u env' r, 0 ≤ u → u < η → (∀ s, |env' s - env s| < η) →
      (∃ x y, a.Computes u env' x ∧ b.Computes u env' y ∧ RoundedTo u (lift2 f x y) r) → ∃ y, r = some y ∧ |y - z| < ε := by
  intro ε hε
  set ε' := min ε 1 with hε'
  have hε'0 : 0 < ε' := lt_min hε one_pos
  rw [Metric.continuousAt_iff] at hg
  obtain ⟨δ, hδ, hgδ⟩ := hg (ε' / 2) (by positivity)
  obtain ⟨δ', hδ', hfδ⟩ := hf
  obtain ⟨η, hη, hn⟩ := ha (min δ δ') (lt_min hδ hδ')
  obtain ⟨η', hη', hn'⟩ := hb (min δ δ') (lt_min hδ hδ')
  refine ⟨min (min η η') (ε' / 2 / (2 + |z|)), lt_min (lt_min hη hη') (by positivity), ?_⟩
  rintro u env' r hu0 hu henv ⟨x, y, hx, hy, hr⟩
  have h1 := hu.trans_le (min_le_left _ _)
  obtain ⟨x, rfl, hx'⟩ := hn u env' x hu0 (h1.trans_le (min_le_left _ _))
    (fun s => ((henv s).trans_le (min_le_left _ _)).trans_le (min_le_left _ _)) hx
  obtain ⟨y, rfl, hy'⟩ := hn' u env' y hu0 (h1.trans_le (min_le_right _ _))
    (fun s => ((henv s).trans_le (min_le_left _ _)).trans_le (min_le_right _ _)) hy
  simp only [lift2, Option.bind_some] at hr
  rw [hfδ x y (hy'.trans_le (min_le_right _ _))] at hr
  obtain ⟨t, rfl, ht⟩ := hr
  refine ⟨t, rfl, lt_of_lt_of_le (rounded_near ht hu0 ?_ (min_le_right _ _) ?_) (min_le_left ε 1)⟩
  · have := hgδ (x := (x, y)) (by
      rw [Prod.dist_eq, max_lt_iff, Real.dist_eq, Real.dist_eq]
      exact ⟨hx'.trans_le (min_le_left _ _), hy'.trans_le (min_le_left _ _)⟩)
    rw [Real.dist_eq, hz] at this
    exact this
  · have := hu.trans_le (min_le_right _ _)
    rwa [lt_div_iff₀ (by positivity)] at this

theorem Expr.Regular.near {env : Slot → ℝ} {e : Expr} (h : e.Regular env) :
    e.eval env = some (e.val env) ∧ Near env e (e.val env) := by
  induction e with
  | var s =>
    refine ⟨rfl, fun ε hε => ⟨ε, hε, ?_⟩⟩
    intro u env' r _ _ henv hr
    exact ⟨_, hr, henv s⟩
  | const c =>
    refine ⟨rfl, fun ε hε => ?_⟩
    have hε' : 0 < min ε 1 := lt_min hε one_pos
    refine ⟨min ε 1 / 2 / (2 + |c|), by positivity, ?_⟩
    rintro u env' r hu0 hu _ ⟨y, rfl, hy⟩
    refine ⟨y, rfl, lt_of_lt_of_le (rounded_near hy hu0 ?_ (min_le_right ε 1) ?_) (min_le_left ε 1)⟩
    · simp only [val, sub_self, abs_zero]; positivity
    · rwa [lt_div_iff₀ (by positivity)] at hu
  | neg a ih =>
    obtain ⟨hv, hn⟩ := ih h
    refine ⟨by simp [eval, val, hv], fun ε hε => ?_⟩
    obtain ⟨η, hη, hn⟩ := hn ε hε
    refine ⟨η, hη, ?_⟩
    rintro u env' r hu0 hu henv ⟨x, hx, rfl⟩
    obtain ⟨y, rfl, hy⟩ := hn u env' x hu0 hu henv hx
    refine ⟨-y, rfl, ?_⟩
    rwa [val, show -y - -a.val env = -(y - a.val env) by ring, abs_neg]
  | add a b iha ihb =>
    obtain ⟨hv, hn⟩ := iha h.1
    obtain ⟨hw, hm⟩ := ihb h.2
    exact ⟨by simp [eval, val, hv, hw, lift2],
      near_map₂ hn hm (g := fun p => p.1 + p.2) (by fun_prop) rfl ⟨1, one_pos, fun _ _ _ => rfl⟩⟩
  | sub a b iha ihb =>
    obtain ⟨hv, hn⟩ := iha h.1
    obtain ⟨hw, hm⟩ := ihb h.2
    exact ⟨by simp [eval, val, hv, hw, lift2],
      near_map₂ hn hm (g := fun p => p.1 - p.2) (by fun_prop) rfl ⟨1, one_pos, fun _ _ _ => rfl⟩⟩
  | mul a b iha ihb =>
    obtain ⟨hv, hn⟩ := iha h.1
    obtain ⟨hw, hm⟩ := ihb h.2
    exact ⟨by simp [eval, val, hv, hw, lift2],
      near_map₂ hn hm (g := fun p => p.1 * p.2) (by fun_prop) rfl ⟨1, one_pos, fun _ _ _ => rfl⟩⟩
  | div a b iha ihb =>
    obtain ⟨hv, hn⟩ := iha h.1
    obtain ⟨hw, hm⟩ := ihb h.2.1
    have hw0 := h.2.2
    refine ⟨by simp [eval, val, hv, hw, lift2, hw0], near_map₂ hn hm (g := fun p => p.1 / p.2)
      (ContinuousAt.div (by fun_prop) (by fun_prop) hw0) rfl ⟨|b.val env|, abs_pos.2 hw0, fun x y hy => ?_⟩⟩
    rw [div?_of_ne]
    rintro rfl
    simp at hy
  | sq a ih =>
    obtain ⟨hv, hn⟩ := ih h
    refine ⟨by simp [eval, val, hv], ?_⟩
    have := near_map hn (f := fun x => some (x ^ 2)) (g := fun x => x ^ 2) (by fun_prop) rfl (P := fun _ => True)
      (fun _ _ _ _ => trivial) ⟨1, one_pos, fun _ _ _ => rfl⟩
    intro ε hε
    obtain ⟨η, hη, H⟩ := this ε hε
    refine ⟨η, hη, ?_⟩
    rintro u env' r h0 h1 h2 ⟨x, hx, hr⟩
    exact H u env' r h0 h1 h2 ⟨x, hx, by cases x <;> exact hr⟩
  | exp a ih =>
    obtain ⟨hv, hn⟩ := ih h
    refine ⟨by simp [eval, val, hv], ?_⟩
    have := near_map hn (f := fun x => some (Real.exp x)) (g := Real.exp) (by fun_prop) rfl (P := fun _ => True)
      (fun _ _ _ _ => trivial) ⟨1, one_pos, fun _ _ _ => rfl⟩
    intro ε hε
    obtain ⟨η, hη, H⟩ := this ε hε
    refine ⟨η, hη, ?_⟩
    rintro u env' r h0 h1 h2 ⟨x, hx, hr⟩
    exact H u env' r h0 h1 h2 ⟨x, hx, by cases x <;> exact hr⟩
  | sqrt a ih =>
    obtain ⟨hv, hn⟩ := ih h.1
    rcases h.2 with hnn | hv0
    · have hv0 := hnn.eval hv
      refine ⟨by simp [eval, val, hv, hv0], ?_⟩
      exact near_map hn (f := sqrt?) (g := Real.sqrt) (by fun_prop) rfl (P := fun x => 0 ≤ x)
        (fun _ _ _ hx => hnn.computes hx) ⟨1, one_pos, fun x _ hx => sqrt?_of_nonneg hx⟩
    · refine ⟨by simp [eval, val, hv, hv0.le], ?_⟩
      refine near_map hn (f := sqrt?) (g := Real.sqrt) (by fun_prop) rfl (P := fun _ => True)
        (fun _ _ _ _ => trivial) ⟨_, hv0, fun x hx _ => sqrt?_of_nonneg ?_⟩
      rw [abs_lt] at hx
      linarith
  | ifneg c a b ihc iha ihb =>
    obtain ⟨hc, ha, hb, he⟩ := h
    obtain ⟨hv, hn⟩ := ihc hc
    rcases lt_trichotomy (c.val env) 0 with h0 | h0 | h0
    · obtain ⟨hw, hm⟩ := iha (ha h0.le)
      refine ⟨by simp [eval, val, hv, h0, hw], fun ε hε => ?_⟩
      obtain ⟨η, hη, hn⟩ := hn (-c.val env) (by linarith)
      obtain ⟨η', hη', hm⟩ := hm ε hε
      refine ⟨min η η', lt_min hη hη', ?_⟩
      rintro u env' r hu0 hu henv ⟨x, hx, hr⟩
      obtain ⟨y, rfl, hy⟩ := hn u env' x hu0 (hu.trans_le (min_le_left _ _))
        (fun s => (henv s).trans_le (min_le_left _ _)) hx
      rw [abs_lt] at hy
      simp only [show y < 0 by linarith, if_true] at hr
      simp only [val, h0, if_true]
      exact hm u env' r hu0 (hu.trans_le (min_le_right _ _)) (fun s => (henv s).trans_le (min_le_right _ _)) hr
    · obtain ⟨hw, hm⟩ := iha (ha h0.le)
      obtain ⟨hw', hm'⟩ := ihb (hb h0.ge)
      have hww := he h0
      refine ⟨by simp [eval, val, hv, h0, hw'], fun ε hε => ?_⟩
      simp only [val, h0, lt_irrefl, if_false]
      rw [hww] at hm
      obtain ⟨η, hη, hn⟩ := hn 1 one_pos
      obtain ⟨η', hη', hm⟩ := hm ε hε
      obtain ⟨η'', hη'', hm'⟩ := hm' ε hε
      refine ⟨min η (min η' η''), lt_min hη (lt_min hη' hη''), ?_⟩
      rintro u env' r hu0 hu henv ⟨x, hx, hr⟩
      obtain ⟨y, rfl, hy⟩ := hn u env' x hu0 (hu.trans_le (min_le_left _ _))
        (fun s => (henv s).trans_le (min_le_left _ _)) hx
      simp only at hr
      split_ifs at hr
      · exact hm u env' r hu0 (hu.trans_le ((min_le_right _ _).trans (min_le_left _ _)))
          (fun s => (henv s).trans_le ((min_le_right _ _).trans (min_le_left _ _))) hr
      · exact hm' u env' r hu0 (hu.trans_le ((min_le_right _ _).trans (min_le_right _ _)))
          (fun s => (henv s).trans_le ((min_le_right _ _).trans (min_le_right _ _))) hr
    · obtain ⟨hw, hm⟩ := ihb (hb h0.le)
      refine ⟨by simp [eval, val, hv, h0.le, hw, h0.not_gt], fun ε hε => ?_⟩
      obtain ⟨η, hη, hn⟩ := hn _ h0
      obtain ⟨η', hη', hm⟩ := hm ε hε
      refine ⟨min η η', lt_min hη hη', ?_⟩
      rintro u env' r hu0 hu henv ⟨x, hx, hr⟩
      obtain ⟨y, rfl, hy⟩ := hn u env' x hu0 (hu.trans_le (min_le_left _ _))
        (fun s => (henv s).trans_le (min_le_left _ _)) hx
      rw [abs_lt] at hy
      simp only [show ¬ y < 0 by linarith, if_false] at hr
      simp only [val, h0.not_gt, if_false]
      exact hm u env' r hu0 (hu.trans_le (min_le_right _ _)) (fun s => (henv s).trans_le (min_le_right _ _)) hr

/-- Errors vanish with the precision, for any sequence of steps. -/
theorem runs_near (ss : List Stage) {env : Slot → ℝ} (h : RegularAll ss env) :
    Exact ss env (valAll ss env) ∧ ∀ ε > 0, ∃ η > 0, ∀ u env' r, 0 ≤ u → u < η → (∀ s, |env' s - env s| < η) →
      Runs u ss env' r → ∃ out', r = some out' ∧ ∀ s, |out' s - valAll ss env s| < ε := by
  induction ss generalizing env with
  | nil =>
    refine ⟨rfl, fun ε hε => ⟨ε, hε, ?_⟩⟩
    rintro u env' r _ _ henv hr
    exact ⟨env', hr, henv⟩
  | cons s ss ih =>
    set mid : Slot → ℝ := fun k => (s k).val env with hmid
    have hnear := fun k => (h.1 k).near.2
    obtain ⟨hout, hstab⟩ := ih h.2
    refine ⟨⟨mid, fun k => (h.1 k).near.1, hout⟩, fun ε hε => ?_⟩
    obtain ⟨η, hη, hstab⟩ := hstab ε hε
    choose θ hθ hstage using fun k => hnear k η hη
    obtain ⟨θ₀, hθ₀, hle⟩ : ∃ θ₀ > 0, ∀ k, θ₀ ≤ θ k := by
      have hne : (Finset.univ : Finset Slot).Nonempty := ⟨.px, Finset.mem_univ _⟩
      refine ⟨Finset.univ.inf' hne θ, ?_, fun k => Finset.inf'_le _ (Finset.mem_univ k)⟩
      rw [gt_iff_lt, Finset.lt_inf'_iff]
      exact fun k _ => hθ k
    refine ⟨min η θ₀, lt_min hη hθ₀, ?_⟩
    rintro u env' r hu0 hu henv ⟨v, hv, hr⟩
    have hk : ∀ k, ∃ y, v k = some y ∧ |y - mid k| < η := fun k =>
      hstage k u env' (v k) hu0 (hu.trans_le ((min_le_right _ _).trans (hle k)))
        (fun s => (henv s).trans_le ((min_le_right _ _).trans (hle k))) (hv k)
    rcases hr with ⟨mid', hmid', hr⟩ | ⟨⟨k, hk0⟩, -⟩
    · refine hstab u mid' r hu0 (hu.trans_le (min_le_left _ _)) (fun k => ?_) hr
      obtain ⟨y, hy, hy'⟩ := hk k
      rw [hmid' k, Option.some.injEq] at hy
      rwa [hy]
    · obtain ⟨y, hy, -⟩ := hk k
      rw [hk0] at hy
      simp at hy

/-- Every computation has a result. -/
theorem Expr.computes_eval {u : ℝ} (hu : 0 ≤ u) (env : Slot → ℝ) (e : Expr) : e.Computes u env (e.eval env) := by
  have hr : ∀ x : ℝ, Rounded u x x := fun x => ⟨by simp only [sub_self, abs_zero]; positivity, id, id⟩
  have hr' : ∀ x : Option ℝ, RoundedTo u x x := fun x => by
    cases x with
    | none => rfl
    | some x => exact ⟨x, rfl, hr x⟩
  induction e with
  | var s => rfl
  | const c => exact hr' _
  | neg a ih => exact ⟨_, ih, rfl⟩
  | add a b iha ihb => exact ⟨_, _, iha, ihb, hr' _⟩
  | sub a b iha ihb => exact ⟨_, _, iha, ihb, hr' _⟩
  | mul a b iha ihb => exact ⟨_, _, iha, ihb, hr' _⟩
  | div a b iha ihb => exact ⟨_, _, iha, ihb, hr' _⟩
  | sq a ih => exact ⟨_, ih, hr' _⟩
  | sqrt a ih => exact ⟨_, ih, hr' _⟩
  | exp a ih => exact ⟨_, ih, hr' _⟩
  | ifneg c a b ihc iha ihb =>
    refine ⟨_, ihc, ?_⟩
    cases hc : c.eval env with
    | none => simp [eval, hc]
    | some x =>
      simp only [eval, hc, Option.bind_some]
      split_ifs
      · exact iha
      · exact ihb

theorem Exact.runs {u : ℝ} (hu : 0 ≤ u) {ss : List Stage} {env out : Slot → ℝ} (h : Exact ss env out) :
    Runs u ss env (some out) := by
  induction ss generalizing env with
  | nil => simp only [Runs, Exact] at h ⊢; rw [h]
  | cons s ss ih =>
    obtain ⟨mid, hmid, hout⟩ := h
    exact ⟨fun k => (s k).eval env, fun k => (s k).computes_eval hu env, .inl ⟨mid, hmid, ih hout⟩⟩

theorem valAll_append (ss tt : List Stage) (env : Slot → ℝ) : valAll (ss ++ tt) env = valAll tt (valAll ss env) := by
  induction ss generalizing env with
  | nil => rfl
  | cons s ss ih => exact ih _

theorem regularAll_append (ss tt : List Stage) (env : Slot → ℝ) :
    RegularAll (ss ++ tt) env ↔ RegularAll ss env ∧ RegularAll tt (valAll ss env) := by
  induction ss generalizing env with
  | nil => simp [RegularAll, valAll]
  | cons s ss ih => simp only [List.cons_append, RegularAll, valAll, ih, and_assoc]

/-! ## Operators -/

section
variable (env : Slot → ℝ) (a b : Expr)

theorem val_neg : (-a).val env = -a.val env := rfl
theorem val_add : (a + b).val env = a.val env + b.val env := rfl
theorem val_sub : (a - b).val env = a.val env - b.val env := rfl
theorem val_mul : (a * b).val env = a.val env * b.val env := rfl
theorem val_div : (a / b).val env = a.val env / b.val env := rfl
theorem regular_neg : (-a).Regular env ↔ a.Regular env := Iff.rfl
theorem regular_add : (a + b).Regular env ↔ a.Regular env ∧ b.Regular env := Iff.rfl
theorem regular_sub : (a - b).Regular env ↔ a.Regular env ∧ b.Regular env := Iff.rfl
theorem regular_mul : (a * b).Regular env ↔ a.Regular env ∧ b.Regular env := Iff.rfl
theorem regular_div : (a / b).Regular env ↔ a.Regular env ∧ b.Regular env ∧ b.val env ≠ 0 := Iff.rfl
theorem nonneg_add : (a + b).Nonneg ↔ a.Nonneg ∧ b.Nonneg := Iff.rfl

theorem val_abs : (Expr.abs a).val env = |a.val env| := by
  simp only [Expr.abs, Expr.val, val_neg]
  split_ifs with h
  · rw [abs_of_neg h]
  · rw [abs_of_nonneg (not_lt.1 h)]

theorem regular_abs : (Expr.abs a).Regular env ↔ a.Regular env := by
  simp only [Expr.abs, Expr.Regular, regular_neg, val_neg]
  refine ⟨fun h => h.1, fun h => ⟨h, fun _ => h, fun _ => h, fun h0 => by rw [h0, neg_zero]⟩⟩

theorem val_sign : (Expr.sign a).val env = sgn (a.val env) := by
  simp only [Expr.sign, Expr.val, val_neg, sgn]
  rcases lt_trichotomy (a.val env) 0 with h | h | h
  · simp [h]
  · simp [h]
  · simp [h, h.not_gt, h.ne']

theorem regular_sign (ha : a.Regular env) (h : a.val env ≠ 0) : (Expr.sign a).Regular env := by
  simp only [Expr.sign, Expr.Regular, regular_neg, val_neg, Expr.val]
  refine ⟨ha, fun _ => trivial, fun _ => ⟨ha, fun _ => trivial, fun _ => trivial, fun h0 => ?_⟩, fun h0 => (h h0).elim⟩
  exact (h (by linarith)).elim

theorem val_norm (x y z : Expr) : (Expr.norm x y z).val env =
    Real.sqrt (x.val env ^ 2 + y.val env ^ 2 + z.val env ^ 2) := rfl

theorem regular_norm (x y z : Expr) : (Expr.norm x y z).Regular env ↔
    (x.Regular env ∧ y.Regular env) ∧ z.Regular env :=
  ⟨fun h => h.1, fun h => ⟨h, .inl ⟨⟨trivial, trivial⟩, trivial⟩⟩⟩
end

end Optika
