import Verif.Props.Rulings
import Mathlib.Algebra.Polynomial.Eval.Defs

/-!
# The default normal (C01) and the spacing of rulings (C06, C62)
-/

namespace Optika
open V3

/-- **C01**, **C02**: without a normal the surface is perpendicular to the `z` axis: the components
of the momentum along `x` and `y` are kept. -/
theorem C01_default_normal {a : V3} {n1 n2 : ℝ} (isMirror : Bool) (h1 : 0 < n1) (h2 : 0 < n2)
    (hz : a.z ≠ 0) (b : V3) :
    snellsLawDefault a n1 n2 isMirror = some b ↔
      b.x ^ 2 + b.y ^ 2 + b.z ^ 2 = 1 ∧ n2 * b.x = n1 * a.x ∧ n2 * b.y = n1 * a.y
        ∧ if isMirror then a.z * b.z ≤ 0 else 0 ≤ a.z * b.z := by
  unfold snellsLawDefault
  have hau : a.dot ⟨0, 0, -1⟩ ≠ 0 := by simp [dot, hz]
  rw [snellsLaw_iff isMirror (by simp [dot]) h1 h2 hau]
  have ha : a.dot ⟨0, 0, -1⟩ = -a.z := by simp [dot]
  have hb : b.dot ⟨0, 0, -1⟩ = -b.z := by simp [dot]
  unfold OppositeSide SameSide
  rw [ha, hb, neg_mul_neg]
  constructor
  · rintro ⟨⟨hu, ht⟩, hs⟩
    have hx := congrArg V3.x ht
    have hy := congrArg V3.y ht
    simp only [tang, ha, hb, smul_x, smul_y, add_x, add_y, sub_x, sub_y, zero_x, zero_y] at hx hy
    simp only [dot] at hu
    refine ⟨by linarith, by linarith, by linarith, hs⟩
  · rintro ⟨hu, hx, hy, hs⟩
    refine ⟨⟨by simp only [dot]; linarith, ?_⟩, hs⟩
    unfold tang
    rw [ha, hb]
    apply V3.ext <;> vsimp <;> linarith

/-- A ray at 3:4 from vacuum into vacuum. -/
example : snellsLawDefault ⟨3 / 5, 0, 4 / 5⟩ 1 1 false = some ⟨3 / 5, 0, 4 / 5⟩
    ∧ snellsLawDefault ⟨3 / 5, 0, 4 / 5⟩ 1 1 true = some ⟨3 / 5, 0, -4 / 5⟩ := by
  rw [C01_default_normal false one_pos one_pos (by norm_num),
    C01_default_normal true one_pos one_pos (by norm_num)]
  norm_num

/-- A ruling vector `d g` with a tangential unit vector `g` and any `d` other than zero. -/
theorem ruled_iff {w : ℝ} {a u g : V3} {n1 n2 m d : ℝ} (isMirror : Bool)
    (hu : u.dot u = 1) (hg : g.dot u = 0) (hg1 : g.dot g = 1) (h1 : 0 < n1) (h2 : 0 < n2)
    (hd : d ≠ 0) (hau : a.dot u ≠ 0) (b : V3) :
    ((rulingsIncidentEffective (some (d • g)) m w a n1 u).bind fun k =>
        snellsLaw k n1 n2 isMirror u) = some b ↔
      PhaseMatched a b n1 n2 u (((if a.dot u < 0 then -1 else 1) * (m * w / d)) • g) ∧
      if isMirror then OppositeSide a b u else SameSide a b u := by
  have hs : sgn (a.dot u) = if a.dot u < 0 then -1 else 1 := by
    unfold sgn; rw [if_neg hau]
  have hdd : (d • g).dot (d • g) = d ^ 2 := by rw [smul_dot, dot_smul, hg1]; ring
  have hlen : (d • g).len ≠ 0 := by
    unfold len
    rw [hdd]
    exact (Real.sqrt_pos.2 (by positivity)).ne'
  set k := a + (sgn (a.dot u) * m * w / (n1 * d)) • g with hk
  have hinc : rulingsIncidentEffective (some (d • g)) m w a n1 u = some k := by
    rw [rulingsIncidentEffective_some]
    refine ⟨hlen, h1.ne', ?_⟩
    rw [hdd, hk]
    apply V3.ext <;> vsimp <;> field_simp
  have hku : k.dot u = a.dot u := by rw [hk, add_dot, smul_dot, hg]; ring
  rw [hinc, Option.bind_some, snellsLaw_iff isMirror hu h1 h2 (by rw [hku]; exact hau)]
  have hkt : n1 • k.tang u + 0 =
      n1 • a.tang u + ((if a.dot u < 0 then -1 else 1) * (m * w / d)) • g := by
    unfold tang; rw [hku, hk, ← hs]
    apply V3.ext <;> vsimp <;> field_simp <;> ring
  unfold OppositeSide SameSide
  rw [hku]
  constructor
  · rintro ⟨⟨hb, ht⟩, hside⟩
    exact ⟨⟨hb, by rw [ht, hkt]⟩, hside⟩
  · rintro ⟨⟨hb, ht⟩, hside⟩
    exact ⟨⟨hb, by rw [ht, hkt]⟩, hside⟩

/-- **C06**: the grating equation for rulings given by a constant ruling vector. -/
theorem C06_constant_spacing {w : ℝ} {position a u g : V3} {n1 n2 m d : ℝ} (isMirror : Bool)
    (hu : u.dot u = 1) (hg : g.dot u = 0) (hg1 : g.dot g = 1) (h1 : 0 < n1) (h2 : 0 < n2)
    (hd : d ≠ 0) (hau : a.dot u ≠ 0) (b : V3) :
    ruledRefraction (.inr (.constant d g)) m w position a n1 n2 isMirror u = some b ↔
      PhaseMatched a b n1 n2 u (((if a.dot u < 0 then -1 else 1) * (m * w / d)) • g) ∧
      if isMirror then OppositeSide a b u else SameSide a b u :=
  ruled_iff isMirror hu hg hg1 h1 h2 hd hau b

/-- **C06**: a plain number is the distance of rulings that are perpendicular to `x`. -/
theorem C06_plain_spacing {w : ℝ} {position a u : V3} {n1 n2 m d : ℝ} (isMirror : Bool)
    (hu : u.dot u = 1) (hx : u.x = 0) (h1 : 0 < n1) (h2 : 0 < n2)
    (hd : d ≠ 0) (hau : a.dot u ≠ 0) (b : V3) :
    ruledRefraction (.inl d) m w position a n1 n2 isMirror u = some b ↔
      PhaseMatched a b n1 n2 u ⟨(if a.dot u < 0 then -1 else 1) * (m * w / d), 0, 0⟩ ∧
      if isMirror then OppositeSide a b u else SameSide a b u := by
  have h := C06_constant_spacing (w := w) (position := position) (g := ⟨1, 0, 0⟩) (m := m) isMirror
    hu (by simp [dot, hx]) (by simp [dot]) h1 h2 hd hau b
  have e : ((if a.dot u < 0 then -1 else 1) * (m * w / d)) • (⟨1, 0, 0⟩ : V3)
      = ⟨(if a.dot u < 0 then -1 else 1) * (m * w / d), 0, 0⟩ := by
    apply V3.ext <;> vsimp <;> ring
  rw [e] at h
  exact h

/-! ### C62 -/

/-- The polynomial with the given coefficients. -/
noncomputable def spacingPolynomial (coefficients : List (ℕ × ℝ)) : Polynomial ℝ :=
  (coefficients.map fun pc => Polynomial.C pc.2 * Polynomial.X ^ pc.1).sum

theorem polyEval_eq (coefficients : List (ℕ × ℝ)) (x : ℝ) :
    polyEval coefficients x = (spacingPolynomial coefficients).eval x := by
  have key : ∀ (l : List (ℕ × ℝ)) (r : ℝ),
      l.foldl (fun result pc => result + pc.2 * x ^ pc.1) r
        = r + (spacingPolynomial l).eval x := by
    intro l
    induction l with
    | nil => intro r; simp [spacingPolynomial]
    | cons pc l ih =>
      intro r
      rw [List.foldl_cons, ih]
      simp [spacingPolynomial, add_assoc]
  rw [polyEval, key, zero_add]

/-- **C62**: on a grating with varied line spacing the grating equation holds with the value of the
polynomial at the ray, whatever its sign. -/
theorem C62_grating_equation_partial {w : ℝ} {position a u g : V3} {n1 n2 m : ℝ} (isMirror : Bool)
    {coefficients : List (ℕ × ℝ)} {transformation : Option (V3 → V3)}
    (hu : u.dot u = 1) (hg : g.dot u = 0) (hg1 : g.dot g = 1) (h1 : 0 < n1) (h2 : 0 < n2)
    {d : ℝ} (hd0 : d = (spacingPolynomial coefficients).eval
      ((transformation.getD id position).dot g)) (hd : d ≠ 0) (hau : a.dot u ≠ 0) (b : V3) :
    ruledRefraction (.inr (.polynomial coefficients g transformation)) m w position a n1 n2 isMirror u
        = some b ↔
      PhaseMatched a b n1 n2 u (((if a.dot u < 0 then -1 else 1) * (m * w / d)) • g) ∧
      if isMirror then OppositeSide a b u else SameSide a b u := by
  rw [← ruled_iff isMirror hu hg hg1 h1 h2 hd hau b]
  have e : RulingSpacing.call (.polynomial coefficients g transformation) position u
      = some (d • g) := by
    rw [hd0, ← polyEval_eq]
    cases transformation <;> rfl
  unfold ruledRefraction rulingSpacingOf
  dsimp only
  rw [e]

/-- **C62**: where the polynomial vanishes there is no diffracted ray. -/
theorem C62_zero_spacing {w : ℝ} {position a u g : V3} {n1 n2 m : ℝ} (isMirror : Bool)
    {coefficients : List (ℕ × ℝ)} (hd : (spacingPolynomial coefficients).eval (position.dot g) = 0) :
    ruledRefraction (.inr (.polynomial coefficients g none)) m w position a n1 n2 isMirror u = none := by
  have e : RulingSpacing.call (.polynomial coefficients g none) position u
      = some ((0 : ℝ) • g) := by
    rw [← hd, ← polyEval_eq]
    rfl
  unfold ruledRefraction rulingSpacingOf
  dsimp only
  rw [e, Option.bind_eq_none_iff]
  intro k hk
  rw [rulingsIncidentEffective_some] at hk
  exact absurd (by simp [len, dot]) hk.1

/-- **C62**: the rulings are straight: the spacing is the same along planes perpendicular to the
normal of the rulings. -/
theorem C62_straight {coefficients : List (ℕ × ℝ)} {g p q u v : V3} (h : p.dot g = q.dot g) :
    RulingSpacing.call (.polynomial coefficients g none) p u
      = RulingSpacing.call (.polynomial coefficients g none) q v := by
  simp [RulingSpacing.call, polynomialSpacing, h]

/-- **C62**: a polynomial of degree zero is a constant spacing. -/
theorem C62_constant (d : ℝ) (g : V3) (t : Option (V3 → V3)) (p u : V3) :
    RulingSpacing.call (.polynomial [(0, d)] g t) p u = RulingSpacing.call (.constant d g) p u := by
  simp [RulingSpacing.call, polynomialSpacing, constantSpacing, polyEval]

/-- A grating with the spacing `1 + x / 2`, at `x = 2`, in first order at normal incidence. -/
example : ∃ b, ruledRefraction (.inr (.polynomial [(0, 1), (1, 1 / 2)] ⟨1, 0, 0⟩ none)) 1 (6 / 5)
    ⟨2, 0, 0⟩ ⟨0, 0, 1⟩ 1 1 true ⟨0, 0, -1⟩ = some b ∧ b = ⟨-3 / 5, 0, -4 / 5⟩ := by
  refine ⟨_, ?_, rfl⟩
  rw [C62_grating_equation_partial true (by simp [dot]) (by simp [dot]) (by simp [dot]) one_pos one_pos
    (d := 2) (by norm_num [spacingPolynomial, dot]) two_ne_zero (by simp [dot])]
  refine ⟨⟨by norm_num [dot], ?_⟩, by norm_num [OppositeSide, dot]⟩
  apply V3.ext <;> vsimp <;> norm_num [tang, dot]

/-- The transformation of holographic rulings has no effect. -/
theorem holographic_transformation (x1 x2 : V3) (w : ℝ) (d1 d2 : Bool) (t : V3 → V3) (p u : V3) :
    RulingSpacing.call (.holographic x1 x2 w d1 d2 (some t)) p u
      = RulingSpacing.call (.holographic x1 x2 w d1 d2 none) p u := rfl

/-- **C62**: the transformation from surface coordinates to ruling coordinates has no effect for
holographic rulings: if they are shifted by three along `x`, the code still computes the spacing at
the position before the shift. -/
theorem C62_holographic_counterexample :
    let shift : V3 → V3 := fun p => p - ⟨3, 0, 0⟩
    RulingSpacing.call (.holographic ⟨0, 0, -1⟩ ⟨0, 0, -2⟩ 1 true false (some shift)) ⟨3, 0, 0⟩ ⟨0, 0, -1⟩
      ≠ RulingSpacing.call (.holographic ⟨0, 0, -1⟩ ⟨0, 0, -2⟩ 1 true false none) (shift ⟨3, 0, 0⟩)
        ⟨0, 0, -1⟩ := by
  intro shift
  have e : shift ⟨3, 0, 0⟩ = ⟨0, 0, 0⟩ := by
    simp only [shift]
    apply V3.ext <;> vsimp <;> norm_num
  rw [e, holographic_transformation]
  simp only [RulingSpacing.call]
  rw [C07_specular_point_counterexample]
  have l1 : 0 < ((⟨3, 0, 0⟩ : V3) - ⟨0, 0, -1⟩).len :=
    Real.sqrt_pos.2 (by norm_num [dot])
  have l2 : 0 < ((⟨3, 0, 0⟩ : V3) - ⟨0, 0, -2⟩).len :=
    Real.sqrt_pos.2 (by norm_num [dot])
  intro h
  have h2 := (holographicSpacing_eq_some (x1 := ⟨0, 0, -1⟩) (x2 := ⟨0, 0, -2⟩) (wl := 1) (d1 := true)
    (d2 := false) (p := ⟨3, 0, 0⟩) (n := ⟨0, 0, -1⟩) (by simp [dot])).2 ⟨_, _, normalized?_eq_some.2 ⟨l1.ne', rfl⟩, normalized?_eq_some.2 ⟨l2.ne', rfl⟩, ?_,
    rfl⟩
  · rw [h] at h2
    exact absurd h2 (by simp)
  · generalize ((⟨3, 0, 0⟩ : V3) - ⟨0, 0, -1⟩).len = A at *
    generalize ((⟨3, 0, 0⟩ : V3) - ⟨0, 0, -2⟩).len = B at *
    intro h0
    have hx := congrArg V3.x (V3.dot_self_eq_zero h0)
    simp [tang, dot] at hx
    have : 0 < A⁻¹ * 3 := by positivity
    have : 0 < B⁻¹ * 3 := by positivity
    linarith

end Optika
