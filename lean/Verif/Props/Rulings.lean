import Verif.Lemmas.Rulings
import Verif.Props.Snell

/-!
# C06, C07: diffraction gratings
-/

namespace Optika
open V3

/-- **C06**: the grating equation.  For rulings lying in the surface (`g ⟂ u`) the diffracted
direction is the one and only unit vector with
`n2 b_t = n1 a_t ± m λ/d g` on the transmitted (reflected) side. -/
theorem C06_grating_equation {w : ℝ} {a u g : V3} {n1 n2 m d : ℝ} (isMirror : Bool)
    (hu : u.dot u = 1) (hg : g.dot u = 0) (h1 : 0 < n1) (h2 : 0 < n2) (hd : 0 < d)
    (hau : a.dot u ≠ 0) (b : V3) :
    diffract w a n1 n2 isMirror u m d g = some b ↔
      PhaseMatched a b n1 n2 u (((if a.dot u < 0 then -1 else 1) * (m * w / d)) • g) ∧
      if isMirror then OppositeSide a b u else SameSide a b u := by
  have hs : sgn (a.dot u) = if a.dot u < 0 then -1 else 1 := by
    unfold sgn; rw [if_neg hau]
  set k := a + (sgn (a.dot u) * m * w / (n1 * d)) • g with hk
  have hinc : incidentEffective w a n1 u m d g = some k :=
    incidentEffective_eq_some.2 ⟨mul_ne_zero h1.ne' hd.ne', rfl⟩
  have hku : k.dot u = a.dot u := by rw [hk, add_dot, smul_dot, hg]; ring
  unfold diffract
  rw [hinc, Option.bind_some, snellsLaw_iff isMirror hu h1 h2 (by rw [hku]; exact hau)]
  have hkt : n1 • k.tang u + 0 =
      n1 • a.tang u + ((if a.dot u < 0 then -1 else 1) * (m * w / d)) • g := by
    unfold tang; rw [hku, hk, ← hs]
    apply V3.ext <;> vsimp <;> field_simp <;> ring
  unfold OppositeSide SameSide
  rw [hku]
  constructor
  · rintro ⟨⟨hb, ht⟩, hside⟩
    exact ⟨⟨hb, by rw [ht, hkt]⟩, hside⟩
  · rintro ⟨⟨hb, ht⟩, hside⟩
    exact ⟨⟨hb, by rw [ht, hkt]⟩, hside⟩

/-- **C06**: order zero is the same as no rulings at all. -/
theorem C06_order_zero {w : ℝ} {a u g : V3} {n1 n2 d : ℝ} (isMirror : Bool) (h1 : n1 ≠ 0)
    (hd : d ≠ 0) :
    diffract w a n1 n2 isMirror u 0 d g = snellsLaw a n1 n2 isMirror u := by
  have : incidentEffective w a n1 u 0 d g = some a := by
    rw [incidentEffective_eq_some]
    refine ⟨mul_ne_zero h1 hd, ?_⟩
    apply V3.ext <;> vsimp <;> simp
  unfold diffract
  rw [this, Option.bind_some]

/-- **C06**: an order exists (is not evanescent) exactly when the resulting tangential momentum
does not exceed the index of the outgoing medium. -/
theorem C06_order_exists {w : ℝ} {a u g : V3} {n1 n2 m d : ℝ} (isMirror : Bool)
    (hu : u.dot u = 1) (hg : g.dot u = 0) (h1 : 0 < n1) (h2 : 0 < n2) (hd : 0 < d)
    (hau : a.dot u ≠ 0) :
    (∃ b, diffract w a n1 n2 isMirror u m d g = some b) ↔
      (n1 • a.tang u + ((if a.dot u < 0 then -1 else 1) * (m * w / d)) • g).dot
        (n1 • a.tang u + ((if a.dot u < 0 then -1 else 1) * (m * w / d)) • g) ≤ n2 ^ 2 := by
  have hs : sgn (a.dot u) = if a.dot u < 0 then -1 else 1 := by
    unfold sgn; rw [if_neg hau]
  set k := a + (sgn (a.dot u) * m * w / (n1 * d)) • g with hk
  have hinc : incidentEffective w a n1 u m d g = some k :=
    incidentEffective_eq_some.2 ⟨mul_ne_zero h1.ne' hd.ne', rfl⟩
  have hku : k.dot u = a.dot u := by rw [hk, add_dot, smul_dot, hg]; ring
  have hkt : n1 • a.tang u + ((if a.dot u < 0 then -1 else 1) * (m * w / d)) • g
      = n1 • k.tang u := by
    unfold tang; rw [hku, hk, ← hs]
    apply V3.ext <;> vsimp <;> field_simp <;> ring
  rw [hkt, smul_dot, dot_smul]
  unfold diffract
  rw [hinc, Option.bind_some, ← Option.isSome_iff_exists, Option.isSome_iff_ne_none, Ne,
    C05_total_internal_reflection isMirror hu h1 h2, not_lt]
  constructor <;> intro h <;> nlinarith

/-- Non-vacuity of C06: 100 nm rulings lines of spacing 1 µm, first order at normal incidence. -/
example : (⟨1, 0, 0⟩ : V3).dot ⟨0, 0, -1⟩ = 0 ∧ (⟨0, 0, 1⟩ : V3).dot ⟨0, 0, -1⟩ ≠ 0 ∧
    ∃ b, diffract (1 / 10) ⟨0, 0, 1⟩ 1 1 true ⟨0, 0, -1⟩ 1 1 ⟨1, 0, 0⟩ = some b ∧ b.x = -1 / 10 := by
  refine ⟨by simp [dot], by simp [dot], ?_⟩
  obtain ⟨b, hb⟩ := (C06_order_exists (w := 1 / 10) (a := ⟨0, 0, 1⟩) (u := ⟨0, 0, -1⟩)
    (g := ⟨1, 0, 0⟩) (n1 := 1) (n2 := 1) (m := 1) (d := 1) true (by simp [dot]) (by simp [dot])
    (by norm_num) (by norm_num) (by norm_num) (by simp [dot])).2
    (by simp [dot, tang]; norm_num)
  refine ⟨b, hb, ?_⟩
  have h := ((C06_grating_equation true (by simp [dot]) (by simp [dot]) (by norm_num)
    (by norm_num) (by norm_num) (by simp [dot]) b).1 hb).1.tangential
  have h := congrArg V3.x h
  simp [dot, tang] at h
  linarith

/-- The rulings of `Rulings.spacing` given as a plain number have their normal along `x`
(`optika/rulings/_rulings.py` lines 162–168), which on a curved surface is not tangential.  The
grating equation still holds for its tangential part, for every ruling direction, but the side
on which the ray leaves is decided by the effective incident direction. -/
theorem C06_grating_equation_tilted {w : ℝ} {a u g b : V3} {n1 n2 m d : ℝ} (isMirror : Bool)
    (hu : u.dot u = 1) (h1 : 0 < n1) (h2 : 0 < n2) (hd : 0 < d) (hau : a.dot u ≠ 0)
    (hside : 0 < a.dot u * (a.dot u + (if a.dot u < 0 then -1 else 1) * (m * w / (n1 * d)) * g.dot u))
    (h : diffract w a n1 n2 isMirror u m d g = some b) :
    PhaseMatched a b n1 n2 u (((if a.dot u < 0 then -1 else 1) * (m * w / d)) • g.tang u) ∧
      if isMirror then OppositeSide a b u else SameSide a b u := by
  have hs : sgn (a.dot u) = if a.dot u < 0 then -1 else 1 := by
    unfold sgn; rw [if_neg hau]
  set k := a + (sgn (a.dot u) * m * w / (n1 * d)) • g with hk
  have hinc : incidentEffective w a n1 u m d g = some k :=
    incidentEffective_eq_some.2 ⟨mul_ne_zero h1.ne' hd.ne', rfl⟩
  have hku : k.dot u = a.dot u + (if a.dot u < 0 then -1 else 1) * (m * w / (n1 * d)) * g.dot u := by
    rw [hk, add_dot, smul_dot, hs]; ring
  rw [← hku] at hside
  have hku0 : k.dot u ≠ 0 := by intro h0; rw [h0] at hside; simp at hside
  unfold diffract at h
  rw [hinc, Option.bind_some, snellsLaw_iff isMirror hu h1 h2 hku0] at h
  obtain ⟨⟨hb, ht⟩, hsd⟩ := h
  refine ⟨⟨hb, ?_⟩, ?_⟩
  · rw [ht]
    unfold tang; rw [hku, hk, ← hs]
    apply V3.ext <;> vsimp <;> field_simp <;> ring
  · have hsq : 0 < k.dot u ^ 2 := by positivity
    cases isMirror
    · simp only [Bool.false_eq_true, if_false, SameSide] at hsd ⊢
      have := mul_nonneg hside.le hsd
      have e : a.dot u * k.dot u * (k.dot u * b.dot u) = k.dot u ^ 2 * (a.dot u * b.dot u) := by ring
      rw [e] at this
      exact nonneg_of_mul_nonneg_right this hsq
    · simp only [if_true, OppositeSide] at hsd ⊢
      have := mul_nonneg hside.le (neg_nonneg.2 hsd)
      have e : a.dot u * k.dot u * -(k.dot u * b.dot u) = k.dot u ^ 2 * (-(a.dot u * b.dot u)) := by
        ring
      rw [e] at this
      have := nonneg_of_mul_nonneg_right this hsq
      linarith

/-- **C07**: holographic rulings reproduce the recording beams.  `a` and `b` are the unit
directions of the two recording beams at the surface point `p` (diverging from, or converging
to, the recording points `x1`, `x2`).  A ray along the first beam, meeting the surface against
its normal, leaves along the second beam in first order at the recording wavelength. -/
theorem C07_holographic {x1 x2 p u e1 e2 : V3} {wl : ℝ} (d1 d2 isMirror : Bool)
    (hu : u.dot u = 1) (hwl : 0 < wl)
    (h1 : normalized? (p - x1) = some e1) (h2 : normalized? (p - x2) = some e2)
    (a b : V3) (hadef : a = (if d1 then (1 : ℝ) else -1) • e1)
    (hbdef : b = (if d2 then (1 : ℝ) else -1) • e2)
    (hau : a.dot u < 0) (hbu : if isMirror then 0 ≤ b.dot u else b.dot u ≤ 0)
    (hne : a.tang u ≠ b.tang u) :
    ((holographicSpacing x1 x2 wl d1 d2 p u).bind fun kappa =>
      (rulingsIncidentEffective (some kappa) 1 wl a 1 u).bind fun k =>
        snellsLaw k 1 1 isMirror u) = some b := by
  have hτ : (a - b).tang u = a.tang u - b.tang u := by
    unfold tang; rw [sub_dot]; vring
  have h0 : ((a - b).tang u).dot ((a - b).tang u) ≠ 0 := by
    intro h
    have := V3.dot_self_eq_zero h
    rw [hτ] at this
    apply hne
    have hx := congrArg V3.x this
    have hy := congrArg V3.y this
    have hz := congrArg V3.z this
    simp only [sub_x, sub_y, sub_z, zero_x, zero_y, zero_z] at hx hy hz
    ext <;> linarith
  have hsp : holographicSpacing x1 x2 wl d1 d2 p u
      = some ((wl / ((a - b).tang u).dot ((a - b).tang u)) • (a - b).tang u) := by
    rw [holographicSpacing_eq_some hu]
    refine ⟨e1, e2, h1, h2, ?_⟩
    simp only [← hadef, ← hbdef]
    exact ⟨h0, trivial⟩
  set τ := (a - b).tang u with hτdef
  have hτu : τ.dot u = 0 := by
    rw [hτdef]; unfold tang; rw [sub_dot, smul_dot, hu]; ring
  have hinc : rulingsIncidentEffective (some ((wl / τ.dot τ) • τ)) 1 wl a 1 u
      = some (a - τ) := by
    rw [rulingsIncidentEffective_some]
    have hpos : 0 < τ.dot τ := lt_of_le_of_ne τ.dot_self_nonneg (Ne.symm h0)
    refine ⟨?_, one_ne_zero, ?_⟩
    · unfold V3.len
      rw [smul_dot, dot_smul]
      have : 0 < wl / τ.dot τ * (wl / τ.dot τ * τ.dot τ) := by positivity
      exact (Real.sqrt_pos.2 this).ne'
    · have hsg : sgn (a.dot u) = -1 := by unfold sgn; rw [if_pos hau]
      rw [hsg, smul_dot, dot_smul]
      apply V3.ext <;> vsimp <;> field_simp <;> ring
  rw [hsp, Option.bind_some, hinc, Option.bind_some]
  have hku : (a - τ).dot u = a.dot u := by rw [sub_dot, hτu]; ring
  rw [snellsLaw_iff isMirror hu one_pos one_pos (by rw [hku]; exact hau.ne)]
  refine ⟨⟨?_, ?_⟩, ?_⟩
  · have := normalized?_unit h2
    rw [hbdef, smul_dot, dot_smul, this]
    cases d2 <;> norm_num
  · have : (a - τ).tang u = b.tang u := by
      unfold tang at hτ ⊢
      rw [hku, hτdef]; unfold tang; rw [sub_dot]; vring
    rw [this]; vring
  · unfold OppositeSide SameSide
    rw [hku]
    cases isMirror
    · simp only [Bool.false_eq_true, if_false] at hbu ⊢
      nlinarith
    · simp only [if_true] at hbu ⊢
      nlinarith

/-- **C07**, default flags (beam 1 diverging from `x1`, beam 2 converging to `x2`), mirror: every
ray emitted by `x1` is sent to `x2`. -/
theorem C07_stigmatic_partial {x1 x2 p u e1 : V3} {wl : ℝ} (hu : u.dot u = 1) (hwl : 0 < wl)
    (h1 : normalized? (p - x1) = some e1) (hx1 : (p - x1).dot u < 0) (hx2 : 0 < (x2 - p).dot u)
    (hne : ∀ e2, normalized? (x2 - p) = some e2 → e1.tang u ≠ e2.tang u) :
    ∃ b, ((holographicSpacing x1 x2 wl true false p u).bind fun kappa =>
        (rulingsIncidentEffective (some kappa) 1 wl e1 1 u).bind fun k =>
          snellsLaw k 1 1 true u) = some b ∧
      p + (x2 - p).len • b = x2 := by
  have hl : (p - x2).len = (x2 - p).len := by
    unfold len; congr 1; simp only [dot, sub_x, sub_y, sub_z]; ring
  have hx2l : (x2 - p).len ≠ 0 := by
    intro h
    have h3 := V3.len_sq (x2 - p)
    rw [h] at h3
    have := V3.dot_self_eq_zero (a := x2 - p) (by linarith)
    rw [this] at hx2; simp [dot] at hx2
  have h2 : normalized? (p - x2) = some ((1 / (p - x2).len) • (p - x2)) :=
    normalized?_eq_some.2 ⟨by rw [hl]; exact hx2l, rfl⟩
  obtain ⟨h1l, h1e⟩ := normalized?_eq_some.1 h1
  have hpos1 : 0 < (p - x1).len := lt_of_le_of_ne (V3.len_nonneg _) (Ne.symm h1l)
  have hpos2 : 0 < (x2 - p).len := lt_of_le_of_ne (V3.len_nonneg _) (Ne.symm hx2l)
  have hb' : (-1 : ℝ) • ((1 / (p - x2).len) • (p - x2)) = (1 / (x2 - p).len) • (x2 - p) := by
    rw [hl]; vring
  refine ⟨(1 / (x2 - p).len) • (x2 - p), ?_, ?_⟩
  · apply C07_holographic true false true hu hwl h1 h2 e1 _ (by simp only [if_true]; vring)
      (by simp only [Bool.false_eq_true, if_false]; rw [hb'])
    · rw [h1e, smul_dot]
      exact mul_neg_of_pos_of_neg (by positivity) hx1
    · simp only [if_true]
      rw [smul_dot]; positivity
    · exact hne _ (normalized?_eq_some.2 ⟨hx2l, rfl⟩)
  · apply V3.ext <;> vsimp <;> field_simp <;> ring

/-- Non-vacuity of C07: `x1 = (3,0,-4)`, `x2 = (5,0,-12)`, at the origin of a plane mirror with
normal `-z`. -/
example : normalized? ((⟨0, 0, 0⟩ : V3) - ⟨3, 0, -4⟩) = some ⟨-3 / 5, 0, 4 / 5⟩ ∧
    ((⟨0, 0, 0⟩ : V3) - ⟨3, 0, -4⟩).dot ⟨0, 0, -1⟩ < 0 ∧
    0 < ((⟨5, 0, -12⟩ : V3) - ⟨0, 0, 0⟩).dot ⟨0, 0, -1⟩ ∧
    ∀ e2, normalized? ((⟨5, 0, -12⟩ : V3) - ⟨0, 0, 0⟩) = some e2 →
      (⟨-3 / 5, 0, 4 / 5⟩ : V3).tang ⟨0, 0, -1⟩ ≠ e2.tang ⟨0, 0, -1⟩ := by
  have l1 : ((⟨0, 0, 0⟩ : V3) - ⟨3, 0, -4⟩).len = 5 := by
    unfold len; rw [show ((⟨0, 0, 0⟩ : V3) - ⟨3, 0, -4⟩).dot (⟨0, 0, 0⟩ - ⟨3, 0, -4⟩) = 5 ^ 2 by
      simp [dot]; norm_num]
    exact Real.sqrt_sq (by norm_num)
  refine ⟨?_, by simp [dot], by simp [dot], ?_⟩
  · rw [normalized?_eq_some, l1]
    refine ⟨by norm_num, ?_⟩
    apply V3.ext <;> vsimp <;> norm_num
  · intro e2 he h
    obtain ⟨hl, rfl⟩ := normalized?_eq_some.1 he
    have hp : 0 < ((⟨5, 0, -12⟩ : V3) - ⟨0, 0, 0⟩).len :=
      lt_of_le_of_ne (V3.len_nonneg _) (Ne.symm hl)
    have hx := congrArg V3.x h
    simp only [tang, sub_x, smul_x, dot, smul_y, smul_z] at hx
    have : 0 < 1 / ((⟨5, 0, -12⟩ : V3) - ⟨0, 0, 0⟩).len := by positivity
    norm_num at hx
    have h5 : 0 < ((⟨5, 0, -12⟩ : V3) - ⟨0, 0, 0⟩).len⁻¹ := by positivity
    linarith

/-- Disagreement: at a surface point where the two beams have the same tangential component
(where the mirror alone already sends the ray to `x2`), the computed spacing is not finite. -/
theorem C07_specular_point_counterexample :
    holographicSpacing ⟨0, 0, -1⟩ ⟨0, 0, -2⟩ 1 true false ⟨0, 0, 0⟩ ⟨0, 0, -1⟩ = none := by
  rw [Option.eq_none_iff_forall_ne_some]
  intro k hk
  rw [holographicSpacing_eq_some (by simp [dot])] at hk
  obtain ⟨e1, e2, h1, h2, h0, -⟩ := hk
  obtain ⟨-, rfl⟩ := normalized?_eq_some.1 h1
  obtain ⟨-, rfl⟩ := normalized?_eq_some.1 h2
  apply h0
  simp [dot, tang]

/-- Disagreement: a ray travelling with the normal (`a·u > 0`) along the first recording beam is
not sent along the second one in order `+1` (it is in order `-1`). -/
theorem C07_with_normal_counterexample :
    ∃ b, ((holographicSpacing ⟨7, 0, 24⟩ ⟨0, 0, 1⟩ 1 true false ⟨0, 0, 0⟩ ⟨0, 0, -1⟩).bind fun kappa =>
      (rulingsIncidentEffective (some kappa) 1 1 ⟨-7 / 25, 0, -24 / 25⟩ 1 ⟨0, 0, -1⟩).bind fun k =>
        snellsLaw k 1 1 true ⟨0, 0, -1⟩) = some b ∧ b.x = -14 / 25 := by
  have l1 : ((⟨0, 0, 0⟩ : V3) - ⟨7, 0, 24⟩).len = 25 := by
    unfold len; rw [show ((⟨0, 0, 0⟩ : V3) - ⟨7, 0, 24⟩).dot (⟨0, 0, 0⟩ - ⟨7, 0, 24⟩) = 25 ^ 2 by
      simp [dot]; norm_num]
    exact Real.sqrt_sq (by norm_num)
  have l2 : ((⟨0, 0, 0⟩ : V3) - ⟨0, 0, 1⟩).len = 1 := by
    unfold len; rw [show ((⟨0, 0, 0⟩ : V3) - ⟨0, 0, 1⟩).dot (⟨0, 0, 0⟩ - ⟨0, 0, 1⟩) = 1 by
      simp [dot]]
    exact Real.sqrt_one
  have hsp : holographicSpacing ⟨7, 0, 24⟩ ⟨0, 0, 1⟩ 1 true false ⟨0, 0, 0⟩ ⟨0, 0, -1⟩
      = some ⟨-25 / 7, 0, 0⟩ := by
    rw [holographicSpacing_eq_some (by simp [dot])]
    refine ⟨⟨-7 / 25, 0, -24 / 25⟩, ⟨0, 0, -1⟩, ?_, ?_, ?_⟩
    · rw [normalized?_eq_some, l1]
      refine ⟨by norm_num, ?_⟩
      apply V3.ext <;> vsimp <;> norm_num
    · rw [normalized?_eq_some, l2]
      refine ⟨by norm_num, ?_⟩
      apply V3.ext <;> vsimp <;> norm_num
    · have ht : V3.tang ((if true then (1 : ℝ) else -1) • (⟨-7 / 25, 0, -24 / 25⟩ : V3) -
          (if false then (1 : ℝ) else -1) • (⟨0, 0, -1⟩ : V3)) ⟨0, 0, -1⟩ = ⟨-7 / 25, 0, 0⟩ := by
        simp only [if_true, Bool.false_eq_true, if_false]
        apply V3.ext <;> vsimp <;> simp only [dot] <;> vsimp <;> norm_num
      show V3.dot (V3.tang _ _) (V3.tang _ _) ≠ 0 ∧ _ = (1 / V3.dot (V3.tang _ _) (V3.tang _ _)) • V3.tang _ _
      rw [ht]
      refine ⟨by simp [dot], ?_⟩
      apply V3.ext <;> vsimp <;> simp only [dot] <;> norm_num
  have hl : (⟨-25 / 7, 0, 0⟩ : V3).len ≠ 0 := by
    intro h
    have := V3.len_sq ⟨-25 / 7, 0, 0⟩
    rw [h] at this; simp [dot] at this
  have hinc : rulingsIncidentEffective (some ⟨-25 / 7, 0, 0⟩) 1 1 ⟨-7 / 25, 0, -24 / 25⟩ 1 ⟨0, 0, -1⟩
      = some ⟨-14 / 25, 0, -24 / 25⟩ := by
    rw [rulingsIncidentEffective_some]
    refine ⟨hl, one_ne_zero, ?_⟩
    have hs : sgn ((⟨-7 / 25, 0, -24 / 25⟩ : V3).dot ⟨0, 0, -1⟩) = 1 := by
      simp [sgn, dot]
    rw [hs]
    apply V3.ext <;> vsimp <;> simp only [dot] <;> norm_num
  rw [hsp, Option.bind_some, hinc, Option.bind_some]
  have hex : ∃ b, snellsLaw ⟨-14 / 25, 0, -24 / 25⟩ 1 1 true ⟨0, 0, -1⟩ = some b := by
    rw [← Option.isSome_iff_exists, Option.isSome_iff_ne_none, Ne,
      C05_total_internal_reflection true (by simp [dot]) one_pos one_pos]
    simp [dot, tang]; norm_num
  obtain ⟨b, hb⟩ := hex
  refine ⟨b, hb, ?_⟩
  rw [snellsLaw_iff true (by simp [dot]) one_pos one_pos (by simp [dot])] at hb
  have hx := congrArg V3.x hb.1.tangential
  simp [dot, tang] at hx
  linarith

end Optika
