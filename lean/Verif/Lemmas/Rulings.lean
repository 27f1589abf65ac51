import Verif.Model.Rulings
import Verif.Lemmas.Snell

namespace Optika
open V3

theorem incidentEffective_eq_some {w : ℝ} {a : V3} {n : ℝ} {u : V3} {m d : ℝ} {g k : V3} :
    incidentEffective w a n u m d g = some k ↔
      n * d ≠ 0 ∧ k = a + (sgn (a.dot u) * m * w / (n * d)) • g := by
  unfold incidentEffective
  have hd : a.x * u.x + a.y * u.y + a.z * u.z = a.dot u := rfl
  rw [hd]
  simp only [Option.bind_eq_bind, Option.bind_eq_some_iff, div?_eq_some, Option.pure_def,
    Option.some.injEq]
  constructor
  · rintro ⟨_, ⟨h, rfl⟩, _, ⟨-, rfl⟩, _, ⟨-, rfl⟩, rfl⟩
    refine ⟨h, ?_⟩
    vring
  · rintro ⟨h, rfl⟩
    refine ⟨_, ⟨h, rfl⟩, _, ⟨h, rfl⟩, _, ⟨h, rfl⟩, ?_⟩
    vring

theorem normalized?_eq_some {v w : V3} :
    normalized? v = some w ↔ v.len ≠ 0 ∧ w = (1 / v.len) • v := by
  unfold normalized?
  simp only [Option.bind_eq_bind, Option.bind_eq_some_iff, div?_eq_some, Option.pure_def,
    Option.some.injEq]
  constructor
  · rintro ⟨_, ⟨h, rfl⟩, _, ⟨-, rfl⟩, _, ⟨-, rfl⟩, rfl⟩
    refine ⟨h, ?_⟩
    vring
  · rintro ⟨h, rfl⟩
    refine ⟨_, ⟨h, rfl⟩, _, ⟨h, rfl⟩, _, ⟨h, rfl⟩, ?_⟩
    vring

theorem normalized?_unit {v w : V3} (h : normalized? v = some w) : w.dot w = 1 := by
  obtain ⟨h0, rfl⟩ := normalized?_eq_some.1 h
  rw [smul_dot, dot_smul, ← V3.len_sq]; field_simp

theorem rulingsIncidentEffective_some {kappa : V3} {m w : ℝ} {a : V3} {n : ℝ} {u k : V3} :
    rulingsIncidentEffective (some kappa) m w a n u = some k ↔
      kappa.len ≠ 0 ∧ n ≠ 0 ∧
      k = a + (sgn (a.dot u) * m * w / (n * kappa.dot kappa)) • kappa := by
  unfold rulingsIncidentEffective
  simp only [Option.bind_eq_bind, Option.bind_some, Option.bind_eq_some_iff, div?_eq_some]
  constructor
  · rintro ⟨_, ⟨h, rfl⟩, _, ⟨-, rfl⟩, _, ⟨-, rfl⟩, h'⟩
    rw [incidentEffective_eq_some] at h'
    obtain ⟨h2, rfl⟩ := h'
    refine ⟨h, left_ne_zero_of_mul h2, ?_⟩
    rw [← V3.len_sq]
    apply V3.ext <;> vsimp <;> field_simp
  · rintro ⟨h, hn, rfl⟩
    refine ⟨_, ⟨h, rfl⟩, _, ⟨h, rfl⟩, _, ⟨h, rfl⟩, ?_⟩
    rw [incidentEffective_eq_some]
    refine ⟨mul_ne_zero hn h, ?_⟩
    rw [← V3.len_sq]
    apply V3.ext <;> vsimp <;> field_simp

theorem cross_cross_unit {n v : V3} (hn : n.dot n = 1) : (n.cross v).cross n = v.tang n := by
  have h : n.x * n.x + n.y * n.y + n.z * n.z = 1 := hn
  apply V3.ext <;> vsimp <;> simp only [dot]
  · linear_combination v.x * h
  · linear_combination v.y * h
  · linear_combination v.z * h

theorem cross_dot_self_unit {n v : V3} (hn : n.dot n = 1) :
    (n.cross v).dot (n.cross v) = (v.tang n).dot (v.tang n) := by
  have h : n.x * n.x + n.y * n.y + n.z * n.z = 1 := hn
  have : (n.cross v).dot (n.cross v) - (v.tang n).dot (v.tang n)
      = (n.dot n - 1) * v.dot v - (v.dot n) ^ 2 * (n.dot n - 1) := by
    simp only [dot]; vsimp; simp only [dot]; ring
  rw [hn] at this
  linarith

/-- Closed form of the holographic ruling vector: `λ τ / |τ|²` with `τ` the tangential part of
the difference of the two recording beams. -/
theorem holographicSpacing_eq_some {x1 x2 : V3} {wl : ℝ} {d1 d2 : Bool} {p n k : V3}
    (hn : n.dot n = 1) :
    holographicSpacing x1 x2 wl d1 d2 p n = some k ↔
      ∃ e1 e2, normalized? (p - x1) = some e1 ∧ normalized? (p - x2) = some e2 ∧
        let τ := ((if d1 then (1 : ℝ) else -1) • e1 - (if d2 then (1 : ℝ) else -1) • e2).tang n
        τ.dot τ ≠ 0 ∧ k = (wl / τ.dot τ) • τ := by
  unfold holographicSpacing
  simp only [Option.bind_eq_bind, Option.bind_eq_some_iff, Option.pure_def, Option.some.injEq]
  have hc : ∀ d : Bool, (2 * (if d then (1 : ℝ) else 0) - 1) = (if d then (1 : ℝ) else -1) := by
    intro d; cases d <;> norm_num
  simp only [hc]
  have lene : ∀ v : V3, v.len = 0 ↔ v.dot v = 0 := by
    intro v; unfold V3.len; rw [Real.sqrt_eq_zero v.dot_self_nonneg]
  constructor
  · rintro ⟨e1, h1, e2, h2, q, hq, s, hs, rfl⟩
    refine ⟨e1, e2, h1, h2, ?_⟩
    obtain ⟨hq0, rfl⟩ := normalized?_eq_some.1 hq
    obtain ⟨-, rfl⟩ := div?_eq_some.1 hs
    have hl := V3.len_sq (n.cross ((if d1 then (1 : ℝ) else -1) • e1
      - (if d2 then (1 : ℝ) else -1) • e2))
    rw [cross_dot_self_unit hn] at hl
    have hcc := cross_cross_unit (v := ((if d1 then (1 : ℝ) else -1) • e1
      - (if d2 then (1 : ℝ) else -1) • e2)) hn
    generalize n.cross ((if d1 then (1 : ℝ) else -1) • e1
      - (if d2 then (1 : ℝ) else -1) • e2) = c at *
    generalize V3.tang ((if d1 then (1 : ℝ) else -1) • e1
      - (if d2 then (1 : ℝ) else -1) • e2) n = τ at *
    have h0 : τ.dot τ ≠ 0 := by rw [← hl]; exact mul_ne_zero hq0 hq0
    refine ⟨h0, ?_⟩
    rw [← hl, ← hcc]
    apply V3.ext <;> vsimp <;> field_simp
  · rintro ⟨e1, e2, h1, h2, h0, rfl⟩
    have hl := V3.len_sq (n.cross ((if d1 then (1 : ℝ) else -1) • e1
      - (if d2 then (1 : ℝ) else -1) • e2))
    rw [cross_dot_self_unit hn] at hl
    have hcc := cross_cross_unit (v := ((if d1 then (1 : ℝ) else -1) • e1
      - (if d2 then (1 : ℝ) else -1) • e2)) hn
    have hq0 : (n.cross ((if d1 then (1 : ℝ) else -1) • e1
      - (if d2 then (1 : ℝ) else -1) • e2)).len ≠ 0 := by
      intro h; rw [h] at hl; apply h0; rw [← hl]; ring
    refine ⟨e1, h1, e2, h2, _, normalized?_eq_some.2 ⟨hq0, rfl⟩, _, div?_eq_some.2 ⟨hq0, rfl⟩, ?_⟩
    rw [← hl, ← hcc]
    generalize n.cross ((if d1 then (1 : ℝ) else -1) • e1
      - (if d2 then (1 : ℝ) else -1) • e2) = c at *
    apply V3.ext <;> vsimp <;> field_simp

end Optika
