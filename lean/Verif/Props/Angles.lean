import Verif.Model.System
import Verif.Lemmas.Apertures
import Mathlib.Analysis.Real.Pi.Bounds

/-!
# C21: conversion between directions and field angles
-/

namespace Optika
open V3 Real

/-- **C21**: the direction of any pair of angles is a unit vector. -/
theorem C21_unit (a : V2) : (directionOf a).dot (directionOf a) = 1 := by
  simp only [directionOf, dot]
  have h1 := sin_sq_add_cos_sq a.x
  have h2 := sin_sq_add_cos_sq a.y
  nlinarith [h1, h2]

theorem len_directionOf (a : V2) : (directionOf a).len = 1 := by
  unfold len; rw [C21_unit]; simp

/-- **C21**: `angles` undoes `direction` for every azimuth in `[-π, π)` and every elevation in
the open interval `(-π/2, π/2)`. -/
theorem C21_angles_direction (a : V2) (hx : -π ≤ a.x ∧ a.x < π)
    (hy : -(π / 2) < a.y ∧ a.y < π / 2) : anglesOf (directionOf a) = some a := by
  have hc : 0 < cos a.y := cos_pos_of_mem_Ioo ⟨hy.1, hy.2⟩
  have harg : arctan2 (-cos a.y * sin a.x) (cos a.y * cos a.x) = -a.x := by
    have e : (⟨cos a.y * cos a.x, -cos a.y * sin a.x⟩ : ℂ) =
        (cos a.y : ℝ) * (Complex.cos (-a.x : ℝ) + Complex.sin (-a.x : ℝ) * Complex.I) := by
      apply Complex.ext <;>
        simp [Complex.cos_ofReal_re, Complex.sin_ofReal_re]
    unfold arctan2
    rw [e]
    apply Complex.arg_mul_cos_add_sin_mul_I hc
    constructor <;> linarith [hx.1, hx.2]
  unfold anglesOf
  rw [len_directionOf, div?_of_ne one_ne_zero]
  simp only [directionOf, Option.bind_eq_bind, Option.bind_some, Option.pure_def, Option.some.injEq,
    div_one, harg, neg_neg]
  apply V2.ext
  · rfl
  · simp only [arcsin_neg, neg_neg]
    exact arcsin_sin hy.1.le hy.2.le

example : anglesOf (directionOf ⟨2, -1⟩) = some ⟨2, -1⟩ := by
  have := pi_gt_three
  exact C21_angles_direction _ ⟨by simp; linarith, by simp; linarith⟩
    ⟨by simp; linarith, by simp; linarith⟩

/-- **C21**: `direction` undoes `angles` up to normalization, for every vector other than zero
(the poles along `y` included). -/
theorem C21_direction_angles (d : V3) (hd : d ≠ 0) :
    ∃ a, anglesOf d = some a ∧ directionOf a = (1 / d.len) • d := by
  have hL : d.len ≠ 0 := by
    intro h
    apply hd
    apply dot_self_eq_zero
    rw [← len_sq, h, mul_zero]
  have hLp : 0 < d.len := lt_of_le_of_ne (len_nonneg d) (Ne.symm hL)
  have hsq := len_sq d
  simp only [dot] at hsq
  refine ⟨⟨-arctan2 d.x d.z, -arcsin (d.y / d.len)⟩, ?_, ?_⟩
  · unfold anglesOf; rw [div?_of_ne hL]; rfl
  obtain ⟨R, hR, hR2, hz, hx⟩ := polar d.z d.x
  have hb : |d.y / d.len| ≤ 1 := by
    rw [abs_div, abs_of_pos hLp, div_le_one hLp]
    apply abs_le_of_sq_le_sq _ hLp.le
    nlinarith [sq_nonneg d.x, sq_nonneg d.z]
  obtain ⟨hb1, hb2⟩ := abs_le.1 hb
  have hcos : cos (arcsin (d.y / d.len)) = R / d.len := by
    rw [cos_arcsin]
    rw [show 1 - (d.y / d.len) ^ 2 = (R / d.len) ^ 2 by
      field_simp; rw [hR2]; nlinarith]
    exact sqrt_sq (div_nonneg hR hLp.le)
  apply V3.ext
  · simp only [directionOf, cos_neg, sin_neg, hcos, smul_x]
    conv_rhs => rw [hx]
    ring
  · simp only [directionOf, sin_neg, neg_neg, smul_y, sin_arcsin hb1 hb2]
    ring
  · simp only [directionOf, cos_neg, hcos, smul_z]
    conv_rhs => rw [hz]
    ring

/-- **C21**: only the zero vector has no angles. -/
theorem C21_angles_defined (d : V3) : anglesOf d = none ↔ d = 0 := by
  constructor
  · intro h
    by_contra hd
    obtain ⟨a, ha, -⟩ := C21_direction_angles d hd
    rw [h] at ha; exact absurd ha (by simp)
  · rintro rfl
    have : (0 : V3).len = 0 := by simp [len, dot]
    simp [anglesOf, div?, this]

/-- The angles returned are always in range, so that a direction has exactly one pair of
angles in range away from the poles. -/
theorem C21_range (d : V3) (a : V2) (h : anglesOf d = some a) :
    (-π ≤ a.x ∧ a.x < π) ∧ (-(π / 2) ≤ a.y ∧ a.y ≤ π / 2) := by
  unfold anglesOf at h
  simp only [Option.bind_eq_bind, Option.bind_eq_some_iff, Option.pure_def, Option.some.injEq] at h
  obtain ⟨s, -, rfl⟩ := h
  have h1 := arctan2_range d.x d.z
  have h2 := arcsin_le_pi_div_two s
  have h3 := neg_pi_div_two_le_arcsin s
  exact ⟨⟨by simp; linarith, by simp; linarith⟩, ⟨by simp; linarith, by simp; linarith⟩⟩

end Optika
