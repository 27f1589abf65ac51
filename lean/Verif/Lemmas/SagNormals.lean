import Verif.Lemmas.Sags
import Verif.Spec.Surface
import Mathlib.Analysis.SpecialFunctions.Sqrt
import Mathlib.Analysis.Calculus.Deriv.Inv
import Mathlib.Analysis.Calculus.Deriv.Pow
import Mathlib.Analysis.Calculus.Deriv.Add

/-! Helper lemmas for the normal vectors: slopes of the sag functions. -/

namespace Optika
open V3 Filter Topology

/-- The conic profile as a function of the squared distance to the axis. -/
theorem conic_profile_hasDerivAt {c κ ρ : ℝ} (hG : 0 < 1 - κ * ρ) :
    HasDerivAt (fun ρ => c * ρ / (1 + Real.sqrt (1 - κ * ρ)))
      (c / (2 * Real.sqrt (1 - κ * ρ))) ρ := by
  have h1 : HasDerivAt (fun ρ => 1 - κ * ρ) (-κ) ρ := by
    simpa using ((hasDerivAt_id ρ).const_mul κ).const_sub 1
  have h2 := h1.sqrt hG.ne'
  have h3 := h2.const_add 1
  have h4 : HasDerivAt (fun ρ => c * ρ) c ρ := by simpa using (hasDerivAt_id ρ).const_mul c
  have hs : 0 < Real.sqrt (1 - κ * ρ) := Real.sqrt_pos.2 hG
  have h5 := h4.div h3 (by positivity)
  refine h5.congr_deriv ?_
  have hss := Real.sq_sqrt hG.le
  generalize Real.sqrt (1 - κ * ρ) = s at *
  field_simp
  linear_combination c * hss

theorem conicHeight_of_pos {R k : ℝ} {p : V3} (hR : R ≠ 0)
    (hG : 0 ≤ 1 - (1 + k) * (1 / R) ^ 2 * (p.x ^ 2 + p.y ^ 2)) :
    conicHeight R k p = some ((1 / R) * (p.x ^ 2 + p.y ^ 2) /
      (1 + Real.sqrt (1 - (1 + k) * (1 / R) ^ 2 * (p.x ^ 2 + p.y ^ 2)))) := by
  unfold conicHeight
  rw [div?_of_ne hR]
  simp only [Option.bind_eq_bind, Option.bind_some]
  rw [sqrt?_of_nonneg hG]
  simp only [Option.bind_some]
  rw [div?_of_ne]
  have := Real.sqrt_nonneg (1 - (1 + k) * (1 / R) ^ 2 * (p.x ^ 2 + p.y ^ 2))
  positivity

theorem conic_slopeX {R k : ℝ} {p : V3} (hR : R ≠ 0)
    (hG : 0 < 1 - (1 + k) * (1 / R) ^ 2 * (p.x ^ 2 + p.y ^ 2)) :
    HasSlopeX (conicHeight R k) p ((1 / R) * p.x /
      Real.sqrt (1 - (1 + k) * (1 / R) ^ 2 * (p.x ^ 2 + p.y ^ 2))) := by
  refine ⟨fun s => (1 / R) * (s ^ 2 + p.y ^ 2) /
      (1 + Real.sqrt (1 - (1 + k) * (1 / R) ^ 2 * (s ^ 2 + p.y ^ 2))), ?_, ?_⟩
  · have hc : ContinuousAt (fun s => 1 - (1 + k) * (1 / R) ^ 2 * (s ^ 2 + p.y ^ 2)) p.x := by
      fun_prop
    filter_upwards [hc.eventually (lt_mem_nhds hG)] with s hs
    exact conicHeight_of_pos (p := ⟨s, p.y, p.z⟩) hR hs.le
  · have h1 : HasDerivAt (fun s : ℝ => s ^ 2 + p.y ^ 2) (2 * p.x) p.x := by
      simpa using (hasDerivAt_pow 2 p.x).add_const (p.y ^ 2)
    have h2 := (conic_profile_hasDerivAt (c := 1 / R) hG).comp p.x h1
    refine h2.congr_deriv ?_
    have hs := Real.sqrt_pos.2 hG
    generalize Real.sqrt (1 - (1 + k) * (1 / R) ^ 2 * (p.x ^ 2 + p.y ^ 2)) = s at *
    field_simp

theorem conic_slopeY {R k : ℝ} {p : V3} (hR : R ≠ 0)
    (hG : 0 < 1 - (1 + k) * (1 / R) ^ 2 * (p.x ^ 2 + p.y ^ 2)) :
    HasSlopeY (conicHeight R k) p ((1 / R) * p.y /
      Real.sqrt (1 - (1 + k) * (1 / R) ^ 2 * (p.x ^ 2 + p.y ^ 2))) := by
  refine ⟨fun s => (1 / R) * (p.x ^ 2 + s ^ 2) /
      (1 + Real.sqrt (1 - (1 + k) * (1 / R) ^ 2 * (p.x ^ 2 + s ^ 2))), ?_, ?_⟩
  · have hc : ContinuousAt (fun s => 1 - (1 + k) * (1 / R) ^ 2 * (p.x ^ 2 + s ^ 2)) p.y := by
      fun_prop
    filter_upwards [hc.eventually (lt_mem_nhds hG)] with s hs
    exact conicHeight_of_pos (p := ⟨p.x, s, p.z⟩) hR hs.le
  · have h1 : HasDerivAt (fun s : ℝ => p.x ^ 2 + s ^ 2) (2 * p.y) p.y := by
      simpa using (hasDerivAt_pow 2 p.y).const_add (p.x ^ 2)
    have h2 := (conic_profile_hasDerivAt (c := 1 / R) hG).comp p.y h1
    refine h2.congr_deriv ?_
    have hs := Real.sqrt_pos.2 hG
    generalize Real.sqrt (1 - (1 + k) * (1 / R) ^ 2 * (p.x ^ 2 + p.y ^ 2)) = s at *
    field_simp

/-- The normal computed by normalising `(∂z/∂x, ∂z/∂y, -1)` is a graph normal. -/
theorem isGraphNormal_of_slopes {height : V3 → Option ℝ} {p : V3} {dx dy : ℝ}
    (hx : HasSlopeX height p dx) (hy : HasSlopeY height p dy) {n : V3}
    (hn : n = (1 / (⟨dx, dy, -1⟩ : V3).len) • (⟨dx, dy, -1⟩ : V3)) :
    IsGraphNormal height p n := by
  have hpos : 0 < (⟨dx, dy, -1⟩ : V3).len := by
    unfold len; apply Real.sqrt_pos.2; simp only [dot]; nlinarith [sq_nonneg dx, sq_nonneg dy]
  have hl := len_sq ⟨dx, dy, -1⟩
  subst hn
  generalize (⟨dx, dy, -1⟩ : V3).len = l at *
  simp only [dot] at hl
  refine ⟨?_, ?_, dx, dy, hx, hy, ?_, ?_⟩
  · simp only [dot]; vsimp; field_simp; linarith
  · vsimp; have : 0 < 1 / l := by positivity
    nlinarith
  · simp only [dot]; vsimp; ring
  · simp only [dot]; vsimp; ring

/-- The length of the vector normalised by the sags. -/
theorem len_slope_pos (dx dy : ℝ) : 0 < (⟨dx, dy, -1⟩ : V3).len := by
  unfold len; apply Real.sqrt_pos.2; simp only [dot]; nlinarith [sq_nonneg dx, sq_nonneg dy]

/-- The three quotients of the normalisation. -/
theorem normalise_slopes {dx dy l : ℝ} {n : V3} (hl : l = (⟨dx, dy, -1⟩ : V3).len)
    (h : (do let nx ← div? dx l; let ny ← div? dy l; let nz ← div? (-1) l
             return (⟨nx, ny, nz⟩ : V3)) = some n) :
    n = (1 / l) • (⟨dx, dy, -1⟩ : V3) := by
  have hl0 : l ≠ 0 := by rw [hl]; exact (len_slope_pos dx dy).ne'
  rw [div?_of_ne hl0, div?_of_ne hl0, div?_of_ne hl0] at h
  simp only [Option.bind_eq_bind, Option.bind_some, Option.pure_def, Option.some.injEq] at h
  rw [← h]; vring

/-- A graph has only one downward unit normal. -/
theorem IsGraphNormal.unique {height : V3 → Option ℝ} {p n m : V3}
    (hn : IsGraphNormal height p n) (hm : IsGraphNormal height p m) : n = m := by
  obtain ⟨hn1, hn2, dx, dy, hx, hy, hnx, hny⟩ := hn
  obtain ⟨hm1, hm2, dx', dy', hx', hy', hmx, hmy⟩ := hm
  have ex : dx = dx' := by
    obtain ⟨h, h1, h2⟩ := hx
    obtain ⟨h', h1', h2'⟩ := hx'
    have : h =ᶠ[𝓝 p.x] h' := by
      filter_upwards [h1, h1'] with s hs hs'
      rw [hs] at hs'; simpa using hs'
    exact (h2.congr_of_eventuallyEq this.symm).unique h2'
  have ey : dy = dy' := by
    obtain ⟨h, h1, h2⟩ := hy
    obtain ⟨h', h1', h2'⟩ := hy'
    have : h =ᶠ[𝓝 p.y] h' := by
      filter_upwards [h1, h1'] with s hs hs'
      rw [hs] at hs'; simpa using hs'
    exact (h2.congr_of_eventuallyEq this.symm).unique h2'
  subst ex ey
  simp only [dot] at *
  have a1 : n.x = -(n.z * dx) := by linarith
  have a2 : n.y = -(n.z * dy) := by linarith
  have b1 : m.x = -(m.z * dx) := by linarith
  have b2 : m.y = -(m.z * dy) := by linarith
  have ez : n.z = m.z := by
    rw [a1, a2] at hn1
    rw [b1, b2] at hm1
    have hk : 0 < 1 + dx ^ 2 + dy ^ 2 := by positivity
    have hn3 : n.z ^ 2 * (1 + dx ^ 2 + dy ^ 2) = 1 := by linarith
    have hm3 : m.z ^ 2 * (1 + dx ^ 2 + dy ^ 2) = 1 := by linarith
    have : (n.z - m.z) * (n.z + m.z) = 0 := by
      have : (n.z - m.z) * (n.z + m.z) * (1 + dx ^ 2 + dy ^ 2) = 0 := by linarith
      rcases mul_eq_zero.1 this with h | h
      · exact h
      · exact absurd h hk.ne'
    rcases mul_eq_zero.1 this with h | h
    · linarith
    · linarith
  ext
  · rw [a1, b1, ez]
  · rw [a2, b2, ez]
  · exact ez

end Optika
