import Verif.Props.Spacing
import Verif.Props.SurfaceOptics
import Verif.Props.Rulings

/-!
# C07 on a surface
-/

namespace Optika
open V3

/-- **C07** on a surface: a mirror with holographic rulings sends the light of the first recording point to the second
one in first order and vacuum, wherever it strikes and however the surface is placed, whatever the transformation of
the rulings.  `n` is the normal where the ray strikes, which is between the two recording points seen from the
surface; the two beams are not on top of each other there (`C07_specular_point_counterexample`,
`C07_with_normal_counterexample`). -/
theorem C07_surface_partial {s : Surface} {ru : RulingProfile} {x1 x2 : V3} {wl : ℝ} {t : Option (V3 → V3)} {r out : Ray}
    (hr : s.rulings = some ru) (hsp : ru.spacing = (RulingSpacing.holographic x1 x2 wl true false t).call)
    (ho : ru.order = 1) (hm : s.material.isMirror = true) (hwl : 0 < wl) (hw : r.wavelength = wl) (hi : r.index = 1)
    (hio : out.index = 1) (h : s.propagate r = some out) {n : V3}
    (hn : s.sag.normal (s.frame.ipoint out.position) = some n) (hnn : n.dot n = 1)
    (hd : r.direction.dot r.direction = 1)
    (hfrom : ∃ k : ℝ, 0 < k ∧ out.position = s.frame.point x1 + k • r.direction)
    (hx1 : r.direction.dot (s.frame.vec n) < 0) (hx2 : 0 < (s.frame.point x2 - out.position).dot (s.frame.vec n))
    (hne : r.direction.tang (s.frame.vec n)
      ≠ ((1 / (s.frame.point x2 - out.position).len) • (s.frame.point x2 - out.position)).tang (s.frame.vec n)) :
    out.position + (s.frame.point x2 - out.position).len • out.direction = s.frame.point x2 := by
  obtain ⟨u, hu, hb⟩ := surface_ruled h hr
  rw [hn, Option.some.injEq] at hu
  subst hu
  obtain ⟨k, hk, hout⟩ := hfrom
  set g := s.frame with hg
  set p := g.ipoint out.position with hp
  have hpo : g.point p = out.position := by rw [hp, Rigid.point_ipoint]
  have hdd : (g.ivec r.direction).dot (g.ivec r.direction) = 1 := by rw [Rigid.ivec_dot_ivec, hd]
  have hp1 : p - x1 = k • g.ivec r.direction := by
    rw [hp, hout, Rigid.ipoint_add_smul, Rigid.ipoint_point]; vring
  have hl1 : (p - x1).len = k := by
    rw [hp1]
    unfold len
    rw [smul_dot, dot_smul, hdd]
    rw [show k * (k * 1) = k ^ 2 by ring, Real.sqrt_sq hk.le]
  have hn1 : normalized? (p - x1) = some (g.ivec r.direction) := by
    rw [normalized?_eq_some]
    refine ⟨by rw [hl1]; exact hk.ne', ?_⟩
    rw [hl1, hp1]
    ext <;> vsimp <;> field_simp
  have hdot : ∀ v w : V3, v.dot (g.vec w) = (g.ivec v).dot w := by
    intro v w
    rw [← Rigid.vec_dot_vec g (g.ivec v) w, Rigid.vec_ivec]
  have hsub : g.point x2 - out.position = g.vec (x2 - p) := by rw [← hpo, Rigid.point_sub_point]
  have hlen : (g.point x2 - out.position).len = (x2 - p).len := by rw [hsub, Rigid.vec_len]
  have hA : (p - x1).dot n < 0 := by
    rw [hp1, smul_dot]
    rw [hdot] at hx1
    exact mul_neg_of_pos_of_neg hk hx1
  have hB : 0 < (x2 - p).dot n := by
    rw [hsub, Rigid.vec_dot_vec] at hx2
    exact hx2
  have hC : ∀ e2, normalized? (x2 - p) = some e2 → (g.ivec r.direction).tang n ≠ e2.tang n := by
    intro e2 he2 heq
    obtain ⟨-, rfl⟩ := normalized?_eq_some.1 he2
    apply hne
    have htang : ∀ v w : V3, (g.vec v).tang (g.vec w) = g.vec (v.tang w) := by
      intro v w
      unfold tang
      rw [Rigid.vec_dot_vec]
      simp only [Rigid.vec, M3.mulVec_sub, M3.mulVec_smul]
    have e1 : r.direction = g.vec (g.ivec r.direction) := by rw [Rigid.vec_ivec]
    have e2 : (1 / (g.point x2 - out.position).len) • (g.point x2 - out.position)
        = g.vec ((1 / (x2 - p).len) • (x2 - p)) := by
      rw [hlen, hsub]
      simp only [Rigid.vec, M3.mulVec_smul]
    rw [e2, htang]
    conv_lhs => rw [e1]
    rw [htang, heq]
  obtain ⟨b, hb1, hb2⟩ := C07_stigmatic_partial hnn hwl hn1 hA hB hC
  rw [hsp, ho, hw, hi, hio, hm] at hb
  have hbb : g.ivec out.direction = b := by
    have e : (holographicSpacing x1 x2 wl true false p n).bind (fun kappa =>
        (rulingsIncidentEffective (some kappa) 1 wl (g.ivec r.direction) 1 n).bind fun k =>
          snellsLaw k 1 1 true n) = some (g.ivec out.direction) := by
      rw [← hb]
      show _ = (rulingsIncidentEffective (holographicSpacing x1 x2 wl true false p n) 1 wl (g.ivec r.direction) 1 n).bind _
      cases holographicSpacing x1 x2 wl true false p n with
      | none => rfl
      | some kappa => rfl
    rw [e, Option.some.injEq] at hb1
    exact hb1
  rw [hlen]
  have := congrArg g.point hb2
  rw [Rigid.point_add_smul, hpo, ← hbb, Rigid.vec_ivec] at this
  exact this

/-- Non-vacuity: the light of `(3, 0, -4)` strikes a plane hologram at the origin. -/
example : ∃ out, (⟨flatSag, mirror, none,
      some ⟨(RulingSpacing.holographic ⟨3, 0, -4⟩ ⟨5, 0, -12⟩ 1 true false none).call, 1, fun _ _ => some 1⟩, none⟩ : Surface).propagate
        ⟨1, ⟨3, 0, -4⟩, ⟨-3 / 5, 0, 4 / 5⟩, 1, 0, 1, true⟩ = some out ∧ out.position = 0 ∧ out.index = 1 := by
  have l1 : ((⟨0, 0, 0⟩ : V3) - ⟨3, 0, -4⟩).len = 5 := by
    unfold len; rw [show ((⟨0, 0, 0⟩ : V3) - ⟨3, 0, -4⟩).dot (⟨0, 0, 0⟩ - ⟨3, 0, -4⟩) = 5 ^ 2 by
      simp [dot]; norm_num]
    exact Real.sqrt_sq (by norm_num)
  obtain ⟨b, hb, -⟩ := C07_stigmatic_partial (x1 := ⟨3, 0, -4⟩) (x2 := ⟨5, 0, -12⟩) (p := ⟨0, 0, 0⟩) (u := ⟨0, 0, -1⟩)
    (e1 := ⟨-3 / 5, 0, 4 / 5⟩) (wl := 1) (by simp [dot]) one_pos
    (by
      rw [normalized?_eq_some, l1]
      refine ⟨by norm_num, ?_⟩
      apply V3.ext <;> vsimp <;> norm_num)
    (by simp [dot]) (by simp [dot])
    (by
      intro e2 he h
      obtain ⟨hl, rfl⟩ := normalized?_eq_some.1 he
      have hp : 0 < ((⟨5, 0, -12⟩ : V3) - ⟨0, 0, 0⟩).len := lt_of_le_of_ne (V3.len_nonneg _) (Ne.symm hl)
      have hx := congrArg V3.x h
      simp only [tang, sub_x, smul_x, dot, smul_y, smul_z] at hx
      norm_num at hx
      have h5 : 0 < ((⟨5, 0, -12⟩ : V3) - ⟨0, 0, 0⟩).len⁻¹ := by positivity
      linarith)
  simp only [Option.bind_eq_some_iff] at hb
  obtain ⟨kappa, hk, k, hk', hb⟩ := hb
  have hq : flatIntercept ⟨3, 0, -4⟩ ⟨-3 / 5, 0, 4 / 5⟩ = some ⟨0, 0, 0⟩ := by
    simp only [flatIntercept, div?, Option.bind_eq_bind]
    norm_num
  refine ⟨⟨1, ⟨0, 0, 0⟩, b, Real.exp (-0 * ((⟨0, 0, 0⟩ : V3) - ⟨3, 0, -4⟩).len) * 1 * (1 * 1), 0, 1, true⟩, ?_, rfl, rfl⟩
  simp only [Surface.propagate, Surface.propagateLocal, Sag.propagate, flatSag, hq, Surface.interact, Surface.effectiveRay,
    Surface.rulingFactor, Surface.clip, flatNormal, RulingSpacing.call, mirror, hk, hk', hb, div?, Option.bind_eq_bind,
    Option.bind_some, Option.map_some, Option.pure_def, one_ne_zero, if_false, div_one]

end Optika
