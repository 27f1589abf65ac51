import Verif.Props.Conics
import Verif.Props.Symmetry

/-!
# C83: parallel plane boundaries refract like a single one
-/

namespace Optika
open V3

/-- A material light goes through, whose index is positive. -/
def Material.Clear (m : Material) : Prop :=
  m.isMirror = false ∧ ∀ q n, m.index q = some n → 0 < n

theorem PhaseMatched.neg_normal {a b : V3} {n1 n2 : ℝ} {u : V3} (h : PhaseMatched a b n1 n2 (-u) 0) :
    PhaseMatched a b n1 n2 u 0 := by
  have key : ∀ v : V3, v.tang (-u) = v.tang u := by
    intro v
    unfold V3.tang
    have : v.dot (-u) = -(v.dot u) := by simp only [V3.dot, neg_x, neg_y, neg_z]; ring
    rw [this]; vring
  exact ⟨h.unit, by rw [← key b, ← key a]; exact h.tangential⟩

/-- One plane boundary. -/
theorem flatSurface_step {w : V3} {m : Material} {g : Rigid} {r mid : Ray} (hm : m.Clear)
    (hg : g.vec ⟨0, 0, 1⟩ = w ∨ g.vec ⟨0, 0, 1⟩ = -w) (hi : 0 < r.index)
    (h : (flatSurface m g).propagate r = some mid) :
    PhaseMatched r.direction mid.direction r.index mid.index w 0 ∧ SameSide r.direction mid.direction w ∧
      r.direction.dot w ≠ 0 ∧ 0 < mid.index := by
  obtain ⟨u, hu, hsn⟩ := surface_plain h rfl
  have hu' : u = ⟨0, 0, -1⟩ := by
    have : some (⟨0, 0, -1⟩ : V3) = some u := hu
    rw [Option.some.injEq] at this; exact this.symm
  subst hu'
  have hf : (flatSurface m g).frame = g := rfl
  rw [hf, show (flatSurface m g).material.isMirror = false from hm.1] at hsn
  have hloc := h
  simp only [flatSurface, Surface.propagate, Option.map_eq_some_iff] at hloc
  obtain ⟨o, ho, rfl⟩ := hloc
  obtain ⟨q, normal, r1, n2, b, e1, e2, att, hq, hn, heff, hp, hw, hi', ha, hv, hI, hn2, -, hr0, hb,
    he1, he2, hatt, ow, op, od, oI, oa, oi, -⟩ := propagateLocal_eq_some ho
  have hpos : 0 < (o.move g).index := by
    show 0 < o.index
    rw [oi]; exact hm.2 _ _ hn2
  have hz : (g.ivec r.direction).z ≠ 0 := by
    have : flatIntercept (g.ipoint r.position) (g.ivec r.direction) = some q := hq
    unfold flatIntercept at this
    simp only [Option.bind_eq_bind, Option.bind_eq_some_iff, div?_eq_some] at this
    obtain ⟨d, ⟨h0, -⟩, -⟩ := this
    exact h0
  have hau : (g.ivec r.direction).dot ⟨0, 0, -1⟩ ≠ 0 := by
    simp only [V3.dot]; intro h0; exact hz (by linarith)
  have hsn' := C16_snell g (g.ivec r.direction) r.index (o.move g).index false ⟨0, 0, -1⟩
  rw [hsn, g.vec_ivec] at hsn'
  simp only [Option.map_some, g.vec_ivec] at hsn'
  have hau' : r.direction.dot (g.vec ⟨0, 0, -1⟩) ≠ 0 := by
    rw [← g.vec_ivec r.direction, g.vec_dot_vec]; exact hau
  have hunit : (g.vec ⟨0, 0, -1⟩).dot (g.vec ⟨0, 0, -1⟩) = 1 := by
    rw [g.vec_dot_vec]; norm_num [V3.dot]
  obtain ⟨hph, hside⟩ := (snellsLaw_iff false hunit hi hpos hau' _).1 hsn'
  simp only [Bool.false_eq_true, if_false] at hside
  have hneg : g.vec ⟨0, 0, -1⟩ = -(g.vec ⟨0, 0, 1⟩) := by
    have e : (⟨0, 0, -1⟩ : V3) = (-1 : ℝ) • ⟨0, 0, 1⟩ := by vring
    rw [e]
    show g.rot.mulVec _ = -(g.rot.mulVec _)
    rw [M3.mulVec_smul]; vring
  have hw' : g.vec ⟨0, 0, -1⟩ = w ∨ g.vec ⟨0, 0, -1⟩ = -w := by
    rcases hg with h | h
    · right; rw [hneg, h]
    · left; rw [hneg, h]; vring
  have hdn : ∀ v : V3, v.dot (-w) = -(v.dot w) := by
    intro v; simp only [V3.dot, neg_x, neg_y, neg_z]; ring
  rcases hw' with h | h
  · rw [h] at hph hside hau'
    exact ⟨hph, hside, hau', hpos⟩
  · rw [h] at hph hside hau'
    refine ⟨hph.neg_normal, ?_, ?_, hpos⟩
    · unfold SameSide at hside ⊢
      rw [hdn, hdn] at hside; linarith
    · rw [hdn] at hau'; exact fun h0 => hau' (by rw [h0, neg_zero])

/-- **C83**: light that goes through any number of plane boundaries parallel to each other, at any
distances and between any media, has the direction that a single boundary between the first and the last
medium would give it. -/
theorem C83_plates {w : V3} (hw : w.dot w = 1) {ps : List (Material × Rigid)} (hps : ps ≠ [])
    (hclear : ∀ p ∈ ps, p.1.Clear)
    (hpar : ∀ p ∈ ps, p.2.vec ⟨0, 0, 1⟩ = w ∨ p.2.vec ⟨0, 0, 1⟩ = -w) {r out : Ray} (hi : 0 < r.index)
    (h : propagateSurfaces (ps.map fun p => flatSurface p.1 p.2) r = some out) :
    snellsLaw r.direction r.index out.index false w = some out.direction := by
  have key : ∀ (ps : List (Material × Rigid)), ps ≠ [] → (∀ p ∈ ps, p.1.Clear) →
      (∀ p ∈ ps, p.2.vec ⟨0, 0, 1⟩ = w ∨ p.2.vec ⟨0, 0, 1⟩ = -w) → ∀ r : Ray, 0 < r.index →
      propagateSurfaces (ps.map fun p => flatSurface p.1 p.2) r = some out →
      PhaseMatched r.direction out.direction r.index out.index w 0 ∧
        SameSide r.direction out.direction w ∧ r.direction.dot w ≠ 0 ∧ 0 < out.index := by
    intro ps
    induction ps with
    | nil => intro h0; exact absurd rfl h0
    | cons p ps ih =>
      intro _ hclear hpar r hi h
      rw [List.map_cons, propagateSurfaces_cons] at h
      obtain ⟨mid, hmid, h⟩ := Option.bind_eq_some_iff.1 h
      obtain ⟨h1, h2, h3, h4⟩ := flatSurface_step (hclear p (by simp)) (hpar p (by simp)) hi hmid
      by_cases hnil : ps = []
      · subst hnil
        rw [List.map_nil, propagateSurfaces_nil, Option.some.injEq] at h
        subst h
        exact ⟨h1, h2, h3, h4⟩
      · obtain ⟨k1, k2, k3, k4⟩ := ih hnil (fun q hq => hclear q (by simp [hq]))
          (fun q hq => hpar q (by simp [hq])) mid h4 h
        refine ⟨⟨k1.unit, ?_⟩, ?_, h3, k4⟩
        · rw [k1.tangential, h1.tangential]; vring
        · unfold SameSide at h2 k2 ⊢
          by_contra hneg
          push Not at hneg
          have hm2 : 0 < (mid.direction.dot w) ^ 2 := by positivity
          nlinarith [mul_nonneg h2 k2]
  obtain ⟨h1, h2, h3, h4⟩ := key ps hps hclear hpar r hi h
  rw [snellsLaw_iff false hw hi h4 h3]
  exact ⟨h1, by simpa using h2⟩

/-- **C83**: a window, that is any number of parallel plates between equal media, does not change the
direction of light. -/
theorem C83_window {w : V3} (hw : w.dot w = 1) {ps : List (Material × Rigid)}
    (hclear : ∀ p ∈ ps, p.1.Clear)
    (hpar : ∀ p ∈ ps, p.2.vec ⟨0, 0, 1⟩ = w ∨ p.2.vec ⟨0, 0, 1⟩ = -w) {r out : Ray}
    (hdir : r.direction.dot r.direction = 1) (hi : 0 < r.index)
    (h : propagateSurfaces (ps.map fun p => flatSurface p.1 p.2) r = some out)
    (ho : out.index = r.index) : out.direction = r.direction := by
  by_cases hnil : ps = []
  · subst hnil
    rw [List.map_nil, propagateSurfaces_nil, Option.some.injEq] at h
    rw [h]
  · have hs := C83_plates hw hnil hclear hpar hi h
    rw [ho] at hs
    obtain ⟨-, -, h0, hb⟩ := snellsLaw_eq_some.1 hs
    rw [div_self hi.ne', hdir] at hb
    have e : (1 : ℝ) ^ 2 + r.direction.dot w ^ 2 - 1 = r.direction.dot w ^ 2 := by ring
    rw [e, Real.sqrt_sq_eq_abs] at hb
    have hc : copysign1 (r.direction.dot w) * |r.direction.dot w| = r.direction.dot w := by
      unfold copysign1
      split
      · rename_i h; rw [abs_of_neg h]; ring
      · rename_i h; push Not at h; rw [abs_of_nonneg h]; ring
    rw [hb]
    simp only [Bool.false_eq_true, if_false, one_mul]
    rw [hc]
    vring

/-- A single plane boundary to a clear glass sends a ray on that is not totally reflected. -/
theorem clearFlat_exists {n2 : ℝ} {g : Rigid} {r : Ray} (hn2 : 0 < n2) (hi : 0 < r.index)
    (hdir : r.direction.dot r.direction = 1) (hz : r.direction.dot (g.vec ⟨0, 0, 1⟩) ≠ 0)
    (ht : r.index ^ 2 * (1 - r.direction.dot (g.vec ⟨0, 0, 1⟩) ^ 2) < n2 ^ 2) :
    ∃ out, (flatSurface (clearGlass n2) g).propagate r = some out ∧ out.index = n2 := by
  have hdot : r.direction.dot (g.vec ⟨0, 0, 1⟩) = (g.ivec r.direction).z := by
    have : (g.ivec r.direction).dot ⟨0, 0, 1⟩ = (g.ivec r.direction).z := by simp [V3.dot]
    rw [← this, ← g.vec_dot_vec (g.ivec r.direction), g.vec_ivec]
  rw [hdot] at hz ht
  have hd : (g.ivec r.direction).dot (g.ivec r.direction) = 1 := by rw [g.ivec_dot_ivec, hdir]
  obtain ⟨q, hq⟩ : ∃ q, flatIntercept (g.ipoint r.position) (g.ivec r.direction) = some q := by
    unfold flatIntercept; rw [div?_of_ne hz]; exact ⟨_, rfl⟩
  obtain ⟨b, hb⟩ : ∃ b, snellsLaw (g.ivec r.direction) r.index n2 false ⟨0, 0, -1⟩ = some b := by
    refine ⟨_, snellsLaw_eq_some.2 ⟨hn2.ne', hi.ne', ?_, rfl⟩⟩
    have e : (g.ivec r.direction).dot ⟨0, 0, -1⟩ = -(g.ivec r.direction).z := by simp [V3.dot]
    rw [hd, e, div_pow, neg_sq]
    have : 1 - (g.ivec r.direction).z ^ 2 < n2 ^ 2 / r.index ^ 2 := by
      rw [lt_div_iff₀ (by positivity)]; linarith
    linarith
  have hn : flatNormal q = some ⟨0, 0, -1⟩ := rfl
  refine ⟨Ray.move g { r.unmove g with
      wavelength := r.wavelength / (r.index / n2)
      position := q
      direction := b
      intensity := Real.exp (-r.attenuation * (q - g.ipoint r.position).len) * r.intensity
      attenuation := 0
      index := n2 }, ?_, rfl⟩
  simp [flatSurface, flatSag, Surface.propagate, Surface.propagateLocal, Sag.propagate, Ray.unmove,
    hq, Surface.interact, hn, Surface.effectiveRay, clearGlass, hb, hi.ne', hn2.ne',
    Surface.rulingFactor, Surface.clip, div?]

/-- **C83**: light goes through parallel plates of clear glass unless the sine of its angle of incidence
is too large for one of them. -/
theorem C83_exists {w : V3} (hw : w.dot w = 1) (ps : List (ℝ × Rigid))
    (hpar : ∀ p ∈ ps, p.2.vec ⟨0, 0, 1⟩ = w ∨ p.2.vec ⟨0, 0, 1⟩ = -w) (hpos : ∀ p ∈ ps, 0 < p.1) {r : Ray}
    (hi : 0 < r.index) (hdir : r.direction.dot r.direction = 1) (hz : r.direction.dot w ≠ 0)
    (ht : ∀ p ∈ ps, r.index ^ 2 * (1 - r.direction.dot w ^ 2) < p.1 ^ 2) :
    ∃ out, propagateSurfaces (ps.map fun p => flatSurface (clearGlass p.1) p.2) r = some out ∧
      out.index = (ps.getLast?.map Prod.fst).getD r.index := by
  induction ps generalizing r with
  | nil => exact ⟨r, propagateSurfaces_nil r, by simp⟩
  | cons p ps ih =>
    have hsq : r.direction.dot (p.2.vec ⟨0, 0, 1⟩) ^ 2 = r.direction.dot w ^ 2 ∧
        r.direction.dot (p.2.vec ⟨0, 0, 1⟩) ≠ 0 := by
      rcases hpar p (by simp) with h | h
      · rw [h]; exact ⟨rfl, hz⟩
      · have : r.direction.dot (-w) = -(r.direction.dot w) := by
          simp only [V3.dot, neg_x, neg_y, neg_z]; ring
        rw [h, this]; exact ⟨neg_sq _, neg_ne_zero.2 hz⟩
    obtain ⟨mid, hmid, hmi⟩ := clearFlat_exists (g := p.2) (hpos p (by simp)) hi hdir hsq.2
      (by rw [hsq.1]; exact ht p (by simp))
    have hclear : (clearGlass p.1).Clear :=
      ⟨rfl, fun q n hn => by
        have : some p.1 = some n := hn
        rw [Option.some.injEq] at this
        rw [← this]; exact hpos p (by simp)⟩
    obtain ⟨h1, h2, h3, h4⟩ := flatSurface_step hclear (hpar p (by simp)) hi hmid
    have hconst : mid.index ^ 2 * (1 - mid.direction.dot w ^ 2) = r.index ^ 2 * (1 - r.direction.dot w ^ 2) := by
      have e : ∀ (k : ℝ) (v : V3), v.dot v = 1 →
          (k • v.tang w).dot (k • v.tang w) = k ^ 2 * (1 - (v.dot w) ^ 2) := by
        intro k v hv
        have : (k • v.tang w).dot (k • v.tang w) = k ^ 2 * (v.dot v - 2 * v.dot w ^ 2 + v.dot w ^ 2 * w.dot w) := by
          unfold V3.tang
          generalize hc : v.dot w = c
          simp only [V3.dot, smul_x, smul_y, smul_z, sub_x, sub_y, sub_z] at hc ⊢
          linear_combination (-2) * k ^ 2 * c * hc
        rw [this, hv, hw]; ring
      have h5 : mid.index • mid.direction.tang w = r.index • r.direction.tang w := by
        rw [h1.tangential]; vring
      rw [← e _ _ h1.unit, ← e _ _ hdir, h5]
    have hmz : mid.direction.dot w ≠ 0 := by
      intro h0
      have := ht p (by simp)
      rw [← hconst, h0, hmi] at this
      linarith
    obtain ⟨out, hout, hoi⟩ := ih (fun q hq => hpar q (by simp [hq])) (fun q hq => hpos q (by simp [hq]))
      h4 h1.unit hmz (fun q hq => by rw [hconst]; exact ht q (by simp [hq]))
    refine ⟨out, ?_, ?_⟩
    · rw [List.map_cons, propagateSurfaces_cons, hmid, Option.bind_some]; exact hout
    · rw [hoi]
      cases ps with
      | nil => simpa using hmi
      | cons q qs =>
        rw [List.getLast?_cons_cons, List.getLast?_eq_some_getLast (by simp)]
        simp

/-- A plate of glass in vacuum, and a ray at an angle. -/
example (r : Ray) (hd : r.direction = ⟨3 / 5, 0, 4 / 5⟩) (hi : r.index = 1) :
    ∃ out, propagateSurfaces [flatSurface (clearGlass 2) Rigid.id,
        flatSurface (clearGlass 1) (Rigid.translation ⟨0, 0, 7⟩)] r = some out ∧
      out.direction = r.direction := by
  have hw : (⟨0, 0, 1⟩ : V3).dot ⟨0, 0, 1⟩ = 1 := by norm_num [V3.dot]
  have hpar : ∀ p ∈ [((2 : ℝ), Rigid.id), (1, Rigid.translation ⟨0, 0, 7⟩)],
      p.2.vec ⟨0, 0, 1⟩ = ⟨0, 0, 1⟩ ∨ p.2.vec ⟨0, 0, 1⟩ = -⟨0, 0, 1⟩ := by
    intro p hp
    left
    simp only [List.mem_cons, List.not_mem_nil, or_false] at hp
    rcases hp with rfl | rfl
    · exact Rigid.id_vec _
    · exact Rigid.id_vec _
  obtain ⟨out, hout, hoi⟩ := C83_exists hw [((2 : ℝ), Rigid.id), (1, Rigid.translation ⟨0, 0, 7⟩)] hpar
    (by simp) (r := r) (by rw [hi]; norm_num) (by rw [hd]; norm_num [V3.dot]) (by rw [hd]; norm_num [V3.dot])
    (by rw [hi, hd]; simp [V3.dot]; norm_num)
  refine ⟨out, hout, ?_⟩
  refine C83_window hw (ps := [(clearGlass 2, Rigid.id), (clearGlass 1, Rigid.translation ⟨0, 0, 7⟩)]) ?_ ?_
    (by rw [hd]; norm_num [V3.dot]) (by rw [hi]; norm_num) hout (by rw [hoi, hi]; simp)
  · intro p hp
    simp only [List.mem_cons, List.not_mem_nil, or_false] at hp
    rcases hp with rfl | rfl
    · refine ⟨rfl, fun q n hn => ?_⟩
      have : some (2 : ℝ) = some n := hn
      rw [Option.some.injEq] at this
      rw [← this]; norm_num
    · refine ⟨rfl, fun q n hn => ?_⟩
      have : some (1 : ℝ) = some n := hn
      rw [Option.some.injEq] at this
      rw [← this]; norm_num
  · intro p hp
    left
    simp only [List.mem_cons, List.not_mem_nil, or_false] at hp
    rcases hp with rfl | rfl
    · exact Rigid.id_vec _
    · exact Rigid.id_vec _

end Optika
