import Verif.Model.Seed
import Verif.Props.StopRays

/-!
# C102: stops with nothing between them are connected at once
-/

namespace Optika
open V3

/-! ## Specification -/

/-- A surface that light passes unchanged: flat, without rulings, in vacuum. -/
def Surface.Clear (s : Surface) : Prop :=
  s.sag = flatSag ∧ s.material = vacuum ∧ s.rulings = none ∧ ∀ a, s.aperture = some a → a.unit ≠ .other

/-- A surface with power: a mirror, a surface that is not flat, or one with rulings. -/
def Surface.Bends (s : Surface) : Prop := s.material.isMirror = true ∨ s.sag ≠ flatSag ∨ s.rulings ≠ none

/-- A solver that does not move from a root. -/
def RootFinder.Stays (solver : RootFinder) : Prop :=
  ∀ f a, f a = some ⟨0, 0⟩ → solver.find f a = some a

/-- Where the surface is, and that it is not turned. -/
def Surface.Moved (s : Surface) (τ : V3) : Prop :=
  s.transformation = some (Rigid.translation τ) ∨ (s.transformation = none ∧ τ = 0)

/-- The point that the starting guess aims at: the sample itself if the anchor is the last stop and its border is
given as positions, else the vertex of the anchor. -/
def AimsAt (last anchor : Surface) (isLast : Bool) (unitLast : ApertureUnit) (gridLast : V2) (T : V3) : Prop :=
  (isLast = true ∧ unitLast = .length ∧
    ∃ z, last.sag.height ⟨gridLast.x, gridLast.y, 0⟩ = some z ∧ T = last.frame.point ⟨gridLast.x, gridLast.y, z⟩) ∨
  ((isLast = false ∨ unitLast ≠ .length) ∧ T = anchor.frame.point 0)

/-! ## Proofs -/

theorem Surface.Clear.fold {s : Surface} (h : s.Clear) : Fold s := ⟨h.1, h.2.2.1, .inl h.2.1, h.2.2.2⟩

theorem Surface.Clear.not_bends {s : Surface} (h : s.Clear) : ¬ s.Bends := by
  rintro (h' | h' | h')
  · rw [h.2.1] at h'; simp [vacuum] at h'
  · exact h' h.1
  · exact h' h.2.2.1

theorem Surface.powered_iff (s : Surface) : s.Powered ↔ s.Bends := by
  unfold Surface.Powered Surface.Bends
  cases s.rulings <;> simp

/-- **C102**: the anchor is the first surface behind the first stop with power, else the last surface. -/
theorem C102_anchor (first : Surface) {rest : List Surface} (hne : rest ≠ []) :
    ∃ a b, anchorSurface (first :: rest) = some (a, b) ∧
      ((a.Bends ∧ ∃ pre post, rest = pre ++ a :: post ∧ (∀ s ∈ pre, ¬ s.Bends) ∧ (b = true ↔ post = [])) ∨
        ((∀ s ∈ rest, ¬ s.Bends) ∧ rest.getLast? = some a ∧ b = true)) := by
  classical
  unfold anchorSurface
  simp only [Surface.powered_iff]
  simp only [List.drop_succ_cons, List.drop_zero]
  split
  · rename_i k h
    rw [List.findIdx?_eq_some_iff_getElem] at h
    obtain ⟨hk, h1, h2⟩ := h
    refine ⟨rest[k], decide (k + 2 = rest.length + 1), ?_, .inl ⟨by simpa using h1, rest.take k, rest.drop (k + 1), ?_, ?_, ?_⟩⟩
    · simp [hk]
    · rw [List.getElem_cons_drop, List.take_append_drop]
    · intro s hs
      obtain ⟨n, hn, rfl⟩ := List.mem_take_iff_getElem.1 hs
      have := h2 n (by omega)
      simpa using this
    · simp only [decide_eq_true_eq, List.drop_eq_nil_iff]
      omega
  · rename_i h
    rw [List.findIdx?_eq_none_iff] at h
    refine ⟨rest.getLast hne, true, ?_, .inr ⟨fun s hs => by simpa using h s hs, List.getLast?_eq_getLast_of_ne_nil hne, rfl⟩⟩
    simp [List.getLast?_cons, List.getLast?_eq_getLast_of_ne_nil hne]

theorem anchor_clear (first last : Surface) {mids : List Surface} (h : ∀ s ∈ mids, ¬ s.Bends) :
    anchorSurface (first :: (mids ++ [last])) = some (last, true) := by
  obtain ⟨a, b, h1, ⟨ha, pre, post, h2, -, h4⟩ | ⟨-, h3, h4⟩⟩ := C102_anchor first (rest := mids ++ [last]) (by simp)
  · rcases List.eq_nil_or_concat post with rfl | ⟨post', x, rfl⟩
    · have h5 : last = a := by
        have := congrArg List.getLast? h2
        simpa using this
      rw [h1, h4.2 rfl, h5]
    · exfalso
      have h6 : mids ++ [last] = (pre ++ a :: post') ++ [x] := by rw [h2]; simp
      have := (List.append_inj' h6 rfl).1
      exact h a (by rw [this]; simp) ha
  · rw [h1, h4]
    simp at h3
    rw [h3]

theorem clear_run {L : List Surface} (hL : ∀ s ∈ L, s.Clear) {r : Ray} (hr : Free r)
    (hz : ∀ s ∈ L, (s.frame.ivec r.direction).z ≠ 0) :
    ∃ out, propagateSurfaces L r = some out ∧ Free out ∧ out.direction = r.direction ∧
      ∃ c : ℝ, out.position = r.position + c • r.direction := by
  induction L generalizing r with
  | nil => exact ⟨r, rfl, hr, rfl, 0, by vring⟩
  | cons s L ih =>
    have hs := hL s (by simp)
    obtain ⟨r1, h1⟩ := fold_defined hs.fold hr (hz s (by simp))
    obtain ⟨-, e1, e2, -, -, e5⟩ := fold_propagate hs.fold hr h1
    have hturn : s.turn (s.frame.ivec r.direction) = s.frame.ivec r.direction := by
      simp [Surface.turn, hs.2.1, vacuum]
    rw [hturn, Rigid.vec_ivec] at e2
    obtain ⟨out, g1, g2, g3, c, g4⟩ := ih (fun s h => hL s (by simp [h])) e5
      (fun s h => by rw [e2]; exact hz s (by simp [h]))
    have hp : r1.position = r.position
        + (-(s.frame.ipoint r.position).z / (s.frame.ivec r.direction).z) • r.direction := by
      rw [e1, planeHit, ← Rigid.ipoint_add_smul, Rigid.point_ipoint]
    refine ⟨out, by rw [propagateSurfaces_cons, h1]; exact g1, g2, g3.trans e2,
      -(s.frame.ipoint r.position).z / (s.frame.ivec r.direction).z + c, ?_⟩
    · rw [g4, e2, hp]
      generalize (-(s.frame.ipoint r.position).z / (s.frame.ivec r.direction).z) = c'
      exact (show r.position + c' • r.direction + c • r.direction = r.position + (c' + c) • r.direction by vring)

/-- A ray in vacuum that is aimed at a point of the last stop reaches it. -/
theorem reach {mids : List Surface} {last : Surface} (hm : ∀ s ∈ mids, s.Clear) (hl : Fold last) {r : Ray} (hr : Free r)
    {t : V2} {c : ℝ} (hc : last.frame.point ⟨t.x, t.y, 0⟩ = r.position + c • r.direction)
    (hz : ∀ s ∈ mids ++ [last], (s.frame.ivec r.direction).z ≠ 0) :
    ∃ out, propagateSurfaces (mids ++ [last]) r = some out ∧
      (last.frame.ipoint out.position) = ⟨t.x, t.y, 0⟩ := by
  obtain ⟨r1, h1, h2, h3, c1, h4⟩ := clear_run hm hr (fun s h => hz s (by simp [h]))
  have hzl : (last.frame.ivec r1.direction).z ≠ 0 := by rw [h3]; exact hz last (by simp)
  obtain ⟨out, ho⟩ := fold_defined hl h2 hzl
  obtain ⟨-, e1, -⟩ := fold_propagate hl h2 ho
  refine ⟨out, by rw [propagateSurfaces_append, h1]; simp [propagateSurfaces_cons, ho, propagateSurfaces_nil], ?_⟩
  rw [e1, Rigid.ipoint_point, planeHit]
  have ht : (⟨t.x, t.y, 0⟩ : V3) = last.frame.ipoint r1.position + (c - c1) • last.frame.ivec r1.direction := by
    rw [← Rigid.ipoint_add_smul, h4, h3]
    have : r.position + c1 • r.direction + (c - c1) • r.direction = r.position + c • r.direction := by vring
    rw [this, ← hc, Rigid.ipoint_point]
  generalize last.frame.ipoint r1.position = p at *
  generalize last.frame.ivec r1.direction = d at *
  have hzz := congrArg V3.z ht
  simp only [add_z, smul_z] at hzz
  have : -p.z / d.z = c - c1 := by field_simp; linarith
  rw [this, ht]

theorem elim_point (s : Surface) (v : V3) : (s.transformation.elim v fun g => g.point v) = s.frame.point v := by
  unfold Surface.frame
  cases s.transformation
  · exact (Rigid.id_point v).symm
  · rfl

theorem elim_ipoint (s : Surface) (v : V3) : (s.transformation.elim v fun g => g.ipoint v) = s.frame.ipoint v := by
  unfold Surface.frame
  cases s.transformation
  · exact (Rigid.id_ipoint v).symm
  · rfl

theorem elim_vec (s : Surface) (v : V3) : (s.transformation.elim v fun g => g.vec v) = s.frame.vec v := by
  unfold Surface.frame
  cases s.transformation
  · exact (Rigid.id_vec v).symm
  · rfl

theorem Surface.Moved.point {s : Surface} {τ : V3} (h : s.Moved τ) (v : V3) : s.frame.point v = v + τ := by
  unfold Surface.frame
  rcases h with h | ⟨h, rfl⟩ <;> rw [h]
  · exact translation_point _ _
  · simp only [Option.getD_none, Rigid.id_point]; vring

theorem Surface.Moved.ipoint {s : Surface} {τ : V3} (h : s.Moved τ) (v : V3) : s.frame.ipoint v = v - τ := by
  unfold Surface.frame
  rcases h with h | ⟨h, rfl⟩ <;> rw [h]
  · exact translation_ipoint _ _
  · simp only [Option.getD_none, Rigid.id_ipoint]; vring

theorem Surface.Moved.vec {s : Surface} {τ : V3} (h : s.Moved τ) (v : V3) : s.frame.vec v = v := by
  unfold Surface.frame
  rcases h with h | ⟨h, rfl⟩ <;> rw [h]
  · exact translation_vec _ _
  · simp only [Option.getD_none, Rigid.id_vec]

theorem seedAim_of {first last anchor : Surface} {isLast : Bool} {u : ApertureUnit} {g : V2} {T : V3}
    (h : AimsAt last anchor isLast u g T) : seedAim first last anchor isLast u g = some (first.frame.ipoint T) := by
  unfold seedAim
  rcases h with ⟨rfl, rfl, z, hz, rfl⟩ | ⟨h, rfl⟩
  · simp only [hz, Option.bind_eq_bind, Option.bind_some, elim_point, elim_ipoint, Option.pure_def]
  · rcases isLast <;> rcases u <;> simp [elim_point, elim_ipoint] at h ⊢

/-- **C102**: the guess for a first stop that is given as positions is the ray from the sample through the point
aimed at. -/
theorem C102_aim {first last anchor : Surface} {isLast : Bool} {u : ApertureUnit} {gf gl : V2} {T τ : V3} {z : ℝ}
    (wavelength : ℝ) (hT : AimsAt last anchor isLast u gl T) (hm : first.Moved τ)
    (hz : first.sag.height ⟨gf.x, gf.y, 0⟩ = some z) (hslant : (T - first.frame.point ⟨gf.x, gf.y, z⟩).z ≠ 0) :
    ∃ a r, stopSeed first last anchor isLast .length u gf gl = some a ∧ stopRay wavelength first .length gf a = some r ∧
      r.position = first.frame.point ⟨gf.x, gf.y, z⟩ ∧ Free r ∧ 0 < r.direction.z ∧
      ∃ c : ℝ, c ≠ 0 ∧ T = r.position + c • r.direction := by
  set S := first.frame.point ⟨gf.x, gf.y, z⟩ with hS
  have hd : first.frame.ipoint T - ⟨gf.x, gf.y, z⟩ = T - S := by
    rw [hS, hm.point, hm.ipoint]; vring
  have hlen : 0 < (T - S).len := by
    rw [V3.len]
    apply Real.sqrt_pos.2
    have := sq_pos_of_ne_zero hslant
    simp only [dot]
    nlinarith [sq_nonneg (T - S).x, sq_nonneg (T - S).y]
  have hlen2 : (T - S).len ^ 2 = (T - S).x ^ 2 + (T - S).y ^ 2 + (T - S).z ^ 2 := by
    rw [V3.len, Real.sq_sqrt]
    · simp only [dot]; ring
    · simp only [dot]; nlinarith [sq_nonneg (T - S).x, sq_nonneg (T - S).y, sq_nonneg (T - S).z]
  generalize hD : T - S = D at *
  generalize hl : D.len = l at *
  have hl0 : l ≠ 0 := hlen.ne'
  have hdz : D.z / l ≠ 0 := div_ne_zero hslant hl0
  have hσ : ∃ σ : ℝ, sgn (D.z / l) = σ ∧ σ ^ 2 = 1 ∧ 0 < σ * (D.z / l) := by
    refine ⟨_, rfl, ?_⟩
    unfold sgn
    by_cases h : D.z / l < 0
    · rw [if_pos h]; exact ⟨by norm_num, by linarith⟩
    · rw [if_neg h, if_neg hdz]
      exact ⟨by norm_num, by rw [one_mul]; exact lt_of_le_of_ne (not_lt.1 h) (Ne.symm hdz)⟩
  obtain ⟨σ, hσ1, hσ2, hσ3⟩ := hσ
  have hsum : 1 - ((σ * (D.x / l)) ^ 2 + (σ * (D.y / l)) ^ 2) = (σ * (D.z / l)) ^ 2 := by
    simp only [mul_pow, hσ2, div_pow]
    field_simp
    linarith
  refine ⟨⟨σ * (D.x / l), σ * (D.y / l)⟩, ⟨wavelength, S, ⟨σ * (D.x / l), σ * (D.y / l), σ * (D.z / l)⟩, 1, 0, 1, true⟩,
    ?_, ?_, rfl, ⟨rfl, rfl, ?_⟩, hσ3, σ * l, mul_ne_zero (fun h => by rw [h] at hσ2; norm_num at hσ2) hl0, ?_⟩
  · unfold stopSeed
    simp only [seedAim_of hT, hz, Option.bind_eq_bind, Option.bind_some, hd, hl, div?_of_ne hl0, hσ1, elim_vec,
      hm.vec, Option.pure_def, ne_eq, hdz, not_false_eq_true, if_true]
  · unfold stopRay
    simp only [hz, Option.bind_eq_bind, Option.bind_some, hsum, sqrt?_of_nonneg (sq_nonneg _), Real.sqrt_sq hσ3.le,
      elim_point, Option.pure_def, ← hS]
  · simp only [dot]
    linarith
  · have : T = S + D := by rw [← hD]; vring
    rw [this]
    congr 1
    apply V3.ext <;> simp only [smul_x, smul_y, smul_z] <;>
      rw [show ∀ t : ℝ, σ * l * (σ * (t / l)) = σ ^ 2 * (l * (t / l)) from fun t => by ring, hσ2, mul_div_cancel₀ _ hl0, one_mul]

/-- **C102**: the guess for a first stop that is given as directions is the ray with the direction of the sample
through the point aimed at, if the stop is flat and in the plane `z = 0`. -/
theorem C102_aim_infinity {first last anchor : Surface} {isLast : Bool} {u : ApertureUnit} {gf gl : V2} {T τ : V3}
    (wavelength : ℝ) (hT : AimsAt last anchor isLast u gl T) (hm : first.Moved τ) (hτ : τ.z = 0)
    (hs : first.sag = flatSag) (hg : gf.x ^ 2 + gf.y ^ 2 < 1) :
    ∃ a r, stopSeed first last anchor isLast .dimensionless u gf gl = some a ∧
      stopRay wavelength first .dimensionless gf a = some r ∧ r.position.z = 0 ∧
      r.direction = ⟨gf.x, gf.y, Real.sqrt (1 - (gf.x ^ 2 + gf.y ^ 2))⟩ ∧ Free r ∧
      ∃ c : ℝ, T = r.position + c • r.direction := by
  have hq : 0 < 1 - (gf.x ^ 2 + gf.y ^ 2) := by linarith
  have hw := Real.sqrt_pos.2 hq
  have hw2 := Real.sq_sqrt hq.le
  generalize hW : Real.sqrt (1 - (gf.x ^ 2 + gf.y ^ 2)) = w at *
  have hsq : sqrt? (1 - (gf.x ^ 2 + gf.y ^ 2)) = some w := by rw [sqrt?_of_nonneg hq.le, hW]
  have hi : first.frame.ipoint T = ⟨T.x - τ.x, T.y - τ.y, T.z⟩ := by
    rw [hm.ipoint]; apply V3.ext <;> simp [hτ]
  refine ⟨⟨T.x - gf.x * (T.z / w), T.y - gf.y * (T.z / w)⟩,
    ⟨wavelength, ⟨T.x - gf.x * (T.z / w), T.y - gf.y * (T.z / w), 0⟩, ⟨gf.x, gf.y, w⟩, 1, 0, 1, true⟩,
    ?_, ?_, rfl, rfl, ⟨rfl, rfl, ?_⟩, T.z / w, ?_⟩
  · unfold stopSeed
    simp only [seedAim_of hT, hsq, hs, flatSag, flatHeight, Option.bind_eq_bind, Option.bind_some, hi,
      div?_of_ne hw.ne', elim_point, hm.point, Option.pure_def, add_x, add_y, Option.some.injEq, V2.mk.injEq]
    constructor <;> ring
  · unfold stopRay
    simp only [hsq, hs, flatSag, flatHeight, Option.bind_eq_bind, Option.bind_some, elim_vec, hm.vec, Option.pure_def]
  · simp only [dot]; linarith
  · apply V3.ext <;> simp only [add_x, add_y, add_z, smul_x, smul_y, smul_z]
    · ring
    · ring
    · field_simp; ring

theorem ivec_scale (F : Rigid) (c : ℝ) (v : V3) : F.ivec (c • v) = c • F.ivec v := by
  apply V3.ext <;> simp [Rigid.ivec, M3.mulVec, dot] <;> ring

/-- The surfaces between two stops. -/
theorem between {all : List Surface} {i j : ℕ} {first last : Surface} (hi : all[i]? = some first) (hj : all[j]? = some last)
    (hij : i < j) :
    (all.take (j + 1)).drop (i + 1) = (all.take j).drop (i + 1) ++ [last] ∧
    (all.take (j + 1)).drop i = first :: ((all.take j).drop (i + 1) ++ [last]) ∧
    ∀ s, s ∈ (all.take j).drop (i + 1) ↔ ∃ k, i < k ∧ k < j ∧ all[k]? = some s := by
  have hlen : j < all.length := by
    by_contra h
    rw [List.getElem?_eq_none (by omega)] at hj
    simp at hj
  have h1 : (all.take (j + 1)).drop (i + 1) = (all.take j).drop (i + 1) ++ [last] := by
    rw [List.take_add_one, hj, List.drop_append_of_le_length (by simp; omega)]
    rfl
  refine ⟨h1, ?_, fun s => ?_⟩
  · rw [← h1]
    have h2 : i < (all.take (j + 1)).length := by simp; omega
    rw [List.drop_eq_getElem_cons h2]
    congr 1
    have h3 : (all.take (j + 1))[i]? = some first := by rw [List.getElem?_take_of_lt (by omega), hi]
    rw [List.getElem?_eq_getElem h2] at h3
    simpa using h3
  · rw [List.mem_iff_getElem?]
    constructor
    · rintro ⟨n, hn⟩
      rw [List.getElem?_drop] at hn
      have hlt : i + 1 + n < j := by
        by_contra h
        rw [List.getElem?_eq_none (by simp; omega)] at hn
        simp at hn
      exact ⟨i + 1 + n, by omega, hlt, by rw [List.getElem?_take_of_lt hlt] at hn; exact hn⟩
    · rintro ⟨k, h2, h3, h4⟩
      refine ⟨k - (i + 1), ?_⟩
      rw [List.getElem?_drop, List.getElem?_take_of_lt (by omega), show i + 1 + (k - (i + 1)) = k by omega, h4]

/-- The guess is a root if it leads through the sample of the last stop. -/
theorem seed_root {mids : List Surface} {first last : Surface} (hmid : ∀ s ∈ mids, s.Clear) (hl : Fold last)
    {wavelength : ℝ} {u : ApertureUnit} {gf gl a : V2} {r : Ray} {c : ℝ} (hr : stopRay wavelength first u gf a = some r)
    (hf : Free r) (hc : last.frame.point ⟨gl.x, gl.y, 0⟩ = r.position + c • r.direction)
    (hz : ∀ s ∈ mids ++ [last], (s.frame.ivec r.direction).z ≠ 0) :
    rayError wavelength first u gf (mids ++ [last]) last .length gl a = some ⟨0, 0⟩ := by
  obtain ⟨out, h1, h2⟩ := reach hmid hl hf hc hz
  have hun : (last.transformation.elim out fun g => out.unmove g).position = last.frame.ipoint out.position := by
    unfold Surface.frame
    cases last.transformation
    · exact (Rigid.id_ipoint _).symm
    · rfl
  unfold rayError
  simp only [hr, h1, Option.bind_eq_bind, Option.bind_some, stopComponent, hun, h2, Option.pure_def, sub_self]

/-- **C102**: two stops given as positions, with nothing between them that turns light: the first guess is the
straight line between the two samples, and is returned by every solver that stays at a root. -/
theorem C102_direct {solver : RootFinder} (hsolver : solver.Stays) (wavelength : ℝ) {all : List Surface} {i j : ℕ}
    {first last : Surface} {af al : Aperture} {gf gl : V2} {τ : V3} {z : ℝ}
    (hi : all[i]? = some first) (hj : all[j]? = some last) (hij : i < j)
    (haf : first.aperture = some af) (hal : last.aperture = some al) (huf : af.unit = .length) (hul : al.unit = .length)
    (hm : first.Moved τ) (hz : first.sag.height ⟨gf.x, gf.y, 0⟩ = some z)
    (hmid : ∀ k s, i < k → k < j → all[k]? = some s → s.Clear) (hl : Fold last)
    (hslant : (last.frame.point ⟨gl.x, gl.y, 0⟩ - first.frame.point ⟨gf.x, gf.y, z⟩).z ≠ 0)
    (hcross : ∀ k s, i < k → k ≤ j → all[k]? = some s →
      (s.frame.ivec (last.frame.point ⟨gl.x, gl.y, 0⟩ - first.frame.point ⟨gf.x, gf.y, z⟩)).z ≠ 0) :
    ∃ r, stopRaysSeeded solver wavelength all i j gf gl = some r ∧
      r.position = first.frame.point ⟨gf.x, gf.y, z⟩ ∧ r.direction.dot r.direction = 1 ∧ 0 < r.direction.z ∧
      ∃ c : ℝ, last.frame.point ⟨gl.x, gl.y, 0⟩ = r.position + c • r.direction := by
  obtain ⟨e1, e2, e3⟩ := between hi hj hij
  have hclear : ∀ s ∈ (all.take j).drop (i + 1), s.Clear := fun s hs => by
    obtain ⟨k, h1, h2, h3⟩ := (e3 s).1 hs
    exact hmid k s h1 h2 h3
  have hT : AimsAt last last true al.unit gl (last.frame.point ⟨gl.x, gl.y, 0⟩) :=
    .inl ⟨rfl, hul, 0, by rw [hl.1]; rfl, rfl⟩
  obtain ⟨a, r, h1, h2, h3, h4, h5, c, hc, h6⟩ := C102_aim wavelength hT hm hz hslant
  have hcr : ∀ s ∈ (all.take j).drop (i + 1) ++ [last], (s.frame.ivec r.direction).z ≠ 0 := by
    intro s hs
    have hk : ∃ k, i < k ∧ k ≤ j ∧ all[k]? = some s := by
      rcases List.mem_append.1 hs with h | h
      · obtain ⟨k, k1, k2, k3⟩ := (e3 s).1 h; exact ⟨k, k1, k2.le, k3⟩
      · rw [List.mem_singleton] at h; subst h; exact ⟨j, hij, le_rfl, hj⟩
    obtain ⟨k, k1, k2, k3⟩ := hk
    have h7 := hcross k s k1 k2 k3
    rw [← h3, h6] at h7
    intro h8
    apply h7
    rw [show r.position + c • r.direction - r.position = c • r.direction by vring, ivec_scale, smul_z, h8, mul_zero]
  refine ⟨r, ?_, h3, h4.unit, h5, c, h6⟩
  have hroot := seed_root (wavelength := wavelength) (u := .length) (gl := gl) hclear hl h2 h4 h6 hcr
  unfold stopRaysSeeded stopRaysOnly stopRaysOnlyFound
  simp only [hi, hj, haf, hal, huf, Option.bind_eq_bind, Option.bind_some, e1, e2,
    anchor_clear first last fun s hs => (hclear s hs).not_bends]
  rw [h1]
  simp only [Option.bind_some, hul]
  rw [hsolver _ _ hroot]
  exact h2

/-- **C102**: the same if the first stop is given as directions, and is flat and in the plane `z = 0`: the first guess
is the line with the given direction through the sample of the last stop. -/
theorem C102_direct_infinity {solver : RootFinder} (hsolver : solver.Stays) (wavelength : ℝ) {all : List Surface}
    {i j : ℕ} {first last : Surface} {af al : Aperture} {gf gl : V2} {τ : V3}
    (hi : all[i]? = some first) (hj : all[j]? = some last) (hij : i < j)
    (haf : first.aperture = some af) (hal : last.aperture = some al) (huf : af.unit = .dimensionless)
    (hul : al.unit = .length) (hm : first.Moved τ) (hτ : τ.z = 0) (hs : first.sag = flatSag)
    (hg : gf.x ^ 2 + gf.y ^ 2 < 1) (hmid : ∀ k s, i < k → k < j → all[k]? = some s → s.Clear) (hl : Fold last)
    (hcross : ∀ k s, i < k → k ≤ j → all[k]? = some s →
      (s.frame.ivec ⟨gf.x, gf.y, Real.sqrt (1 - (gf.x ^ 2 + gf.y ^ 2))⟩).z ≠ 0) :
    ∃ r, stopRaysSeeded solver wavelength all i j gf gl = some r ∧ r.position.z = 0 ∧
      r.direction = ⟨gf.x, gf.y, Real.sqrt (1 - (gf.x ^ 2 + gf.y ^ 2))⟩ ∧
      ∃ c : ℝ, last.frame.point ⟨gl.x, gl.y, 0⟩ = r.position + c • r.direction := by
  obtain ⟨e1, e2, e3⟩ := between hi hj hij
  have hclear : ∀ s ∈ (all.take j).drop (i + 1), s.Clear := fun s hs => by
    obtain ⟨k, h1, h2, h3⟩ := (e3 s).1 hs
    exact hmid k s h1 h2 h3
  have hT : AimsAt last last true al.unit gl (last.frame.point ⟨gl.x, gl.y, 0⟩) :=
    .inl ⟨rfl, hul, 0, by rw [hl.1]; rfl, rfl⟩
  obtain ⟨a, r, h1, h2, h3, h4, h5, c, h6⟩ := C102_aim_infinity wavelength hT hm hτ hs hg
  have hcr : ∀ s ∈ (all.take j).drop (i + 1) ++ [last], (s.frame.ivec r.direction).z ≠ 0 := by
    intro s hs
    rw [h4]
    rcases List.mem_append.1 hs with h | h
    · obtain ⟨k, k1, k2, k3⟩ := (e3 s).1 h; exact hcross k s k1 k2.le k3
    · rw [List.mem_singleton] at h; subst h; exact hcross j _ hij le_rfl hj
  refine ⟨r, ?_, h3, h4, c, h6⟩
  have hroot := seed_root (wavelength := wavelength) (u := .dimensionless) (gl := gl) hclear hl h2 h5 h6 hcr
  unfold stopRaysSeeded stopRaysOnly stopRaysOnlyFound
  simp only [hi, hj, haf, hal, huf, Option.bind_eq_bind, Option.bind_some, e1, e2,
    anchor_clear first last fun s hs => (hclear s hs).not_bends]
  rw [h1]
  simp only [Option.bind_some, hul]
  rw [hsolver _ _ hroot]
  exact h2

/-- **C102**: an object is at infinity if it has no aperture, or one given as directions; units that are neither
lengths nor dimensionless raise an exception. -/
theorem C102_object_at_infinity (object : Surface) :
    (objectIsAtInfinity object = some true ↔
      object.aperture = none ∨ ∃ a, object.aperture = some a ∧ a.unit = .dimensionless) ∧
    (objectIsAtInfinity object = some false ↔ ∃ a, object.aperture = some a ∧ a.unit = .length) ∧
    (objectIsAtInfinity object = none ↔ ∃ a, object.aperture = some a ∧ a.unit = .other) := by
  unfold objectIsAtInfinity
  rcases object.aperture with _ | a
  · simp
  · rcases h : a.unit <;> simp [h]

/-! ## Examples -/

theorem checkingSolver_stays : checkingSolver.Stays := fun f a h => by simp [checkingSolver, h]

theorem openPlane_clear (t : V3) : (openPlane t).Clear :=
  ⟨rfl, rfl, rfl, fun a h => by
    simp only [openPlane, Option.some.injEq] at h
    subst h
    simp⟩

/-- Two planes with a third one between them. -/
example : ∃ r, stopRaysSeeded checkingSolver 1 [openPlane 0, openPlane ⟨1, 1, 1⟩, openPlane ⟨0, 0, 2⟩] 0 2 ⟨1, 0⟩ ⟨-1, 3⟩ = some r ∧
    r.position = ⟨1, 0, 0⟩ ∧ r.direction.dot r.direction = 1 ∧ 0 < r.direction.z ∧
      ∃ c : ℝ, (⟨-1, 3, 2⟩ : V3) = r.position + c • r.direction := by
  have e1 : (openPlane ⟨0, 0, 2⟩).frame.point ⟨-1, 3, 0⟩ = ⟨-1, 3, 2⟩ := by
    rw [show (openPlane ⟨0, 0, 2⟩).frame = Rigid.translation ⟨0, 0, 2⟩ from rfl, translation_point]
    apply V3.ext <;> norm_num
  have e2 : (openPlane 0).frame.point ⟨1, 0, 0⟩ = ⟨1, 0, 0⟩ := by
    rw [show (openPlane 0).frame = Rigid.translation 0 from rfl, translation_point]
    apply V3.ext <;> norm_num
  have h := C102_direct (solver := checkingSolver) (all := [openPlane 0, openPlane ⟨1, 1, 1⟩, openPlane ⟨0, 0, 2⟩]) (i := 0)
    (j := 2) (first := openPlane 0) (last := openPlane ⟨0, 0, 2⟩) (gf := ⟨1, 0⟩) (gl := ⟨-1, 3⟩) (z := 0)
    checkingSolver_stays 1 rfl rfl (by norm_num) rfl rfl rfl rfl (.inl rfl) rfl
    (by
      intro k s h1 h2 h3
      obtain rfl : k = 1 := by omega
      simp at h3
      rw [← h3]
      exact openPlane_clear _)
    (openPlane_fold _) (by simp only [e1, e2]; norm_num)
    (by
      intro k s h1 h2 h3
      have hk : s.frame = Rigid.translation ⟨1, 1, 1⟩ ∨ s.frame = Rigid.translation ⟨0, 0, 2⟩ := by
        rcases (by omega : k = 1 ∨ k = 2) with rfl | rfl
        · simp at h3; rw [← h3]; exact .inl rfl
        · simp at h3; rw [← h3]; exact .inr rfl
      rcases hk with hk | hk <;> rw [hk, translation_ivec] <;> simp only [e1, e2] <;> norm_num)
  simp only [e1, e2] at h
  exact h

/-- An object at infinity, given as directions. -/
noncomputable def openSky : Surface := ⟨flatSag, vacuum, some ⟨.dimensionless, fun _ => true⟩, none, none⟩

example : objectIsAtInfinity openSky = some true ∧ objectIsAtInfinity (openPlane 0) = some false := ⟨rfl, rfl⟩

example : ∃ r, stopRaysSeeded checkingSolver 1 [openSky, openPlane ⟨0, 0, 2⟩] 0 1 ⟨3 / 5, 0⟩ ⟨-1, 3⟩ = some r ∧
    r.position.z = 0 ∧ r.direction = ⟨3 / 5, 0, 4 / 5⟩ ∧ ∃ c : ℝ, (⟨-1, 3, 2⟩ : V3) = r.position + c • r.direction := by
  have e1 : (openPlane ⟨0, 0, 2⟩).frame.point ⟨-1, 3, 0⟩ = ⟨-1, 3, 2⟩ := by
    rw [show (openPlane ⟨0, 0, 2⟩).frame = Rigid.translation ⟨0, 0, 2⟩ from rfl, translation_point]
    apply V3.ext <;> norm_num
  have e2 : Real.sqrt (1 - ((3 / 5) ^ 2 + 0 ^ 2)) = 4 / 5 := by
    rw [show (1 - ((3 / 5) ^ 2 + 0 ^ 2) : ℝ) = (4 / 5) ^ 2 by norm_num, Real.sqrt_sq (by norm_num)]
  have h := C102_direct_infinity (solver := checkingSolver) (all := [openSky, openPlane ⟨0, 0, 2⟩]) (i := 0) (j := 1)
    (first := openSky) (last := openPlane ⟨0, 0, 2⟩) (gf := ⟨3 / 5, 0⟩) (gl := ⟨-1, 3⟩) (τ := 0)
    checkingSolver_stays 1 rfl rfl (by norm_num) rfl rfl rfl rfl (.inr ⟨rfl, rfl⟩) rfl rfl (by norm_num)
    (by intro k s h1 h2; omega) (openPlane_fold _)
    (by
      intro k s h1 h2 h3
      obtain rfl : k = 1 := by omega
      simp at h3
      rw [← h3, show (openPlane ⟨0, 0, 2⟩).frame = Rigid.translation ⟨0, 0, 2⟩ from rfl, translation_ivec]
      simp only [e2]
      norm_num)
  simp only [e1, e2] at h
  exact h

/-- A mirror between two planes is the anchor, and the guess leads to its vertex. -/
example (t u : V3) : anchorSurface [openPlane 0, openMirror t, openPlane u] = some (openMirror t, false) := by
  obtain ⟨a, b, h1, ⟨ha, pre, post, h2, h3, h4⟩ | ⟨h2, -⟩⟩ :=
    C102_anchor (openPlane 0) (rest := [openMirror t, openPlane u]) (by simp)
  · rcases pre with _ | ⟨x, pre⟩
    · simp only [List.nil_append, List.cons.injEq] at h2
      obtain ⟨rfl, rfl⟩ := h2
      have : b = false := by simpa using h4
      rw [h1, this]
    · simp only [List.cons_append, List.cons.injEq] at h2
      exact absurd (.inl (by rw [← h2.1]; rfl)) (h3 x (by simp))
  · exact absurd (.inl rfl) (h2 (openMirror t) (by simp))

end Optika
