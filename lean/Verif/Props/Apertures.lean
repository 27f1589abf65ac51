import Verif.Lemmas.Wires
import Verif.Model.Surface

/-!
# C18–C20: apertures

`toLocal g` and `toParent g` are the inverse and the forward action of the optional
transformation `g` of the aperture; a point of the aperture is written `toParent g q` with `q` in
the coordinates of the aperture.
-/

namespace Optika
open V3 Real

/-! ### C18: membership -/

/-- C18: a circular aperture is the closed disk, its complement if inverted, everything if
inactive. -/
theorem C18_circle (r : ℝ) (active inverted : Bool) (g : Option Rigid) (q : V3) :
    circleMask r active inverted g (toParent g q) = true ↔
      Accepts active inverted (0 ≤ r ∧ q.x ^ 2 + q.y ^ 2 ≤ r ^ 2) := by
  rw [circleMask, applyFlags_iff, toLocal_toParent]
  exact accepts_congr (by rw [decide_eq_true_iff, xyLength_le])

example : circleMask 5 true false (some (Rigid.translation ⟨1, 2, 3⟩)) ⟨4, 6, 0⟩ = true := by
  have := C18_circle 5 true false (some (Rigid.translation ⟨1, 2, 3⟩)) ⟨3, 4, -3⟩
  have e : toParent (some (Rigid.translation ⟨1, 2, 3⟩)) ⟨3, 4, -3⟩ = ⟨4, 6, 0⟩ := by
    apply V3.ext <;> simp [toParent, Rigid.point, Rigid.translation, Rigid.id, M3.mulVec, M3.one, dot] <;>
      norm_num
  rw [e] at this
  rw [this]; norm_num [Accepts]

/-- C18: a rectangular aperture is the closed rectangle. -/
theorem C18_rectangle (hx hy : ℝ) (active inverted : Bool) (g : Option Rigid) (q : V3) :
    rectangleMask hx hy active inverted g (toParent g q) = true ↔
      Accepts active inverted (|q.x| ≤ hx ∧ |q.y| ≤ hy) := by
  rw [rectangleMask, applyFlags_iff, toLocal_toParent]
  apply accepts_congr
  simp only [Bool.and_eq_true, decide_eq_true_iff, abs_le]
  tauto

example : rectangleMask 2 3 true true none ⟨2, -3, 1⟩ = false := by
  have := C18_rectangle 2 3 true true none ⟨2, -3, 1⟩
  have h : ¬ rectangleMask 2 3 true true none (toParent none ⟨2, -3, 1⟩) = true := by
    rw [this]; norm_num [Accepts]
  simpa [toParent] using h

/-- C18: an elliptical aperture is the closed ellipse. -/
theorem C18_ellipse (rx ry : ℝ) (hx : rx ≠ 0) (hy : ry ≠ 0) (active inverted : Bool)
    (g : Option Rigid) (q : V3) :
    ellipseMask rx ry active inverted g (toParent g q) = true ↔
      Accepts active inverted (q.x ^ 2 / rx ^ 2 + q.y ^ 2 / ry ^ 2 ≤ 1) := by
  rw [ellipseMask, applyFlags_iff]
  simp only [toLocal_toParent]
  apply accepts_congr
  simp [hx, hy, div_pow]

example : ellipseMask 2 3 true false none ⟨0, -3, 7⟩ = true := by
  have := C18_ellipse 2 3 (by norm_num) (by norm_num) true false none ⟨0, -3, 7⟩
  simp only [toParent, Option.elim_none] at this
  rw [this]; norm_num [Accepts]

/-- C18: an aperture without extent in one direction accepts nothing, not even its centre. -/
theorem C18_ellipse_degenerate_counterexample :
    ellipseMask 0 1 true false none 0 = false := by
  simp [ellipseMask, applyFlags]

/-- The inside of an angular sector without the two arms: a polar angle strictly between start
and stop. -/
def InOpenSector (radius start stop : ℝ) (q : V3) : Prop :=
  ∃ ρ θ : ℝ, 0 ≤ ρ ∧ ρ ≤ radius ∧ start < θ ∧ θ < stop ∧
    q.x = ρ * Real.cos θ ∧ q.y = ρ * Real.sin θ

/-- What the mask of a sector is before the flags are applied. -/
theorem sector_mask_raw (radius start stop : ℝ) (g : Option Rigid) (p : V3) :
    sectorMask radius start stop true false g p = true ↔
      xyLength (toLocal g p) ≤ radius ∧
      let a := arctan2 (toLocal g p).y (toLocal g p).x
      ((start < pyMod a (2 * π) ∧ pyMod a (2 * π) < stop) ∨
        (start < pyMod a (-(2 * π)) ∧ pyMod a (-(2 * π)) < stop)) := by
  simp [sectorMask, applyFlags]

theorem inOpenSector_of_mask {radius start stop : ℝ} {g : Option Rigid} {p : V3}
    (h : sectorMask radius start stop true false g p = true) :
    InOpenSector radius start stop (toLocal g p) := by
  rw [sector_mask_raw] at h
  obtain ⟨h1, h2⟩ := h
  set q := toLocal g p
  obtain ⟨R, hR, hR2, hx, hy⟩ := polar q.x q.y
  have hl : R ≤ radius := by
    have : xyLength q = R := by
      rw [xyLength, ← hR2, Real.sqrt_sq hR]
    linarith
  rcases h2 with ⟨h2, h3⟩ | ⟨h2, h3⟩
  · exact ⟨R, _, hR, hl, h2, h3, by rw [cos_pyMod]; exact hx, by rw [sin_pyMod]; exact hy⟩
  · exact ⟨R, _, hR, hl, h2, h3, by rw [cos_pyMod_neg]; exact hx,
      by rw [sin_pyMod_neg]; exact hy⟩

/-- C18, partial: away from its apex a sector (angles between -2π and 2π, as documented) is the
closed disk cut to the polar angles *strictly* between start and stop.  The full claim includes
the two straight sides; see `C18_sector_boundary_counterexample`. -/
theorem C18_sector_partial (radius start stop : ℝ) (h1 : -(2 * π) ≤ start) (h2 : stop ≤ 2 * π)
    (active inverted : Bool) (g : Option Rigid) (q : V3) (hq : q.x ≠ 0 ∨ q.y ≠ 0) :
    sectorMask radius start stop active inverted g (toParent g q) = true ↔
      Accepts active inverted (InOpenSector radius start stop q) := by
  have key : sectorMask radius start stop true false g (toParent g q) = true ↔
      InOpenSector radius start stop q := by
    constructor
    · intro h
      simpa using inOpenSector_of_mask h
    · rintro ⟨ρ, θ, h0, hr, hs, he, hx, hy⟩
      rw [sector_mask_raw, toLocal_toParent]
      have hρ : 0 < ρ := by
        rcases h0.lt_or_eq with h | h
        · exact h
        · exfalso; rw [← h] at hx hy; simp at hx hy; tauto
      refine ⟨?_, ?_⟩
      · rw [xyLength_le]
        refine ⟨by linarith, ?_⟩
        rw [hx, hy]
        have : (ρ * Real.cos θ) ^ 2 + (ρ * Real.sin θ) ^ 2 = ρ ^ 2 := by
          nlinarith [Real.sin_sq_add_cos_sq θ]
        rw [this]; nlinarith
      · obtain ⟨k, hk⟩ := arctan2_polar (θ := θ) hρ
        rw [hx, hy]
        simp only
        rcases le_or_gt 0 θ with h | h
        · left
          have : pyMod (arctan2 (ρ * Real.sin θ) (ρ * Real.cos θ)) (2 * π) = θ :=
            pyMod_eq_of two_pi_pos (-k) (by rw [hk]; push_cast; ring) h (by linarith)
          rw [this]; exact ⟨hs, he⟩
        · right
          have : pyMod (arctan2 (ρ * Real.sin θ) (ρ * Real.cos θ)) (-(2 * π)) = θ :=
            pyMod_neg_eq_of two_pi_pos (-k) (by rw [hk]; push_cast; ring) (by linarith) h.le
          rw [this]; exact ⟨hs, he⟩
  have hraw : sectorMask radius start stop active inverted g (toParent g q) =
      applyFlags active inverted (sectorMask radius start stop true false g (toParent g q)) := by
    simp [sectorMask, applyFlags]
  rw [hraw, applyFlags_iff]
  exact accepts_congr key

example : sectorMask 2 (-(π / 2)) (π / 2) true false none ⟨1, 0, 0⟩ = true := by
  have := C18_sector_partial 2 (-(π / 2)) (π / 2) (by linarith [pi_pos]) (by linarith [pi_pos])
    true false none ⟨1, 0, 0⟩ (by simp)
  simp only [toParent, Option.elim_none] at this
  rw [this, Accepts]
  intro _
  simp only [iff_true]
  exact ⟨1, 0, by norm_num, by norm_num, by linarith [pi_pos], by linarith [pi_pos], by simp,
    by simp⟩

/-- C18: the straight sides do not belong to the mask of a sector: the default half disk (from
0 to π) rejects the middle of its own straight side, and the full disk (from 0 to 2π) has a slit
along the positive x axis. -/
theorem C18_sector_boundary_counterexample :
    sectorMask 1 0 π true false none ⟨1 / 2, 0, 0⟩ = false ∧
    sectorMask 1 0 (2 * π) true false none ⟨1 / 2, 0, 0⟩ = false := by
  have ha : arctan2 0 (1 / 2) = 0 := by
    have := Complex.arg_ofReal_of_nonneg (x := 1 / 2) (by norm_num)
    unfold arctan2
    rwa [show (⟨1 / 2, 0⟩ : ℂ) = ((1 / 2 : ℝ) : ℂ) by apply Complex.ext <;> simp]
  constructor
  all_goals
    rw [Bool.eq_false_iff, Ne, sector_mask_raw]
    simp only [toLocal, Option.elim_none, ha]
    norm_num [pyMod]

/-- C18: a polygonal aperture accepts what the point-in-polygon test of named_arrays accepts in
its own coordinates. -/
theorem C18_polygon (pip : List V3 → V3 → Bool) (vertices : List V3) (active inverted : Bool)
    (g : Option Rigid) (q : V3) :
    polygonMask pip vertices active inverted g (toParent g q) = true ↔
      Accepts active inverted (pip vertices q = true) := by
  cases active
  · simp [polygonMask, Accepts]
  · rw [polygonMask, if_pos rfl, applyFlags_iff, toLocal_toParent]

example : polygonMask (fun _ p => decide (p.x ≤ 1)) [⟨0, 0, 0⟩] true true none ⟨0, 0, 0⟩ = false := by
  have := C18_polygon (fun _ p => decide (p.x ≤ 1)) [⟨0, 0, 0⟩] true true none ⟨0, 0, 0⟩
  rw [Bool.eq_false_iff]
  simp only [toParent, Option.elim_none] at this
  rw [Ne, this]; simp [Accepts]

/-- C18: clipping fails exactly on a unit that is neither a length nor dimensionless;
otherwise a ray stays unvignetted exactly if it was and its position (or, for a dimensionless
aperture, its direction) is accepted, and nothing else changes. -/
theorem C18_clip (a : Aperture) (r : Ray) :
    (a.clip r = none ↔ a.unit = .other) ∧
    ∀ r', a.clip r = some r' →
      (r'.unvignetted = true ↔ r.unvignetted = true ∧
        a.mask (match a.unit with | .dimensionless => r.direction | _ => r.position) = true) ∧
      r'.position = r.position ∧ r'.direction = r.direction ∧ r'.intensity = r.intensity ∧
      r'.wavelength = r.wavelength ∧ r'.attenuation = r.attenuation ∧ r'.index = r.index := by
  unfold Aperture.clip
  constructor
  · cases a.unit <;> simp
  · intro r' h
    cases hu : a.unit <;> rw [hu] at h <;> simp at h <;> subst h <;> simp

example (r : Ray) (hp : r.position = ⟨3, 0, 1⟩) :
    ∃ r', (⟨.length, circleMask 2 true false none⟩ : Aperture).clip r = some r' ∧
      r'.unvignetted = false := by
  obtain ⟨h0, h1⟩ := C18_clip ⟨.length, circleMask 2 true false none⟩ r
  cases h : (⟨.length, circleMask 2 true false none⟩ : Aperture).clip r with
  | none => rw [h] at h0; simp at h0
  | some r' =>
    refine ⟨r', rfl, ?_⟩
    rw [Bool.eq_false_iff, Ne, (h1 r' h).1]
    have := C18_circle 2 true false none ⟨3, 0, 1⟩
    simp only [toParent, Option.elim_none] at this
    simp only [hp, this, Accepts]
    norm_num

/-! ### C19: bounds -/

/-- C19, partial: every accepted point in the plane of a circular aperture is within its bounds.
The full claim, without `z = 0`, is false (`C19_off_plane_counterexample`). -/
theorem C19_circle_partial (r : ℝ) (g : Option Rigid) (p : V3) (hz : (toLocal g p).z = 0)
    (h : circleMask r true false g p = true) :
    Within (circleLower r g) p (circleUpper r g) := by
  rw [circleMask, applyFlags_iff] at h
  have h := (h rfl).2 rfl
  rw [decide_eq_true_iff, xyLength_le] at h
  obtain ⟨h0, h⟩ := h
  set q := toLocal g p with hq
  have hp : p = toParent g ⟨q.x, q.y, 0⟩ := by
    rw [← toParent_toLocal g p, ← hq]; congr 1; apply V3.ext <;> simp [hz]
  rw [toParent_plane] at hp
  obtain ⟨n1, n2, n3⟩ := row_norm g
  have bound {a b : ℝ} (hn : a ^ 2 + b ^ 2 ≤ 1) : |q.x * a + q.y * b| ≤ r :=
    cauchy2 h0 (by nlinarith [sq_nonneg q.x, sq_nonneg q.y])
  have b1 := abs_le.1 (bound n1)
  have b2 := abs_le.1 (bound n2)
  have b3 := abs_le.1 (bound n3)
  rw [hp]
  simp only [Within, circleLower, circleUpper, add_x, add_y, add_z, smul_x, smul_y, smul_z]
  exact ⟨⟨by linarith, by linarith⟩, ⟨by linarith, by linarith⟩, ⟨by linarith, by linarith⟩⟩

example : Within (circleLower 5 none) ⟨3, 4, 0⟩ (circleUpper 5 none) :=
  C19_circle_partial 5 none ⟨3, 4, 0⟩ rfl (by
    have := C18_circle 5 true false none ⟨3, 4, 0⟩
    simp only [toParent, Option.elim_none] at this
    rw [this]; norm_num [Accepts])

/-- C19: masks ignore the distance from the plane of the aperture, bounds do not: a point far
above the plane is accepted and is not within the bounds. -/
theorem C19_off_plane_counterexample :
    circleMask 1 true false none ⟨0, 0, 2⟩ = true ∧
    ¬ Within (circleLower 1 none) ⟨0, 0, 2⟩ (circleUpper 1 none) := by
  constructor
  · have := C18_circle 1 true false none ⟨0, 0, 2⟩
    simp only [toParent, Option.elim_none] at this
    rw [this]; norm_num [Accepts]
  · simp [Within, circleUpper, circleLower, toParent]

/-- C19: the bounds of a circle that is only shifted are attained in the plane of the circle. -/
theorem C19_circle_attained (r : ℝ) (hr : 0 ≤ r) (c : V3) :
    let g := some (Rigid.translation c)
    (∃ p, circleMask r true false g p = true ∧ p.x = (circleUpper r g).x) ∧
    (∃ p, circleMask r true false g p = true ∧ p.x = (circleLower r g).x) ∧
    (∃ p, circleMask r true false g p = true ∧ p.y = (circleUpper r g).y) ∧
    (∃ p, circleMask r true false g p = true ∧ p.y = (circleLower r g).y) := by
  intro g
  have m (q : V3) (h : q.x ^ 2 + q.y ^ 2 ≤ r ^ 2) :
      circleMask r true false g (toParent g q) = true :=
    (C18_circle r true false g q).2 (by simp [Accepts, hr, h])
  refine ⟨⟨_, m ⟨r, 0, 0⟩ (by simp), ?_⟩, ⟨_, m ⟨-r, 0, 0⟩ (by simp), ?_⟩,
    ⟨_, m ⟨0, r, 0⟩ (by simp), ?_⟩, ⟨_, m ⟨0, -r, 0⟩ (by simp), ?_⟩⟩
  all_goals
    simp [g, toParent, circleUpper, circleLower, Rigid.point, Rigid.translation, Rigid.id, M3.mulVec,
      M3.one, dot]
    try ring

example : ∃ p, circleMask 2 true false (some (Rigid.translation ⟨1, 0, 0⟩)) p = true ∧
    p.x = (circleUpper 2 (some (Rigid.translation ⟨1, 0, 0⟩))).x :=
  (C19_circle_attained 2 (by norm_num) ⟨1, 0, 0⟩).1

/-- C19, partial (points in the plane of the aperture): bounds of an ellipse. -/
theorem C19_ellipse_partial (rx ry : ℝ) (hx : rx ≠ 0) (hy : ry ≠ 0) (g : Option Rigid) (p : V3)
    (hz : (toLocal g p).z = 0) (h : ellipseMask rx ry true false g p = true) :
    Within (ellipseLower rx ry g) p (ellipseUpper rx ry g) := by
  have h' := C18_ellipse rx ry hx hy true false g (toLocal g p)
  rw [toParent_toLocal] at h'
  have h := (h'.1 h rfl).2 rfl
  set q := toLocal g p with hq
  have hp : p = toParent g ⟨q.x, q.y, 0⟩ := by
    rw [← toParent_toLocal g p, ← hq]; congr 1; apply V3.ext <;> simp [hz]
  rw [toParent_plane] at hp
  have bound (a b : ℝ) : |q.x * a + q.y * b| ≤ Real.sqrt ((rx * a) ^ 2 + (ry * b) ^ 2) := by
    have := cauchy2 (x := q.x / rx) (y := q.y / ry) (a := rx * a) (b := ry * b)
      (s := Real.sqrt ((rx * a) ^ 2 + (ry * b) ^ 2)) (Real.sqrt_nonneg _) (by
        rw [Real.sq_sqrt (by positivity)]
        have : (q.x / rx) ^ 2 + (q.y / ry) ^ 2 ≤ 1 := by simpa [div_pow] using h
        nlinarith [sq_nonneg (rx * a), sq_nonneg (ry * b)])
    have e : q.x / rx * (rx * a) + q.y / ry * (ry * b) = q.x * a + q.y * b := by field_simp
    rwa [e] at this
  have b1 := abs_le.1 (bound (axisA 1 g).x (axisB 1 g).x)
  have b2 := abs_le.1 (bound (axisA 1 g).y (axisB 1 g).y)
  have b3 := abs_le.1 (bound (axisA 1 g).z (axisB 1 g).z)
  rw [hp]
  simp only [Within, ellipseLower, ellipseUpper, ellipseHalf, axisA_smul rx, axisB_smul ry, add_x,
    add_y, add_z, sub_x, sub_y, sub_z, smul_x, smul_y, smul_z]
  exact ⟨⟨by linarith, by linarith⟩, ⟨by linarith, by linarith⟩, ⟨by linarith, by linarith⟩⟩

example : Within (ellipseLower 2 3 none) ⟨0, 3, 0⟩ (ellipseUpper 2 3 none) :=
  C19_ellipse_partial 2 3 (by norm_num) (by norm_num) none ⟨0, 3, 0⟩ rfl (by
    have := C18_ellipse 2 3 (by norm_num) (by norm_num) true false none ⟨0, 3, 0⟩
    simp only [toParent, Option.elim_none] at this
    rw [this]; norm_num [Accepts])

/-- The extremum of `a x + b y` on an ellipse is attained on the ellipse. -/
theorem ellipse_support (rx ry a b : ℝ) :
    ∃ x y : ℝ, x ^ 2 / rx ^ 2 + y ^ 2 / ry ^ 2 ≤ 1 ∧
      x * a + y * b = Real.sqrt ((rx * a) ^ 2 + (ry * b) ^ 2) := by
  set s := Real.sqrt ((rx * a) ^ 2 + (ry * b) ^ 2) with hs
  have hs2 : s ^ 2 = (rx * a) ^ 2 + (ry * b) ^ 2 := Real.sq_sqrt (by positivity)
  by_cases h0 : s = 0
  · refine ⟨0, 0, by norm_num, by rw [h0]; ring⟩
  · refine ⟨rx ^ 2 * a / s, ry ^ 2 * b / s, ?_, ?_⟩
    · have : (rx ^ 2 * a / s) ^ 2 / rx ^ 2 + (ry ^ 2 * b / s) ^ 2 / ry ^ 2 =
          ((rx * a) ^ 2 + (ry * b) ^ 2) / s ^ 2 := by field_simp
      rw [this, ← hs2, div_self (by positivity)]
    · field_simp; rw [hs2]; ring

/-- C19: the bounds of an ellipse are attained in all three components, whatever the
transformation. -/
theorem C19_ellipse_attained (rx ry : ℝ) (hx : rx ≠ 0) (hy : ry ≠ 0) (g : Option Rigid) :
    (∃ p, ellipseMask rx ry true false g p = true ∧ p.x = (ellipseUpper rx ry g).x) ∧
    (∃ p, ellipseMask rx ry true false g p = true ∧ p.x = (ellipseLower rx ry g).x) ∧
    (∃ p, ellipseMask rx ry true false g p = true ∧ p.y = (ellipseUpper rx ry g).y) ∧
    (∃ p, ellipseMask rx ry true false g p = true ∧ p.y = (ellipseLower rx ry g).y) ∧
    (∃ p, (toLocal g p).z = 0 ∧ ellipseMask rx ry true false g p = true ∧
      p.z = (ellipseUpper rx ry g).z) ∧
    (∃ p, (toLocal g p).z = 0 ∧ ellipseMask rx ry true false g p = true ∧
      p.z = (ellipseLower rx ry g).z) := by
  have m (x y : ℝ) (h : x ^ 2 / rx ^ 2 + y ^ 2 / ry ^ 2 ≤ 1) :
      ellipseMask rx ry true false g (toParent g ⟨x, y, 0⟩) = true :=
    (C18_ellipse rx ry hx hy true false g ⟨x, y, 0⟩).2 (by simp [Accepts, h])
  have sup (a b : ℝ) := ellipse_support rx ry a b
  obtain ⟨x1, y1, h1, e1⟩ := sup (axisA 1 g).x (axisB 1 g).x
  obtain ⟨x2, y2, h2, e2⟩ := sup (axisA 1 g).y (axisB 1 g).y
  obtain ⟨x3, y3, h3, e3⟩ := sup (axisA 1 g).z (axisB 1 g).z
  refine ⟨⟨_, m x1 y1 h1, ?_⟩, ⟨_, m (-x1) (-y1) (by simpa using h1), ?_⟩, ⟨_, m x2 y2 h2, ?_⟩,
    ⟨_, m (-x2) (-y2) (by simpa using h2), ?_⟩, ⟨_, by simp, m x3 y3 h3, ?_⟩,
    ⟨_, by simp, m (-x3) (-y3) (by simpa using h3), ?_⟩⟩
  all_goals
    rw [toParent_plane]
    simp only [ellipseLower, ellipseUpper, ellipseHalf, axisA_smul rx, axisB_smul ry, add_x,
      add_y, add_z, sub_x, sub_y, sub_z, smul_x, smul_y, smul_z]
    linarith

example : ∃ p, ellipseMask 2 3 true false none p = true ∧ p.x = (ellipseUpper 2 3 none).x :=
  (C19_ellipse_attained 2 3 (by norm_num) (by norm_num) none).1

/-- The closed sector. -/
def InClosedSector (radius start stop : ℝ) (q : V3) : Prop :=
  ∃ ρ θ : ℝ, 0 ≤ ρ ∧ ρ ≤ radius ∧ start ≤ θ ∧ θ ≤ stop ∧
    q = ⟨ρ * Real.cos θ, ρ * Real.sin θ, 0⟩

theorem closedSector_within {radius start stop : ℝ} (hs : stop - start < 2 * π)
    {g : Option Rigid} {q : V3} (h : InClosedSector radius start stop q) :
    Within (sectorLower radius start stop g) (toParent g q) (sectorUpper radius start stop g) := by
  obtain ⟨ρ, θ, h0, h1, h2, h3, rfl⟩ := h
  obtain ⟨l, hl0, hl1, hl⟩ : ∃ l : ℝ, 0 ≤ l ∧ l ≤ 1 ∧ ρ = l * radius := by
    rcases eq_or_ne radius 0 with hr | hr
    · exact ⟨0, le_refl _, zero_le_one, by linarith⟩
    · have : 0 < radius := lt_of_le_of_ne (by linarith) (Ne.symm hr)
      exact ⟨ρ / radius, by positivity, by rw [div_le_one this]; exact h1, by field_simp⟩
  have e : toParent g ⟨ρ * Real.cos θ, ρ * Real.sin θ, 0⟩ = toParent g 0 +
      l • (Real.cos θ • axisA radius g + Real.sin θ • axisB radius g) := by
    rw [toParent_plane, axisA_smul radius, axisB_smul radius, hl]
    apply V3.ext <;> simp <;> ring
  rw [e]
  simp only [Within, sectorLower, sectorUpper, add_x, add_y, add_z, smul_x, smul_y, smul_z,
    mul_comm (Real.cos θ), mul_comm (Real.sin θ)]
  exact ⟨⟨sector_lower _ _ _ _ _ _ _ h2 h3 hs hl0 hl1, sector_upper _ _ _ _ _ _ _ h2 h3 hs hl0 hl1⟩,
    ⟨sector_lower _ _ _ _ _ _ _ h2 h3 hs hl0 hl1, sector_upper _ _ _ _ _ _ _ h2 h3 hs hl0 hl1⟩,
    ⟨sector_lower _ _ _ _ _ _ _ h2 h3 hs hl0 hl1, sector_upper _ _ _ _ _ _ _ h2 h3 hs hl0 hl1⟩⟩

/-- C19, partial (points in the plane, opening angle less than a full turn): bounds of a
sector.  For a full turn the claim is false, see `C19_sector_full_counterexample`. -/
theorem C19_sector_partial (radius start stop : ℝ) (hs : stop - start < 2 * π)
    (g : Option Rigid) (p : V3) (hz : (toLocal g p).z = 0)
    (h : sectorMask radius start stop true false g p = true) :
    Within (sectorLower radius start stop g) p (sectorUpper radius start stop g) := by
  obtain ⟨ρ, θ, h0, h1, h2, h3, h4, h5⟩ := inOpenSector_of_mask h
  have := closedSector_within hs (g := g) (q := toLocal g p)
    ⟨ρ, θ, h0, h1, h2.le, h3.le, V3.ext h4 h5 hz⟩
  rwa [toParent_toLocal] at this

example : Within (sectorLower 2 (-(π / 2)) (π / 2) none) ⟨1, 0, 0⟩
    (sectorUpper 2 (-(π / 2)) (π / 2) none) :=
  C19_sector_partial 2 (-(π / 2)) (π / 2) (by linarith [pi_pos]) none ⟨1, 0, 0⟩ rfl (by
    have := C18_sector_partial 2 (-(π / 2)) (π / 2) (by linarith [pi_pos])
      (by linarith [pi_pos]) true false none ⟨1, 0, 0⟩ (by simp)
    simp only [toParent, Option.elim_none] at this
    rw [this, Accepts]
    intro _
    simp only [iff_true]
    exact ⟨1, 0, by norm_num, by norm_num, by linarith [pi_pos], by linarith [pi_pos], by simp,
      by simp⟩)

theorem candidate_attained {c a b start stop x : ℝ} (h0 : start ≤ stop)
    (h1 : stop - start < 2 * π) (hx : x ∈ sectorCandidates c a b start stop) :
    ∃ l θ, (l = 0 ∨ l = 1) ∧ start ≤ θ ∧ θ ≤ stop ∧
      x = c + l * (a * Real.cos θ + b * Real.sin θ) := by
  have hspan : pyMod (stop - start) (2 * π) = stop - start :=
    pyMod_of_mem two_pi_pos (by linarith) h1
  have hkeep (φ : ℝ) (h : x = if pyMod (φ - start) (2 * π) ≤ stop - start then
      c + a * Real.cos φ + b * Real.sin φ else c + a * Real.cos start + b * Real.sin start) :
      ∃ l θ, (l = 0 ∨ l = 1) ∧ start ≤ θ ∧ θ ≤ stop ∧
        x = c + l * (a * Real.cos θ + b * Real.sin θ) := by
    split at h
    · rename_i hk
      have hr := pyMod_pos_range (φ - start) two_pi_pos
      obtain ⟨k, hk'⟩ := pyMod_shift (φ - start) (2 * π)
      have e : start + pyMod (φ - start) (2 * π) = φ - 2 * π * k := by rw [hk']; ring
      refine ⟨1, start + pyMod (φ - start) (2 * π), by simp, by linarith, by linarith, ?_⟩
      rw [e, cos_sub_int, sin_sub_int, h]; ring
    · exact ⟨1, start, by simp, le_refl _, h0, by rw [h]; ring⟩
  simp only [sectorCandidates, hspan, List.mem_cons, List.not_mem_nil, or_false] at hx
  rcases hx with h | h | h | h | h
  · exact ⟨0, start, by simp, le_refl _, h0, by rw [h]; ring⟩
  · exact ⟨1, start, by simp, le_refl _, h0, by rw [h]; ring⟩
  · exact ⟨1, stop, by simp, h0, le_refl _, by rw [h]; ring⟩
  · exact hkeep _ h
  · exact hkeep _ h

/-- C19: the bounds of a sector are attained by points of the closed sector. -/
theorem C19_sector_attained (radius start stop : ℝ) (hr : 0 ≤ radius) (h0 : start ≤ stop)
    (h1 : stop - start < 2 * π) (g : Option Rigid) :
    (∃ q, InClosedSector radius start stop q ∧
      (toParent g q).x = (sectorUpper radius start stop g).x) ∧
    (∃ q, InClosedSector radius start stop q ∧
      (toParent g q).x = (sectorLower radius start stop g).x) ∧
    (∃ q, InClosedSector radius start stop q ∧
      (toParent g q).y = (sectorUpper radius start stop g).y) ∧
    (∃ q, InClosedSector radius start stop q ∧
      (toParent g q).y = (sectorLower radius start stop g).y) ∧
    (∃ q, InClosedSector radius start stop q ∧
      (toParent g q).z = (sectorUpper radius start stop g).z) ∧
    (∃ q, InClosedSector radius start stop q ∧
      (toParent g q).z = (sectorLower radius start stop g).z) := by
  have pt (l θ : ℝ) : toParent g ⟨l * radius * Real.cos θ, l * radius * Real.sin θ, 0⟩ =
      toParent g 0 + l • (Real.cos θ • axisA radius g + Real.sin θ • axisB radius g) := by
    rw [toParent_plane, axisA_smul radius, axisB_smul radius]
    apply V3.ext <;> simp <;> ring
  have mem (l θ : ℝ) (hl : l = 0 ∨ l = 1) (h2 : start ≤ θ) (h3 : θ ≤ stop) :
      InClosedSector radius start stop ⟨l * radius * Real.cos θ, l * radius * Real.sin θ, 0⟩ := by
    rcases hl with rfl | rfl
    · exact ⟨0, θ, le_refl _, hr, h2, h3, by simp⟩
    · exact ⟨radius, θ, hr, le_refl _, h2, h3, by simp⟩
  have ne (c a b : ℝ) : sectorCandidates c a b start stop ≠ [] := by simp [sectorCandidates]
  have up (c a b : ℝ) := candidate_attained h0 h1 (reduceMax_mem (ne c a b))
  have lo (c a b : ℝ) := candidate_attained h0 h1 (reduceMin_mem (ne c a b))
  refine ⟨?_, ?_, ?_, ?_, ?_, ?_⟩
  · obtain ⟨l, θ, hl, h2, h3, e⟩ := up (toParent g 0).x (axisA radius g).x (axisB radius g).x
    refine ⟨_, mem l θ hl h2 h3, ?_⟩
    rw [pt]; simp only [sectorUpper, add_x, smul_x]; rw [e]; ring
  · obtain ⟨l, θ, hl, h2, h3, e⟩ := lo (toParent g 0).x (axisA radius g).x (axisB radius g).x
    refine ⟨_, mem l θ hl h2 h3, ?_⟩
    rw [pt]; simp only [sectorLower, add_x, smul_x]; rw [e]; ring
  · obtain ⟨l, θ, hl, h2, h3, e⟩ := up (toParent g 0).y (axisA radius g).y (axisB radius g).y
    refine ⟨_, mem l θ hl h2 h3, ?_⟩
    rw [pt]; simp only [sectorUpper, add_y, smul_y]; rw [e]; ring
  · obtain ⟨l, θ, hl, h2, h3, e⟩ := lo (toParent g 0).y (axisA radius g).y (axisB radius g).y
    refine ⟨_, mem l θ hl h2 h3, ?_⟩
    rw [pt]; simp only [sectorLower, add_y, smul_y]; rw [e]; ring
  · obtain ⟨l, θ, hl, h2, h3, e⟩ := up (toParent g 0).z (axisA radius g).z (axisB radius g).z
    refine ⟨_, mem l θ hl h2 h3, ?_⟩
    rw [pt]; simp only [sectorUpper, add_z, smul_z]; rw [e]; ring
  · obtain ⟨l, θ, hl, h2, h3, e⟩ := lo (toParent g 0).z (axisA radius g).z (axisB radius g).z
    refine ⟨_, mem l θ hl h2 h3, ?_⟩
    rw [pt]; simp only [sectorLower, add_z, smul_z]; rw [e]; ring

example : ∃ q, InClosedSector 1 0 π q ∧ (toParent none q).y = (sectorUpper 1 0 π none).y :=
  (C19_sector_attained 1 0 π (by norm_num) pi_pos.le (by linarith [pi_pos]) none).2.2.1

/-- C19: the bounds of a sector with an opening of a full turn (from 0 to 2π, which the
documentation allows) are wrong: the opening is reduced modulo a full turn to zero, and the
lower bound along x is the apex instead of the far side of the disk. -/
theorem C19_sector_full_counterexample :
    sectorMask 1 0 (2 * π) true false none ⟨-1, 0, 0⟩ = true ∧
    ¬ Within (sectorLower 1 0 (2 * π) none) ⟨-1, 0, 0⟩ (sectorUpper 1 0 (2 * π) none) := by
  constructor
  · have := C18_sector_partial 1 0 (2 * π) (by linarith [pi_pos]) (le_refl _) true false none
      ⟨-1, 0, 0⟩ (by simp)
    simp only [toParent, Option.elim_none] at this
    rw [this, Accepts]
    intro _
    simp only [iff_true]
    exact ⟨1, π, by norm_num, by norm_num, pi_pos, by linarith [pi_pos], by simp, by simp⟩
  · intro h
    have h := h.1.1
    have ha : arctan2 0 1 = 0 := by
      have := Complex.arg_ofReal_of_nonneg (x := 1) (by norm_num)
      unfold arctan2; rw [← this]; congr 1; apply Complex.ext <;> simp
    have hspan : pyMod (2 * π) (2 * π) = 0 :=
      pyMod_eq_of two_pi_pos (-1) (by push_cast; ring) (le_refl _) two_pi_pos
    have hcrit : pyMod (0 + π) (2 * π) = π := by
      rw [pyMod_of_mem two_pi_pos] <;> linarith [pi_pos]
    have : (sectorLower 1 0 (2 * π) none).x = 0 := by
      simp only [sectorLower, sectorCandidates, toParent, axisA, axisB, Option.elim_none, sub_x,
        zero_x, sub_zero, ha, hspan, hcrit]
      rw [if_neg (not_le.2 pi_pos)]
      simp [reduceMin]
    rw [this] at h
    norm_num at h

/-- Every component of a transformed point is an affine function of the point. -/
theorem toParent_affine (g : Option Rigid) :
    (∃ (n : V3) (b : ℝ), ∀ v, (toParent g v).x = n.dot v + b) ∧ (∃ (n : V3) (b : ℝ), ∀ v, (toParent g v).y = n.dot v + b) ∧
    (∃ (n : V3) (b : ℝ), ∀ v, (toParent g v).z = n.dot v + b) := by
  cases g with
  | none =>
    exact ⟨⟨⟨1, 0, 0⟩, 0, fun v => by simp [toParent, dot]⟩,
      ⟨⟨0, 1, 0⟩, 0, fun v => by simp [toParent, dot]⟩,
      ⟨⟨0, 0, 1⟩, 0, fun v => by simp [toParent, dot]⟩⟩
  | some g =>
    exact ⟨⟨g.rot.r1, g.shift.x, fun v => rfl⟩, ⟨g.rot.r2, g.shift.y, fun v => rfl⟩,
      ⟨g.rot.r3, g.shift.z, fun v => rfl⟩⟩

theorem hull_le (n : V3) (M : ℝ) (w : List ℝ) (l : List V3) (hlen : w.length = l.length)
    (hw : ∀ a ∈ w, 0 ≤ a) (hM : ∀ v ∈ l, n.dot v ≤ M) :
    n.dot (((w.zip l).map fun a => a.1 • a.2).foldr (· + ·) 0) ≤ w.sum * M := by
  induction w generalizing l with
  | nil => simp [dot]
  | cons a w ih =>
    cases l with
    | nil => simp at hlen
    | cons v l =>
      have h1 := ih l (by simpa using hlen) (fun a ha => hw a (by simp [ha]))
        (fun v hv => hM v (by simp [hv]))
      have h2 := hw a (by simp)
      have h3 := hM v (by simp)
      simp only [List.zip_cons_cons, List.map_cons, List.foldr_cons, List.sum_cons, dot_add,
        dot_smul]
      nlinarith

theorem hull_bound {f : V3 → ℝ} (hf : ∃ (n : V3) (b : ℝ), ∀ v, f v = n.dot v + b)
    {l : List V3} {p : V3} (h : InHull l p) :
    reduceMin (l.map f) ≤ f p ∧ f p ≤ reduceMax (l.map f) := by
  obtain ⟨w, hlen, hw, hsum, rfl⟩ := h
  obtain ⟨n, b, hf⟩ := hf
  constructor
  · have := hull_le (-n) (b - reduceMin (l.map f)) w l hlen hw (by
      intro v hv
      have : reduceMin (l.map f) ≤ f v := reduceMin_le (List.mem_map_of_mem hv)
      rw [hf] at this; rw [neg_dot]; linarith)
    rw [hf, neg_dot, hsum] at *; linarith
  · have := hull_le n (reduceMax (l.map f) - b) w l hlen hw (by
      intro v hv
      have : f v ≤ reduceMax (l.map f) := le_reduceMax (List.mem_map_of_mem hv)
      rw [hf] at this; linarith)
    rw [hf, hsum] at *; linarith

/-- C19: bounds of a polygon: if the point-in-polygon test only accepts convex combinations of
the vertices, every accepted point of the plane is within the bounds. -/
theorem C19_polygon (pip : List V3 → V3 → Bool) (vertices : List V3)
    (g : Option Rigid) (p : V3)
    (hpip : pip vertices (toLocal g p) = true → InHull vertices (toLocal g p))
    (h : polygonMask pip vertices true false g p = true) :
    Within (polygonLower vertices g) p (polygonUpper vertices g) := by
  have h' := C18_polygon pip vertices true false g (toLocal g p)
  rw [toParent_toLocal] at h'
  have hh := hpip ((h'.1 h rfl).2 rfl)
  obtain ⟨ax, ay, az⟩ := toParent_affine g
  have bx := hull_bound ax hh
  have by' := hull_bound ay hh
  have bz := hull_bound az hh
  rw [toParent_toLocal] at bx by' bz
  simp only [Within, polygonLower, polygonUpper, List.map_map, Function.comp_def]
  exact ⟨bx, by', bz⟩

theorem onSegment_hull (l : List V3) (i j : ℕ) (hi : i < l.length) (hj : j < l.length) {p : V3}
    (h : OnSegment (l.getD i 0) (l.getD j 0) p) {f : V3 → ℝ}
    (hf : ∃ (n : V3) (b : ℝ), ∀ v, f v = n.dot v + b) :
    reduceMin (l.map f) ≤ f p ∧ f p ≤ reduceMax (l.map f) := by
  obtain ⟨t, h0, h1, rfl⟩ := h
  obtain ⟨n, b, hf⟩ := hf
  have mi : l.getD i 0 ∈ l := by
    simp [List.getD, hi]
  have mj : l.getD j 0 ∈ l := by
    simp [List.getD, hj]
  have i1 : reduceMin (l.map f) ≤ f (l.getD i 0) := reduceMin_le (List.mem_map_of_mem mi)
  have i2 : f (l.getD i 0) ≤ reduceMax (l.map f) := le_reduceMax (List.mem_map_of_mem mi)
  have j1 : reduceMin (l.map f) ≤ f (l.getD j 0) := reduceMin_le (List.mem_map_of_mem mj)
  have j2 : f (l.getD j 0) ≤ reduceMax (l.map f) := le_reduceMax (List.mem_map_of_mem mj)
  have e : f (l.getD i 0 + t • (l.getD j 0 - l.getD i 0)) =
      (1 - t) * f (l.getD i 0) + t * f (l.getD j 0) := by
    simp only [hf, dot_add, dot_smul, dot_sub]; ring
  rw [e]
  constructor <;> nlinarith

/-- The vertices of a rectangle are its corners. -/
theorem rectangleVertices_eq (hx hy : ℝ) :
    rectangleVertices hx hy = [⟨hx, hy, 0⟩, ⟨-hx, hy, 0⟩, ⟨-hx, -hy, 0⟩, ⟨hx, -hy, 0⟩] := by
  have s2 : Real.sqrt 2 * (Real.sqrt 2 / 2) = 1 := by
    have := Real.mul_self_sqrt (show (0 : ℝ) ≤ 2 by norm_num); linarith
  have c1 : Real.cos (π / 2 + π / 4) = -(Real.sqrt 2 / 2) := by
    rw [add_comm, Real.cos_add_pi_div_two, Real.sin_pi_div_four]
  have s1 : Real.sin (π / 2 + π / 4) = Real.sqrt 2 / 2 := by
    rw [add_comm, Real.sin_add_pi_div_two, Real.cos_pi_div_four]
  have c2 : Real.cos (2 * (π / 2) + π / 4) = -(Real.sqrt 2 / 2) := by
    rw [show 2 * (π / 2) + π / 4 = π / 4 + π by ring, Real.cos_add_pi, Real.cos_pi_div_four]
  have s2' : Real.sin (2 * (π / 2) + π / 4) = -(Real.sqrt 2 / 2) := by
    rw [show 2 * (π / 2) + π / 4 = π / 4 + π by ring, Real.sin_add_pi, Real.sin_pi_div_four]
  have c3 : Real.cos (3 * (π / 2) + π / 4) = Real.sqrt 2 / 2 := by
    rw [show 3 * (π / 2) + π / 4 = -(π / 4) + 2 * π by ring, Real.cos_add_two_pi, Real.cos_neg,
      Real.cos_pi_div_four]
  have s3 : Real.sin (3 * (π / 2) + π / 4) = -(Real.sqrt 2 / 2) := by
    rw [show 3 * (π / 2) + π / 4 = -(π / 4) + 2 * π by ring, Real.sin_add_two_pi, Real.sin_neg,
      Real.sin_pi_div_four]
  have hr : List.range 4 = [0, 1, 2, 3] := rfl
  rw [rectangleVertices, hr]
  simp only [List.map_cons, List.map_nil, Nat.cast_zero, Nat.cast_one, Nat.cast_ofNat, zero_mul,
    zero_add, one_mul, c1, s1, c2, s2', c3, s3, Real.cos_pi_div_four, Real.sin_pi_div_four,
    mul_neg, s2, neg_mul]

/-- C19, partial (points in the plane): bounds of a rectangle. -/
theorem C19_rectangle_partial (hx hy : ℝ) (g : Option Rigid) (p : V3)
    (hz : (toLocal g p).z = 0) (h : rectangleMask hx hy true false g p = true) :
    Within (polygonLower (rectangleVertices hx hy) g) p
      (polygonUpper (rectangleVertices hx hy) g) := by
  have h' := C18_rectangle hx hy true false g (toLocal g p)
  rw [toParent_toLocal] at h'
  obtain ⟨h1, h2⟩ := (h'.1 h rfl).2 rfl
  rw [abs_le] at h1 h2
  set q := toLocal g p with hq
  have bound {f : V3 → ℝ} (hf : ∃ (n : V3) (b : ℝ), ∀ v, f v = n.dot v + b) :
      reduceMin ((rectangleVertices hx hy).map f) ≤ f q ∧
        f q ≤ reduceMax ((rectangleVertices hx hy).map f) := by
    rw [rectangleVertices_eq]
    set l : List V3 := [⟨hx, hy, 0⟩, ⟨-hx, hy, 0⟩, ⟨-hx, -hy, 0⟩, ⟨hx, -hy, 0⟩]
    obtain ⟨n, b, hf⟩ := hf
    have lo (v : V3) (hv : v ∈ l) : reduceMin (l.map f) ≤ f v := reduceMin_le (List.mem_map_of_mem hv)
    have up (v : V3) (hv : v ∈ l) : f v ≤ reduceMax (l.map f) := le_reduceMax (List.mem_map_of_mem hv)
    have l1 := lo ⟨hx, hy, 0⟩ (by simp [l])
    have l2 := lo ⟨-hx, hy, 0⟩ (by simp [l])
    have l3 := lo ⟨-hx, -hy, 0⟩ (by simp [l])
    have l4 := lo ⟨hx, -hy, 0⟩ (by simp [l])
    have u1 := up ⟨hx, hy, 0⟩ (by simp [l])
    have u2 := up ⟨-hx, hy, 0⟩ (by simp [l])
    have u3 := up ⟨-hx, -hy, 0⟩ (by simp [l])
    have u4 := up ⟨hx, -hy, 0⟩ (by simp [l])
    rw [hf] at l1 l2 l3 l4 u1 u2 u3 u4 ⊢
    simp only [dot, hz] at l1 l2 l3 l4 u1 u2 u3 u4 ⊢
    constructor
    · rcases le_total 0 n.x with ha | ha <;> rcases le_total 0 n.y with hb | hb <;> nlinarith
    · rcases le_total 0 n.x with ha | ha <;> rcases le_total 0 n.y with hb | hb <;> nlinarith
  obtain ⟨ax, ay, az⟩ := toParent_affine g
  have bx := bound ax
  have by' := bound ay
  have bz := bound az
  rw [hq, toParent_toLocal] at bx by' bz
  simp only [Within, polygonLower, polygonUpper, List.map_map, Function.comp_def]
  exact ⟨bx, by', bz⟩

example : Within (polygonLower (rectangleVertices 1 2) none) ⟨1, -2, 0⟩
    (polygonUpper (rectangleVertices 1 2) none) :=
  C19_rectangle_partial 1 2 none ⟨1, -2, 0⟩ rfl (by
    have := C18_rectangle 1 2 true false none ⟨1, -2, 0⟩
    simp only [toParent, Option.elim_none] at this
    rw [this]; norm_num [Accepts])

/-- C19: the bounds of a rectangle are attained, whatever the transformation. -/
theorem C19_rectangle_attained (hx hy : ℝ) (h1 : 0 ≤ hx) (h2 : 0 ≤ hy) (g : Option Rigid) :
    (∃ p, rectangleMask hx hy true false g p = true ∧
      p.x = (polygonUpper (rectangleVertices hx hy) g).x) ∧
    (∃ p, rectangleMask hx hy true false g p = true ∧
      p.x = (polygonLower (rectangleVertices hx hy) g).x) ∧
    (∃ p, rectangleMask hx hy true false g p = true ∧
      p.y = (polygonUpper (rectangleVertices hx hy) g).y) ∧
    (∃ p, rectangleMask hx hy true false g p = true ∧
      p.y = (polygonLower (rectangleVertices hx hy) g).y) ∧
    (∃ p, (toLocal g p).z = 0 ∧ rectangleMask hx hy true false g p = true ∧
      p.z = (polygonUpper (rectangleVertices hx hy) g).z) ∧
    (∃ p, (toLocal g p).z = 0 ∧ rectangleMask hx hy true false g p = true ∧
      p.z = (polygonLower (rectangleVertices hx hy) g).z) := by
  have m (q : V3) (hq : q ∈ rectangleVertices hx hy) :
      rectangleMask hx hy true false g (toParent g q) = true := by
    rw [C18_rectangle]
    rw [rectangleVertices_eq] at hq
    simp only [List.mem_cons, List.not_mem_nil, or_false] at hq
    rcases hq with rfl | rfl | rfl | rfl <;> simp [Accepts, abs_of_nonneg, h1, h2]
  have mz (q : V3) (hq : q ∈ rectangleVertices hx hy) : q.z = 0 := by
    rw [rectangleVertices_eq] at hq
    simp only [List.mem_cons, List.not_mem_nil, or_false] at hq
    rcases hq with rfl | rfl | rfl | rfl <;> rfl
  have ne (f : V3 → ℝ) : (((rectangleVertices hx hy).map (toParent g)).map f) ≠ [] := by
    rw [rectangleVertices_eq]; simp
  have up (f : V3 → ℝ) : ∃ q ∈ rectangleVertices hx hy, f (toParent g q) =
      reduceMax (((rectangleVertices hx hy).map (toParent g)).map f) := by
    obtain ⟨q, hq, e⟩ := List.mem_map.1 (reduceMax_mem (ne f))
    obtain ⟨q', hq', rfl⟩ := List.mem_map.1 hq
    exact ⟨q', hq', e⟩
  have lo (f : V3 → ℝ) : ∃ q ∈ rectangleVertices hx hy, f (toParent g q) =
      reduceMin (((rectangleVertices hx hy).map (toParent g)).map f) := by
    obtain ⟨q, hq, e⟩ := List.mem_map.1 (reduceMin_mem (ne f))
    obtain ⟨q', hq', rfl⟩ := List.mem_map.1 hq
    exact ⟨q', hq', e⟩
  refine ⟨?_, ?_, ?_, ?_, ?_, ?_⟩
  · obtain ⟨q, hq, e⟩ := up V3.x; exact ⟨_, m q hq, e⟩
  · obtain ⟨q, hq, e⟩ := lo V3.x; exact ⟨_, m q hq, e⟩
  · obtain ⟨q, hq, e⟩ := up V3.y; exact ⟨_, m q hq, e⟩
  · obtain ⟨q, hq, e⟩ := lo V3.y; exact ⟨_, m q hq, e⟩
  · obtain ⟨q, hq, e⟩ := up V3.z; exact ⟨_, by simp [mz q hq], m q hq, e⟩
  · obtain ⟨q, hq, e⟩ := lo V3.z; exact ⟨_, by simp [mz q hq], m q hq, e⟩

example : ∃ p, rectangleMask 1 2 true false none p = true ∧
    p.y = (polygonUpper (rectangleVertices 1 2) none).y :=
  (C19_rectangle_attained 1 2 (by norm_num) (by norm_num) none).2.2.1

end Optika
