import Verif.Model.Image

/-!
# C109: cells of angles are weighed by their solid angle
-/

namespace Optika
open V3 Filter Topology

/-! ## Specification -/

/-- The part of `b` that is tangential to the unit sphere at `a`. -/
noncomputable def tangentAt (a b : V3) : V3 := b - (a.dot b) • a

/-- The angle at the corner `a` of a triangle on the unit sphere: the angle between the arcs to `b` and `c`. -/
noncomputable def cornerAngle (a b c : V3) : ℝ :=
  Real.arccos ((tangentAt a b).dot (tangentAt a c) / ((tangentAt a b).len * (tangentAt a c).len))

/-- The corners run around the triangle such that the right-hand rule points outwards. -/
def Outward (a b c : V3) : Prop := 0 < a.dot (b.cross c)

/-! ## Proofs -/

/-- The number whose argument is half of the solid angle. -/
noncomputable def halfAngle (a b c : V3) : ℂ := ⟨1 + a.dot b + b.dot c + c.dot a, a.dot (b.cross c)⟩

theorem solidAngle_eq (a b c : V3) : solidAngle a b c = 2 * (halfAngle a b c).arg := rfl

theorem triple_gram {a b c : V3} (ha : a.dot a = 1) (hb : b.dot b = 1) (hc : c.dot c = 1) :
    (a.dot (b.cross c)) ^ 2 = 1 + 2 * a.dot b * b.dot c * c.dot a - a.dot b ^ 2 - b.dot c ^ 2 - c.dot a ^ 2 := by
  have : (a.dot (b.cross c)) ^ 2 = a.dot a * b.dot b * c.dot c + 2 * a.dot b * b.dot c * c.dot a
      - c.dot c * a.dot b ^ 2 - a.dot a * b.dot c ^ 2 - b.dot b * c.dot a ^ 2 := by
    simp only [V3.dot, V3.cross]; ring
  rw [ha, hb, hc] at this
  linarith

theorem triple_cycle (a b c : V3) : b.dot (c.cross a) = a.dot (b.cross c) := by
  simp only [V3.dot, V3.cross]; ring

theorem dot_swap (a b : V3) : a.dot b = b.dot a := by simp only [V3.dot]; ring

theorem Outward.cycle {a b c : V3} (h : Outward a b c) : Outward b c a := by
  unfold Outward; rw [triple_cycle]; exact h

theorem solidAngle_cycle (a b c : V3) : solidAngle b c a = solidAngle a b c := by
  rw [solidAngle_eq, solidAngle_eq]
  congr 2
  unfold halfAngle
  rw [triple_cycle]
  congr 1
  ring

/-- The number whose argument is the angle at a corner. -/
noncomputable def cornerNumber (a b c : V3) : ℂ := ⟨b.dot c - a.dot b * a.dot c, a.dot (b.cross c)⟩

theorem tangent_dot {a : V3} (ha : a.dot a = 1) (b c : V3) :
    (tangentAt a b).dot (tangentAt a c) = b.dot c - a.dot b * a.dot c := by
  have : (tangentAt a b).dot (tangentAt a c)
      = b.dot c - 2 * (a.dot b * a.dot c) + a.dot b * a.dot c * a.dot a := by
    simp only [tangentAt, V3.dot, sub_x, sub_y, sub_z, smul_x, smul_y, smul_z]; ring
  rw [this, ha]; ring

theorem cornerAngle_arg {a b c : V3} (ha : a.dot a = 1) (hb : b.dot b = 1) (hc : c.dot c = 1) (h : Outward a b c) :
    cornerAngle a b c = (cornerNumber a b c).arg := by
  have hne : cornerNumber a b c ≠ 0 := by
    intro e
    have := congrArg Complex.im e
    exact h.ne' this
  rw [Complex.arg_of_im_nonneg_of_ne_zero (show 0 ≤ (cornerNumber a b c).im from h.le) hne]
  unfold cornerAngle
  rw [tangent_dot ha]
  congr 2
  unfold V3.len
  rw [tangent_dot ha, tangent_dot ha, Complex.norm_def, ← Real.sqrt_mul (by
    have : (tangentAt a b).dot (tangentAt a b) = b.dot b - a.dot b * a.dot b := tangent_dot ha b b
    rw [← this]; unfold V3.dot; nlinarith [sq_nonneg (tangentAt a b).x, sq_nonneg (tangentAt a b).y,
      sq_nonneg (tangentAt a b).z])]
  congr 1
  rw [hb, hc, Complex.normSq_apply]
  have := triple_gram ha hb hc
  simp only [cornerNumber]
  rw [dot_swap c a] at this
  linear_combination -this

theorem arg_mem_Ioo {w : ℂ} (h : 0 < w.im) : 0 < w.arg ∧ w.arg < Real.pi := by
  refine ⟨lt_of_le_of_ne (Complex.arg_nonneg_iff.2 h.le) fun e => ?_, lt_of_le_of_ne (Complex.arg_le_pi _) fun e => ?_⟩
  · exact h.ne' (Complex.arg_eq_zero_iff.1 e.symm).2
  · exact h.ne' (Complex.arg_eq_pi_iff.1 e).2

theorem arg_coe (w : ℂ) : ((w.arg : ℝ) : Real.Angle) = w.arg := rfl

/-- The product of the three numbers at the corners. -/
theorem corner_product {a b c : V3} (ha : a.dot a = 1) (hb : b.dot b = 1) (hc : c.dot c = 1) :
    cornerNumber a b c * cornerNumber b c a * cornerNumber c a b
      = -(((1 - a.dot b) * (1 - b.dot c) * (1 - c.dot a) / 2 : ℝ) : ℂ) * (halfAngle a b c * halfAngle a b c) := by
  have hT := triple_gram ha hb hc
  have e1 : b.dot (c.cross a) = a.dot (b.cross c) := triple_cycle a b c
  have e2 : c.dot (a.cross b) = a.dot (b.cross c) := by rw [← triple_cycle, ← triple_cycle]
  apply Complex.ext
  · simp only [cornerNumber, halfAngle, Complex.mul_re, Complex.mul_im, Complex.neg_re, Complex.neg_im, Complex.ofReal_re,
      Complex.ofReal_im, e1, e2]
    rw [dot_swap a c, dot_swap b a, dot_swap c b]
    generalize a.dot (b.cross c) = T at *
    generalize a.dot b = X at *
    generalize b.dot c = Y at *
    generalize c.dot a = Z at *
    linear_combination -((Y - X * Z) + (Z - X * Y) + (X - Y * Z) + (1 - X) * (1 - Y) * (1 - Z) / 2) * hT
  · simp only [cornerNumber, halfAngle, Complex.mul_re, Complex.mul_im, Complex.neg_re, Complex.neg_im, Complex.ofReal_re,
      Complex.ofReal_im, e1, e2]
    rw [dot_swap a c, dot_swap b a, dot_swap c b]
    generalize a.dot (b.cross c) = T at *
    generalize a.dot b = X at *
    generalize b.dot c = Y at *
    generalize c.dot a = Z at *
    linear_combination -T * hT

theorem dot_lt_one {a b c : V3} (ha : a.dot a = 1) (hb : b.dot b = 1) (h : Outward a b c) : a.dot b < 1 := by
  have e : (b - a).dot (b - a) = b.dot b - 2 * a.dot b + a.dot a := by
    simp only [V3.dot, sub_x, sub_y, sub_z]; ring
  rw [ha, hb] at e
  have h0 : 0 ≤ (b - a).dot (b - a) := by
    unfold V3.dot; nlinarith [sq_nonneg (b - a).x, sq_nonneg (b - a).y, sq_nonneg (b - a).z]
  refine lt_of_le_of_ne (by linarith) fun e1 => ?_
  have z : (b - a).dot (b - a) = 0 := by rw [e, e1]; ring
  have zx : (b - a).x = 0 := by
    unfold V3.dot at z; nlinarith [sq_nonneg (b - a).x, sq_nonneg (b - a).y, sq_nonneg (b - a).z]
  have zy : (b - a).y = 0 := by
    unfold V3.dot at z; nlinarith [sq_nonneg (b - a).x, sq_nonneg (b - a).y, sq_nonneg (b - a).z]
  have zz : (b - a).z = 0 := by
    unfold V3.dot at z; nlinarith [sq_nonneg (b - a).x, sq_nonneg (b - a).y, sq_nonneg (b - a).z]
  simp only [sub_x, sub_y, sub_z] at zx zy zz
  have : a.dot (b.cross c) = 0 := by
    simp only [V3.dot, V3.cross]
    rw [show b.x = a.x by linarith, show b.y = a.y by linarith, show b.z = a.z by linarith]
    ring
  exact h.ne' this

/-- The angles of a triangle on the sphere add up to more than 180 degrees. -/
theorem corner_sum {a b c : V3} (ha : a.dot a = 1) (hb : b.dot b = 1) (hc : c.dot c = 1) (h : Outward a b c) :
    Real.pi < (cornerNumber a b c).arg + (cornerNumber b c a).arg + (cornerNumber c a b).arg := by
  obtain ⟨a1, a2⟩ := arg_mem_Ioo (w := cornerNumber a b c) h
  obtain ⟨b1, b2⟩ := arg_mem_Ioo (w := cornerNumber b c a) h.cycle
  obtain ⟨c1, c2⟩ := arg_mem_Ioo (w := cornerNumber c a b) h.cycle.cycle
  by_contra hcon
  push Not at hcon
  have hsum : (cornerNumber a b c).arg + (cornerNumber b c a).arg ≤ Real.pi - (cornerNumber c a b).arg := by linarith
  have hcos := Real.cos_le_cos_of_nonneg_of_le_pi (by linarith) (by linarith) hsum
  rw [Real.cos_pi_sub, Real.cos_add] at hcos
  have na : cornerNumber a b c ≠ 0 := fun e => h.ne' (congrArg Complex.im e)
  have nb : cornerNumber b c a ≠ 0 := fun e => h.cycle.ne' (congrArg Complex.im e)
  have nc : cornerNumber c a b ≠ 0 := fun e => h.cycle.cycle.ne' (congrArg Complex.im e)
  rw [Complex.cos_arg na, Complex.cos_arg nb, Complex.cos_arg nc, Complex.sin_arg, Complex.sin_arg] at hcos
  have hT := triple_gram ha hb hc
  have e1 : b.dot (c.cross a) = a.dot (b.cross c) := triple_cycle a b c
  have e2 : c.dot (a.cross b) = a.dot (b.cross c) := by rw [← triple_cycle, ← triple_cycle]
  have hx1 := dot_lt_one ha hb h
  have key : ‖cornerNumber a b c‖ * ‖cornerNumber b c a‖ = (1 - a.dot b ^ 2) * ‖cornerNumber c a b‖ := by
    have hx2 : a.dot b ^ 2 ≤ 1 := by
      have := tangent_dot ha b b
      have h0 : 0 ≤ (tangentAt a b).dot (tangentAt a b) := by
        unfold V3.dot; nlinarith [sq_nonneg (tangentAt a b).x, sq_nonneg (tangentAt a b).y, sq_nonneg (tangentAt a b).z]
      rw [hb] at this
      nlinarith
    have l : 0 ≤ ‖cornerNumber a b c‖ * ‖cornerNumber b c a‖ := by positivity
    have r : 0 ≤ (1 - a.dot b ^ 2) * ‖cornerNumber c a b‖ := mul_nonneg (by linarith) (norm_nonneg _)
    rw [← sq_eq_sq₀ l r, mul_pow, mul_pow, ← Complex.normSq_eq_norm_sq, ← Complex.normSq_eq_norm_sq,
      ← Complex.normSq_eq_norm_sq, Complex.normSq_apply, Complex.normSq_apply, Complex.normSq_apply]
    simp only [cornerNumber, e1, e2]
    rw [dot_swap a c, dot_swap b a, dot_swap c b]
    generalize a.dot (b.cross c) = T at *
    generalize a.dot b = X at *
    generalize b.dot c = Y at *
    generalize c.dot a = Z at *
    have p1 : (Y - X * Z) * (Y - X * Z) + T * T = (1 - X ^ 2) * (1 - Z ^ 2) := by linear_combination hT
    have p2 : (Z - Y * X) * (Z - Y * X) + T * T = (1 - X ^ 2) * (1 - Y ^ 2) := by linear_combination hT
    have p3 : (X - Z * Y) * (X - Z * Y) + T * T = (1 - Y ^ 2) * (1 - Z ^ 2) := by linear_combination hT
    rw [p1, p2, p3]
    ring
  have pa : 0 < ‖cornerNumber a b c‖ := norm_pos_iff.2 na
  have pb : 0 < ‖cornerNumber b c a‖ := norm_pos_iff.2 nb
  have pc : 0 < ‖cornerNumber c a b‖ := norm_pos_iff.2 nc
  have hX : 0 < 1 - a.dot b ^ 2 := by
    by_contra hneg
    have : (1 - a.dot b ^ 2) * ‖cornerNumber c a b‖ ≤ 0 := mul_nonpos_of_nonpos_of_nonneg (by linarith) pc.le
    have : 0 < ‖cornerNumber a b c‖ * ‖cornerNumber b c a‖ := by positivity
    linarith
  have hm : -((cornerNumber c a b).re * (1 - a.dot b ^ 2))
      ≤ (cornerNumber a b c).re * (cornerNumber b c a).re - (cornerNumber a b c).im * (cornerNumber b c a).im := by
    have e : (cornerNumber a b c).re / ‖cornerNumber a b c‖ * ((cornerNumber b c a).re / ‖cornerNumber b c a‖)
        - (cornerNumber a b c).im / ‖cornerNumber a b c‖ * ((cornerNumber b c a).im / ‖cornerNumber b c a‖)
        = ((cornerNumber a b c).re * (cornerNumber b c a).re - (cornerNumber a b c).im * (cornerNumber b c a).im)
          / ((1 - a.dot b ^ 2) * ‖cornerNumber c a b‖) := by
      rw [← key]; field_simp
    rw [e, le_div_iff₀ (by positivity)] at hcos
    have : -((cornerNumber c a b).re / ‖cornerNumber c a b‖) * ((1 - a.dot b ^ 2) * ‖cornerNumber c a b‖)
        = -((cornerNumber c a b).re * (1 - a.dot b ^ 2)) := by field_simp
    linarith
  have hT0 : 0 < a.dot (b.cross c) := h
  simp only [cornerNumber, e1, e2] at hm
  rw [dot_swap a c, dot_swap b a, dot_swap c b] at hm
  generalize a.dot (b.cross c) = T at *
  generalize a.dot b = X at *
  generalize b.dot c = Y at *
  generalize c.dot a = Z at *
  have : (Y - X * Z) * (Z - Y * X) - T * T + (X - Z * Y) * (1 - X ^ 2) = -(1 - X) * T ^ 2 := by
    linear_combination (-X) * hT
  have : 0 < (1 - X) * T ^ 2 := mul_pos (by linarith) (by positivity)
  linarith

theorem int_of_angle {x y : ℝ} (h : (x : Real.Angle) = y) (h1 : -(2 * Real.pi) < x - y) (h2 : x - y < 2 * Real.pi) :
    x = y := by
  obtain ⟨k, hk⟩ := Real.Angle.angle_eq_iff_two_pi_dvd_sub.1 h
  have hp := Real.pi_pos
  have : k = 0 := by
    rw [hk] at h1 h2
    have l1 : (-1 : ℝ) < k := by nlinarith
    have l2 : (k : ℝ) < 1 := by nlinarith
    have l1' : (-1 : ℤ) < k := by exact_mod_cast l1
    have l2' : k < (1 : ℤ) := by exact_mod_cast l2
    omega
  rw [this] at hk
  simp at hk
  linarith

/-- **C109** (theorem of Girard): the solid angle of a triangle is the excess of its angles over 180 degrees. -/
theorem C109_girard {a b c : V3} (ha : a.dot a = 1) (hb : b.dot b = 1) (hc : c.dot c = 1) (h : Outward a b c) :
    solidAngle a b c = cornerAngle a b c + cornerAngle b c a + cornerAngle c a b - Real.pi := by
  rw [cornerAngle_arg ha hb hc h, cornerAngle_arg hb hc ha h.cycle, cornerAngle_arg hc ha hb h.cycle.cycle, solidAngle_eq]
  have hs := corner_sum ha hb hc h
  obtain ⟨a1, a2⟩ := arg_mem_Ioo (w := cornerNumber a b c) h
  obtain ⟨b1, b2⟩ := arg_mem_Ioo (w := cornerNumber b c a) h.cycle
  obtain ⟨c1, c2⟩ := arg_mem_Ioo (w := cornerNumber c a b) h.cycle.cycle
  obtain ⟨z1, z2⟩ := arg_mem_Ioo (w := halfAngle a b c) h
  have na : cornerNumber a b c ≠ 0 := fun e => h.ne' (congrArg Complex.im e)
  have nb : cornerNumber b c a ≠ 0 := fun e => h.cycle.ne' (congrArg Complex.im e)
  have nc : cornerNumber c a b ≠ 0 := fun e => h.cycle.cycle.ne' (congrArg Complex.im e)
  have nz : halfAngle a b c ≠ 0 := fun e => h.ne' (congrArg Complex.im e)
  apply int_of_angle
  · have hp := congrArg (fun w : ℂ => ((w.arg : ℝ) : Real.Angle)) (corner_product ha hb hc)
    have hk : 0 < (1 - a.dot b) * (1 - b.dot c) * (1 - c.dot a) / 2 := by
      have := dot_lt_one ha hb h
      have := dot_lt_one hb hc h.cycle
      have := dot_lt_one hc ha h.cycle.cycle
      have : 0 < (1 - a.dot b) * (1 - b.dot c) := mul_pos (by linarith) (by linarith)
      have : 0 < (1 - a.dot b) * (1 - b.dot c) * (1 - c.dot a) := mul_pos this (by linarith)
      linarith
    generalize (1 - a.dot b) * (1 - b.dot c) * (1 - c.dot a) / 2 = k at *
    rw [Complex.arg_mul_coe_angle (mul_ne_zero na nb) nc, Complex.arg_mul_coe_angle na nb, neg_mul,
      Complex.arg_neg_coe_angle (mul_ne_zero (by exact_mod_cast hk.ne') (mul_ne_zero nz nz)),
      Complex.arg_real_mul _ hk, Complex.arg_mul_coe_angle nz nz] at hp
    rw [two_mul, Real.Angle.coe_add, Real.Angle.coe_sub, Real.Angle.coe_add, Real.Angle.coe_add, hp]
    simp
  · linarith
  · linarith

/-- **C109**: a triangle that is run through the other way round has the opposite solid angle. -/
theorem C109_orientation {a b c : V3} (h : Outward a b c) : solidAngle a c b = -solidAngle a b c := by
  have : halfAngle a c b = (starRingEnd ℂ) (halfAngle a b c) := by
    apply Complex.ext
    · simp only [halfAngle, V3.dot, V3.cross, Complex.conj_re]; ring
    · simp only [halfAngle, V3.dot, V3.cross, Complex.conj_im]; ring
  rw [solidAngle_eq, solidAngle_eq, this, Complex.arg_conj, if_neg]
  · ring
  · exact (arg_mem_Ioo (w := halfAngle a b c) h).2.ne

/-- **C109**: solid angles add: a triangle that is cut in two has the solid angle of its parts. -/
theorem C109_split {a b c d : V3} (ha : a.dot a = 1) (hb : b.dot b = 1) (hc : c.dot c = 1) (hd : d.dot d = 1)
    (h : Outward a b c) {s t : ℝ} (hs : 0 < s) (ht : 0 < t) (hdd : d = s • b + t • c) :
    solidAngle a b c = solidAngle a b d + solidAngle a d c := by
  have t1 : a.dot (b.cross d) = t * a.dot (b.cross c) := by
    rw [hdd]; simp only [V3.dot, V3.cross, add_x, add_y, add_z, smul_x, smul_y, smul_z]; ring
  have t2 : a.dot (d.cross c) = s * a.dot (b.cross c) := by
    rw [hdd]; simp only [V3.dot, V3.cross, add_x, add_y, add_z, smul_x, smul_y, smul_z]; ring
  have o1 : Outward a b d := by unfold Outward; rw [t1]; exact mul_pos ht h
  have o2 : Outward a d c := by unfold Outward; rw [t2]; exact mul_pos hs h
  have nz : halfAngle a b c ≠ 0 := fun e => h.ne' (congrArg Complex.im e)
  have n1 : halfAngle a b d ≠ 0 := fun e => o1.ne' (congrArg Complex.im e)
  have n2 : halfAngle a d c ≠ 0 := fun e => o2.ne' (congrArg Complex.im e)
  obtain ⟨z1, z2⟩ := arg_mem_Ioo (w := halfAngle a b c) h
  obtain ⟨z3, z4⟩ := arg_mem_Ioo (w := halfAngle a b d) o1
  obtain ⟨z5, z6⟩ := arg_mem_Ioo (w := halfAngle a d c) o2
  have hT := triple_gram ha hb hc
  have ead : a.dot d = s * a.dot b + t * c.dot a := by
    rw [hdd]; simp only [V3.dot, add_x, add_y, add_z, smul_x, smul_y, smul_z]; ring
  have ebd : b.dot d = s + t * b.dot c := by
    have : b.dot d = s * b.dot b + t * b.dot c := by
      rw [hdd]; simp only [V3.dot, add_x, add_y, add_z, smul_x, smul_y, smul_z]; ring
    rw [this, hb]; ring
  have edc : d.dot c = s * b.dot c + t := by
    have : d.dot c = s * b.dot c + t * c.dot c := by
      rw [hdd]; simp only [V3.dot, add_x, add_y, add_z, smul_x, smul_y, smul_z]; ring
    rw [this, hc]; ring
  have edd : s ^ 2 + t ^ 2 + 2 * s * t * b.dot c = 1 := by
    have : d.dot d = s ^ 2 * b.dot b + t ^ 2 * c.dot c + 2 * s * t * b.dot c := by
      rw [hdd]; simp only [V3.dot, add_x, add_y, add_z, smul_x, smul_y, smul_z]; ring
    rw [hb, hc, hd] at this
    linarith
  have hk : 0 < (1 + a.dot d) * (1 + s + t) := by
    refine mul_pos ?_ (by linarith)
    have := dot_lt_one (a := a) (b := -d) (c := b) ha (by
      have : (-d).dot (-d) = d.dot d := by simp only [V3.dot, neg_x, neg_y, neg_z]; ring
      rw [this, hd]) (by
      unfold Outward
      have : a.dot ((-d).cross b) = a.dot (b.cross d) := by
        simp only [V3.dot, V3.cross, neg_x, neg_y, neg_z]; ring
      rw [this]
      exact o1)
    have e : a.dot (-d) = -a.dot d := by simp only [V3.dot, neg_x, neg_y, neg_z]; ring
    linarith
  have hprod : halfAngle a b d * halfAngle a d c
      = (((1 + a.dot d) * (1 + s + t) : ℝ) : ℂ) * halfAngle a b c := by
    apply Complex.ext
    · simp only [halfAngle, Complex.mul_re, Complex.ofReal_re, Complex.ofReal_im, t1, t2]
      rw [dot_swap d a, ead, ebd, edc]
      generalize a.dot (b.cross c) = T at *
      generalize a.dot b = X at *
      generalize b.dot c = Y at *
      generalize c.dot a = Z at *
      linear_combination -s * t * hT + (Y - X * Z) * edd
    · simp only [halfAngle, Complex.mul_im, Complex.ofReal_re, Complex.ofReal_im, t1, t2]
      rw [dot_swap d a, ead, ebd, edc]
      generalize a.dot (b.cross c) = T at *
      generalize a.dot b = X at *
      generalize b.dot c = Y at *
      generalize c.dot a = Z at *
      linear_combination T * edd
  rw [solidAngle_eq, solidAngle_eq, solidAngle_eq, ← mul_add]
  congr 1
  apply int_of_angle
  · have hp := congrArg (fun w : ℂ => ((w.arg : ℝ) : Real.Angle)) hprod
    rw [Complex.arg_mul_coe_angle n1 n2, Complex.arg_real_mul _ hk] at hp
    rw [Real.Angle.coe_add, hp]
  · linarith
  · linarith

/-! ## Cells between meridians -/

/-- The direction in which all meridians meet. -/
noncomputable def poleDirection : V3 := ⟨0, -1, 0⟩

theorem directionOf_unit (v : V2) : (directionOf v).dot (directionOf v) = 1 := by
  simp only [directionOf, V3.dot]
  have h1 := Real.sin_sq_add_cos_sq v.x
  have h2 := Real.sin_sq_add_cos_sq v.y
  linear_combination Real.cos v.y ^ 2 * h1 + h2

theorem pole_unit : poleDirection.dot poleDirection = 1 := by simp [poleDirection, V3.dot]

/-- The triangle between two points at the same latitude and the pole. -/
noncomputable def polarTriangle (x x' y : ℝ) : ℝ := solidAngle (directionOf ⟨x, y⟩) (directionOf ⟨x', y⟩) poleDirection

theorem half_polar (x x' y : ℝ) : halfAngle (directionOf ⟨x, y⟩) (directionOf ⟨x', y⟩) poleDirection
    = ((1 + Real.sin y : ℝ) : ℂ) * ⟨(1 + Real.sin y) + (1 - Real.sin y) * Real.cos (x' - x),
      (1 - Real.sin y) * Real.sin (x' - x)⟩ := by
  have h := Real.sin_sq_add_cos_sq y
  apply Complex.ext
  · simp only [halfAngle, directionOf, poleDirection, V3.dot, Complex.mul_re, Complex.ofReal_re, Complex.ofReal_im,
      Real.cos_sub]
    linear_combination (Real.cos x' * Real.cos x + Real.sin x' * Real.sin x) * h
  · simp only [halfAngle, directionOf, poleDirection, V3.dot, V3.cross, Complex.mul_im, Complex.ofReal_re, Complex.ofReal_im,
      Real.sin_sub]
    linear_combination (Real.sin x' * Real.cos x - Real.cos x' * Real.sin x) * h

theorem outward_pole {x x' y y' : ℝ} (hx : 0 < Real.sin (x' - x)) (hy : 0 < Real.cos y) (hy' : 0 < Real.cos y') :
    Outward (directionOf ⟨x, y⟩) (directionOf ⟨x', y'⟩) poleDirection := by
  unfold Outward
  have : (directionOf ⟨x, y⟩).dot ((directionOf ⟨x', y'⟩).cross poleDirection)
      = Real.cos y * Real.cos y' * Real.sin (x' - x) := by
    simp only [directionOf, poleDirection, V3.dot, V3.cross, Real.sin_sub]
    ring
  rw [this]
  positivity

theorem meridian (x : ℝ) {y : ℝ} (hy : 0 < Real.cos y) (y' : ℝ) :
    directionOf ⟨x, y'⟩ = (Real.cos y' / Real.cos y) • directionOf ⟨x, y⟩
      + (Real.sin (y' - y) / Real.cos y) • poleDirection := by
  apply V3.ext <;> simp only [directionOf, poleDirection, add_x, add_y, add_z, smul_x, smul_y, smul_z, Real.sin_sub] <;>
    field_simp <;> ring

/-- A cell between two meridians is the difference of two triangles with a corner at the pole. -/
theorem cell_polar {x x' y y' : ℝ} (hx : 0 < Real.sin (x' - x)) (hy : 0 < Real.cos y) (hy' : 0 < Real.cos y')
    (h : 0 < Real.sin (y' - y)) :
    cellSize true ⟨x, y⟩ ⟨x', y⟩ ⟨x', y'⟩ ⟨x, y'⟩ = polarTriangle x x' y - polarTriangle x x' y' := by
  have s1 := C109_split (directionOf_unit ⟨x, y⟩) (directionOf_unit ⟨x', y⟩) pole_unit (directionOf_unit ⟨x', y'⟩)
    (outward_pole hx hy hy) (div_pos hy' hy) (div_pos h hy) (meridian x' hy y')
  have s2 := C109_split (directionOf_unit ⟨x', y'⟩) pole_unit (directionOf_unit ⟨x, y⟩) (directionOf_unit ⟨x, y'⟩)
    (outward_pole hx hy hy').cycle (div_pos h hy) (div_pos hy' hy) (by
      rw [meridian x hy y']
      apply V3.ext <;> simp only [add_x, add_y, add_z] <;> ring)
  rw [solidAngle_cycle] at s2
  unfold polarTriangle
  simp only [cellSize, if_true]
  have e1 := solidAngle_cycle (directionOf ⟨x, y'⟩) (directionOf ⟨x', y'⟩) poleDirection
  have e2 := solidAngle_cycle (directionOf ⟨x, y⟩) (directionOf ⟨x', y'⟩) (directionOf ⟨x, y'⟩)
  linarith

theorem sin_pos_of {x x' : ℝ} (h : x < x') (h' : x' < x + Real.pi) : 0 < Real.sin (x' - x) :=
  Real.sin_pos_of_pos_of_lt_pi (by linarith) (by linarith)

/-- **C109**: the solid angle of a cell between two meridians is positive. -/
theorem C109_positive {x x' y y' : ℝ} (hx : x < x') (hx' : x' < x + Real.pi) (hy : -(Real.pi / 2) < y) (hyy : y < y')
    (hy' : y' < Real.pi / 2) : 0 < cellSize true ⟨x, y⟩ ⟨x', y⟩ ⟨x', y'⟩ ⟨x, y'⟩ := by
  have hs := sin_pos_of hx hx'
  have c1 : 0 < Real.cos y := Real.cos_pos_of_mem_Ioo ⟨hy, by linarith⟩
  have c2 : 0 < Real.cos y' := Real.cos_pos_of_mem_Ioo ⟨by linarith, hy'⟩
  have s1 : 0 < Real.sin (y' - y) := sin_pos_of hyy (by linarith)
  simp only [cellSize, if_true]
  rw [solidAngle_eq, solidAngle_eq]
  have o1 : 0 < (halfAngle (directionOf ⟨x, y⟩) (directionOf ⟨x', y⟩) (directionOf ⟨x', y'⟩)).im := by
    have : (halfAngle (directionOf ⟨x, y⟩) (directionOf ⟨x', y⟩) (directionOf ⟨x', y'⟩)).im
        = Real.cos y * Real.sin (x' - x) * Real.sin (y' - y) := by
      simp only [halfAngle, directionOf, V3.dot, V3.cross, Real.sin_sub]
      ring
    rw [this]
    positivity
  have o2 : 0 < (halfAngle (directionOf ⟨x, y⟩) (directionOf ⟨x', y'⟩) (directionOf ⟨x, y'⟩)).im := by
    have : (halfAngle (directionOf ⟨x, y⟩) (directionOf ⟨x', y'⟩) (directionOf ⟨x, y'⟩)).im
        = Real.cos y' * Real.sin (x' - x) * Real.sin (y' - y) := by
      simp only [halfAngle, directionOf, V3.dot, V3.cross, Real.sin_sub]
      ring
    rw [this]
    positivity
  have := (arg_mem_Ioo o1).1
  have := (arg_mem_Ioo o2).1
  linarith

/-- **C109**: a column of cells between two meridians has the same solid angle however many cells it is divided into. -/
theorem C109_column {x x' : ℝ} (hx : x < x') (hx' : x' < x + Real.pi) {y : ℕ → ℝ} (hmono : StrictMono y)
    {n : ℕ} (hn : 0 < n) (hy : -(Real.pi / 2) < y 0) (hy' : y n < Real.pi / 2) :
    ((List.range n).map fun k => cellSize true ⟨x, y k⟩ ⟨x', y k⟩ ⟨x', y (k + 1)⟩ ⟨x, y (k + 1)⟩).sum
      = cellSize true ⟨x, y 0⟩ ⟨x', y 0⟩ ⟨x', y n⟩ ⟨x, y n⟩ := by
  have hs := sin_pos_of hx hx'
  have hc : ∀ k ≤ n, 0 < Real.cos (y k) := fun k hk => Real.cos_pos_of_mem_Ioo
    ⟨by have := hmono.monotone (Nat.zero_le k); linarith, by have := hmono.monotone hk; linarith⟩
  have hd : ∀ j k, j < k → k ≤ n → 0 < Real.sin (y k - y j) := fun j k hjk hk => by
    have h1 := hmono hjk
    have h2 := hmono.monotone hk
    have h3 := hmono.monotone (Nat.zero_le j)
    exact sin_pos_of h1 (by linarith)
  rw [cell_polar hs (hc 0 (Nat.zero_le _)) (hc n le_rfl) (hd 0 n hn le_rfl)]
  have : ∀ m ≤ n, ((List.range m).map fun k => cellSize true ⟨x, y k⟩ ⟨x', y k⟩ ⟨x', y (k + 1)⟩ ⟨x, y (k + 1)⟩).sum
      = polarTriangle x x' (y 0) - polarTriangle x x' (y m) := by
    intro m
    induction m with
    | zero => simp
    | succ m ih =>
      intro hm
      rw [List.range_succ, List.map_append, List.sum_append, ih (by omega)]
      simp only [List.map_cons, List.map_nil, List.sum_cons, List.sum_nil]
      rw [cell_polar hs (hc m (by omega)) (hc (m + 1) hm) (hd m (m + 1) (by omega) hm)]
      ring
  exact this n le_rfl

/-- The solid angle of the triangle at the pole, for all latitudes. -/
theorem polar_arg {x x' y : ℝ} (hy : 0 < Real.cos y) : polarTriangle x x' y
    = 2 * Complex.arg ⟨(1 + Real.sin y) + (1 - Real.sin y) * Real.cos (x' - x), (1 - Real.sin y) * Real.sin (x' - x)⟩ := by
  have h1 : 0 < 1 + Real.sin y := by
    have h := Real.sin_sq_add_cos_sq y
    nlinarith [Real.neg_one_le_sin y, Real.sin_le_one y, sq_pos_of_pos hy]
  rw [polarTriangle, solidAngle_eq, half_polar, Complex.arg_real_mul _ h1]

theorem polar_deriv {y : ℝ} (hy : 0 < Real.cos y) (x : ℝ) :
    HasDerivAt (fun t => polarTriangle x (x + t) y) (1 - Real.sin y) 0 := by
  have hf : (fun t => polarTriangle x (x + t) y) =ᶠ[𝓝 0] fun t => 2 * Real.arctan
      ((1 - Real.sin y) * Real.sin t / ((1 + Real.sin y) + (1 - Real.sin y) * Real.cos t)) := by
    have hcont : ContinuousAt (fun t => (1 + Real.sin y) + (1 - Real.sin y) * Real.cos t) 0 := by fun_prop
    have hev : ∀ᶠ t in 𝓝 (0 : ℝ), 0 < (1 + Real.sin y) + (1 - Real.sin y) * Real.cos t := by
      apply hcont.eventually (lt_mem_nhds _)
      beta_reduce
      rw [Real.cos_zero]; linarith
    filter_upwards [hev] with t ht
    rw [polar_arg hy, add_sub_cancel_left]
    set w : ℂ := ⟨(1 + Real.sin y) + (1 - Real.sin y) * Real.cos t, (1 - Real.sin y) * Real.sin t⟩ with hw
    have hlt := abs_lt.1 (Complex.abs_arg_lt_pi_div_two_iff.2 (.inl (show 0 < w.re from ht)))
    rw [← Real.arctan_tan hlt.1 hlt.2, Complex.tan_arg]
  have hd : HasDerivAt (fun t => (1 - Real.sin y) * Real.sin t / ((1 + Real.sin y) + (1 - Real.sin y) * Real.cos t))
      ((1 - Real.sin y) / 2) 0 := by
    have n1 := (Real.hasDerivAt_sin 0).const_mul (1 - Real.sin y)
    have n2 := ((Real.hasDerivAt_cos 0).const_mul (1 - Real.sin y)).const_add (1 + Real.sin y)
    have := n1.div n2 (by rw [Real.cos_zero]; norm_num)
    refine this.congr_deriv ?_
    rw [Real.cos_zero, Real.sin_zero]
    have : (1 + Real.sin y + (1 - Real.sin y) * 1) = 2 := by ring
    rw [this]
    ring
  have := (hd.arctan).const_mul 2
  refine (this.congr_of_eventuallyEq hf).congr_deriv ?_
  rw [Real.sin_zero]
  ring

theorem polar_shift (x x' y : ℝ) (hy : 0 < Real.cos y) : polarTriangle x x' y = polarTriangle 0 (0 + (x' - x)) y := by
  rw [polar_arg hy, polar_arg hy]
  simp

/-- **C109**: for narrow columns of cells, the total solid angle of a grid of angles tends to that of the region: the
difference of the longitudes times the difference of the sines of the latitudes. -/
theorem C109_limit (x : ℝ) {w : ℝ} (hw : 0 < w) {y : ℕ → ℝ} (hmono : StrictMono y) {m : ℕ} (hm : 0 < m)
    (hy : -(Real.pi / 2) < y 0) (hy' : y m < Real.pi / 2) :
    Tendsto (fun n : ℕ => ((List.range n).map fun j => ((List.range m).map fun k =>
      |gridCell true (fun j k => ⟨x + j * (w / n), y k⟩) j k|).sum).sum) atTop
      (𝓝 (w * (Real.sin (y m) - Real.sin (y 0)))) := by
  have c0 : 0 < Real.cos (y 0) := Real.cos_pos_of_mem_Ioo ⟨hy, by have := hmono hm; linarith⟩
  have cm : 0 < Real.cos (y m) := Real.cos_pos_of_mem_Ioo ⟨by have := hmono hm; linarith, hy'⟩
  have hs : 0 < Real.sin (y m - y 0) := sin_pos_of (hmono hm) (by linarith)
  have hD : HasDerivAt (fun t => polarTriangle 0 (0 + t) (y 0) - polarTriangle 0 (0 + t) (y m))
      (Real.sin (y m) - Real.sin (y 0)) 0 := by
    refine ((polar_deriv c0 0).sub (polar_deriv cm 0)).congr_deriv ?_
    ring
  have h00 : ∀ y, 0 < Real.cos y → polarTriangle 0 (0 + 0) y = 0 := fun y hy => by
    rw [polar_arg hy]
    have : Complex.arg ⟨(1 + Real.sin y) + (1 - Real.sin y) * Real.cos (0 + 0 - 0),
        (1 - Real.sin y) * Real.sin (0 + 0 - 0)⟩ = 0 := by
      rw [Complex.arg_eq_zero_iff]
      simp
    rw [this]; ring
  have hlim : Tendsto (fun n : ℕ => w / (n : ℝ)) atTop (𝓝[≠] 0) := by
    rw [tendsto_nhdsWithin_iff]
    refine ⟨tendsto_const_div_atTop_nhds_zero_nat w, ?_⟩
    filter_upwards [eventually_gt_atTop 0] with n hn
    have : (0 : ℝ) < n := by exact_mod_cast hn
    exact (div_pos hw this).ne'
  have hsl := (hasDerivAt_iff_tendsto_slope.1 hD).comp hlim
  have hres := hsl.const_mul w
  refine hres.congr' ?_
  have hsmall : ∀ᶠ n : ℕ in atTop, w / (n : ℝ) < Real.pi :=
    (tendsto_const_div_atTop_nhds_zero_nat w).eventually (gt_mem_nhds Real.pi_pos)
  filter_upwards [hsmall, eventually_gt_atTop 0] with n hn hn0
  have hnp : (0 : ℝ) < n := by exact_mod_cast hn0
  have hstep : 0 < w / n := div_pos hw hnp
  have hcol : ∀ j : ℕ, ((List.range m).map fun k => |gridCell true (fun j k => (⟨x + j * (w / n), y k⟩ : V2)) j k|).sum
      = polarTriangle 0 (0 + w / n) (y 0) - polarTriangle 0 (0 + w / n) (y m) := by
    intro j
    have hlt : x + j * (w / n) < x + (j + 1 : ℕ) * (w / n) := by push_cast; nlinarith
    have hlt' : x + (j + 1 : ℕ) * (w / n) < x + j * (w / n) + Real.pi := by push_cast; nlinarith
    have e := C109_column hlt hlt' hmono hm hy hy'
    rw [cell_polar (sin_pos_of hlt hlt') c0 cm hs, polar_shift _ _ _ c0, polar_shift _ _ _ cm] at e
    have ew : x + (j + 1 : ℕ) * (w / n) - (x + j * (w / n)) = w / n := by push_cast; ring
    rw [ew] at e
    rw [← e]
    congr 1
    apply List.map_congr_left
    intro k hk
    rw [List.mem_range] at hk
    have p := C109_positive hlt hlt' (y := y k) (y' := y (k + 1)) (by
      have := hmono.monotone (Nat.zero_le k); linarith) (hmono (Nat.lt_succ_self k)) (by
      have := hmono.monotone (show k + 1 ≤ m by omega); linarith)
    unfold gridCell
    exact abs_of_pos p
  simp only [hcol, List.map_const', List.sum_replicate, List.length_range, nsmul_eq_mul, Function.comp_apply, slope_def_field]
  rw [h00 _ c0, h00 _ cm]
  generalize polarTriangle 0 (0 + w / n) (y 0) = A
  generalize polarTriangle 0 (0 + w / n) (y m) = B
  have hw0 := hw.ne'
  have hn1 := hnp.ne'
  simp only [sub_zero]
  field_simp

/-- **C109**: an eighth of the sphere. -/
theorem C109_octant : solidAngle ⟨1, 0, 0⟩ ⟨0, 1, 0⟩ ⟨0, 0, 1⟩ = Real.pi / 2 ∧
    Outward ⟨1, 0, 0⟩ ⟨0, 1, 0⟩ ⟨0, 0, 1⟩ := by
  have ho : Outward ⟨1, 0, 0⟩ ⟨0, 1, 0⟩ ⟨0, 0, 1⟩ := by simp [Outward, V3.dot, V3.cross]
  refine ⟨?_, ho⟩
  rw [C109_girard (by simp [V3.dot]) (by simp [V3.dot]) (by simp [V3.dot]) ho]
  simp [cornerAngle, tangentAt, V3.dot, Real.arccos_zero]

/-- The cell between the equator, two meridians and a latitude of 45 degrees. -/
example : (0 : ℝ) < 1 ∧ StrictMono (fun k : ℕ => (k : ℝ) * (Real.pi / 4)) ∧ -(Real.pi / 2) < ((0 : ℕ) : ℝ) * (Real.pi / 4) ∧
    ((1 : ℕ) : ℝ) * (Real.pi / 4) < Real.pi / 2 := by
  have := Real.pi_pos
  refine ⟨one_pos, fun a b h => ?_, by simp; positivity, by push_cast; linarith⟩
  have : (a : ℝ) < b := by exact_mod_cast h
  simp only
  nlinarith

/-- A point that divides the side of an octant. -/
example : (⟨0, 3 / 5, 4 / 5⟩ : V3) = (3 / 5 : ℝ) • ⟨0, 1, 0⟩ + (4 / 5 : ℝ) • ⟨0, 0, 1⟩ ∧
    (⟨0, 3 / 5, 4 / 5⟩ : V3).dot ⟨0, 3 / 5, 4 / 5⟩ = 1 := by
  constructor
  · apply V3.ext <;> simp
  · norm_num [V3.dot]

end Optika
