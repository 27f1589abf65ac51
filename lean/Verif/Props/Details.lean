import Verif.Props.Image
import Verif.Props.Caching
import Verif.Props.Glass
import Verif.Props.Ramanathan
import Verif.Props.SensorMaterial
import Verif.Props.FitEqe
import Verif.Props.Distortion

/-!
# Details of C27, C50, C51, C53, C58, C63 and C74

Theorems that were added because edits of the model had left all others standing.
-/

namespace Optika
open V3 Complex

/-! ### C74 -/

/-- **C74**: the result that is cached is the one of a call with the grid of the system, in normalized
coordinates, given explicitly. -/
theorem C74_default_grid (s : System) :
    ((SystemObject.new s).step .read).2 = s.rayfunction ⟨none, some s.gridInput.wavelength,
      some s.gridInput.field, some s.gridInput.pupil, true, true⟩ none := by
  show s.rayfunction noArguments none = _
  unfold System.rayfunction System.raytrace noArguments setIntensity
  cases h : s.calcInput s.gridInput true true <;> simp [h, setIntensity]

/-! ### C27 -/

/-- **C27**: the inverse that `undistort` multiplies with undoes every matrix that has one, from either
side. -/
theorem C27_matrix_inverse {m n : SpectralMatrix} (h : m.inverse = some n) (v : Spectral) :
    n.apply (m.apply v) = v ∧ m.apply (n.apply v) = v := by
  unfold SpectralMatrix.inverse at h
  split_ifs at h with hd
  simp only [Option.some.injEq] at h
  subst h
  have e : m.det = m.w.wavelength * (m.x.x * m.y.y - m.x.y * m.y.x) - m.w.x * (m.x.wavelength * m.y.y -
    m.x.y * m.y.wavelength) + m.w.y * (m.x.wavelength * m.y.x - m.x.x * m.y.wavelength) := rfl
  generalize m.det = d at *
  constructor <;> apply Spectral.ext <;> simp only [SpectralMatrix.apply] <;> field_simp <;> rw [e] <;> ring

/-- A matrix that mixes everything. -/
example : ∃ n, (⟨⟨2, 1, 0⟩, ⟨0, 1, 1⟩, ⟨1, 0, 1⟩⟩ : SpectralMatrix).inverse = some n := by
  unfold SpectralMatrix.inverse
  rw [if_neg (by norm_num [SpectralMatrix.det])]
  exact ⟨_, rfl⟩

/-! ### C53 -/

/-- **C53**: glass neither absorbs nor amplifies: a ray that enters it from a transparent medium keeps its
intensity. -/
theorem C53_lossless {g : Glass} {s : Surface} (hm : s.material = g.material) (hr : s.rulings = none)
    {r out : Ray} (ha : r.attenuation = 0) (h : s.propagate r = some out) :
    out.intensity = r.intensity ∧ out.attenuation = 0 := by
  rw [Surface.propagate_eq] at h
  simp only [Option.map_eq_some_iff] at h
  obtain ⟨o, ho, rfl⟩ := h
  obtain ⟨q', normal, r1, n2, b, e1, e2, att, hq', hn', heff, hp, hw', hi', ha', hv, hI, hn2, -, hr0, hb,
    he1, he2, hatt, ow, op, od, oI, oa, oi, -⟩ := propagateLocal_eq_some ho
  rw [hm] at he1 hatt
  have he1 : some 1 = some e1 := he1
  have hatt : some 0 = some att := hatt
  have he2 : some 1 = some e2 := by rw [← he2]; simp [Surface.rulingFactor, hr]
  rw [Option.some.injEq] at he1 he2 hatt
  constructor
  · show o.intensity = r.intensity
    rw [oI, hI, ← he1, ← he2]
    have : (Ray.unmove s.frame r).attenuation = 0 := ha
    rw [this]
    simp [Ray.unmove]
  · show o.attenuation = 0
    rw [oa, hatt]

/-! ### C58 -/

/-- **C58**: above the tables the energy of a pair is the published function of the temperature. -/
theorem C58_high_formula {table : List PairRow} (hs : table.Pairwise fun a b => a.energy ≤ b.energy)
    (hne : table ≠ []) {E : ℝ} (hE : (table.getLast hne).energy < E) (T : ℝ) :
    quantumYieldIdeal table E T
      = E / (1.7 * (1.1692 - 4.9e-4 * T ^ 2 / (T + 655)) + 0.084 * 5.2 + 1.3) :=
  C58_high hs hne hE T

/-- **C58**: from absolute zero to room temperature a pair takes between 3.64 and 3.73 eV. -/
theorem C58_pair_energy {T : ℝ} (h0 : 0 ≤ T) (h1 : T ≤ 300) :
    3.64 ≤ energyPairInf T ∧ energyPairInf T ≤ 3.73 := by
  unfold energyPairInf energyBandgap
  have hd : 0 < T + 655 := by linarith
  have hx : 4.9e-4 * T ^ 2 / (T + 655) ≤ 0.0462 := by
    rw [div_le_iff₀ hd]; nlinarith
  have hy : 0 ≤ 4.9e-4 * T ^ 2 / (T + 655) := by positivity
  constructor <;> norm_num at * <;> linarith

/-! ### C50 and C51 -/

/-- **C50**: on a plane sensor the direction that an ideal sensor is given is the component along the
axis. -/
theorem C50_ideal_direction (d q n : V3) (h : flatSag.normal q = some n) :
    idealDirectionRefracted d n = d.z := by
  have : n = ⟨0, 0, -1⟩ := by
    have h : some _ = some n := h
    rw [Option.some.injEq] at h
    exact h.symm
  rw [this]
  simp [idealDirectionRefracted, V3.dot]

/-- **C51**: the probability to measure an absorbed photon from vacuum agrees with the effective quantum
efficiency divided by the absorbance, for the same direction. -/
theorem C51_probability_eqe (m : SiliconMaterial) {w : ℝ} {d u : V3} {E A p : ℝ}
    (hE : m.eqe w d 1 u = some E) (hA : m.absorbanceAverage w d 1 u = some A) (hA0 : A ≠ 0)
    (hp : m.probability w d u = some p) :
    p = 1 - (1 - E / A) ^ m.iqy w m.temperature := by
  unfold SiliconMaterial.probability SiliconMaterial.cce at hp
  unfold SiliconMaterial.eqe quantumEfficiencyEffective at hE
  unfold SiliconMaterial.absorbanceAverage at hA
  rw [hA] at hE
  simp only [Option.bind_eq_bind, Option.bind_eq_some_iff, Option.pure_def, Option.some.injEq,
    exists_eq_left'] at hE hp
  obtain ⟨a, ha, c, hc, rfl⟩ := hE
  obtain ⟨c', ⟨a', ha', hc'⟩, rfl⟩ := hp
  rw [ha, Option.some.injEq] at ha'
  subst ha'
  rw [hc, Option.some.injEq] at hc'
  subst hc'
  unfold probabilityMeasurement
  simp only
  rw [mul_div_cancel_left₀ _ hA0]

/-- A sensor without oxide, hit along the normal, meets the hypotheses. -/
example : ∃ (m : SiliconMaterial) (E A p : ℝ), m.eqe 1 ⟨0, 0, 1⟩ 1 ⟨0, 0, -1⟩ = some E ∧
    m.absorbanceAverage 1 ⟨0, 0, 1⟩ 1 ⟨0, 0, -1⟩ = some A ∧ A ≠ 0 ∧
    m.probability 1 ⟨0, 0, 1⟩ ⟨0, 0, -1⟩ = some p := by
  let m : SiliconMaterial := ⟨fun _ => 2 + I, fun _ => ((1 : ℝ) : ℂ), fun _ _ => 3, fun _ _ => 0, 1 / 4, 1, 1, 0,
    0, 1, 300⟩
  have hd : ((-((⟨0, 0, 1⟩ : V3).dot ⟨0, 0, -1⟩) : ℝ) : ℂ) = 1 := by simp [V3.dot]
  have he : exp (I * (2 * Real.pi * ((1 / 4 : ℝ) : ℂ) * (1 : ℝ) * 1 / (1 : ℝ))) = I := by
    have : I * (2 * Real.pi * ((1 / 4 : ℝ) : ℂ) * (1 : ℝ) * 1 / (1 : ℝ)) = Real.pi / 2 * I := by
      push_cast; ring
    rw [this, exp_pi_div_two_mul_I]
  have hq := quarter_eqe one_pos he I_sq
  have hE : m.eqe 1 ⟨0, 0, 1⟩ 1 ⟨0, 0, -1⟩
      = some (8 * 1 ^ 2 / ((1 ^ 2 + 2) ^ 2 + 1) * (1 - Real.exp (-(4 * Real.pi)))) := by
    unfold SiliconMaterial.eqe
    rw [hd]
    exact hq
  have hpos : (0 : ℝ) < 8 * 1 ^ 2 / ((1 ^ 2 + 2) ^ 2 + 1) * (1 - Real.exp (-(4 * Real.pi))) := by
    have : Real.exp (-(4 * Real.pi)) < 1 := by
      rw [Real.exp_lt_one_iff]; linarith [Real.pi_pos]
    apply mul_pos (by norm_num) (by linarith)
  have hE' := hE
  unfold SiliconMaterial.eqe quantumEfficiencyEffective at hE'
  simp only [Option.bind_eq_bind, Option.bind_eq_some_iff, Option.pure_def, Option.some.injEq] at hE'
  obtain ⟨A, hA, a, ha, c, hc, hAc⟩ := hE'
  refine ⟨m, _, A, probabilityMeasurement 3 c, hE, hA, ?_, ?_⟩
  · rintro rfl
    rw [zero_mul] at hAc
    rw [← hAc] at hpos
    exact lt_irrefl _ hpos
  · unfold SiliconMaterial.probability SiliconMaterial.cce
    simp only [Option.bind_eq_bind, Option.pure_def, Option.bind_assoc]
    simp only [ha, Option.bind_some, hc]
    rfl

/-- A rough layer of transparent material at normal incidence. -/
theorem rough_layer_normal {w a b : ℝ} (ha : 0 < a) (hb : 0 < b) (pol : Bool) (d r : ℝ) :
    let qa : ℝ := if pol then a else a⁻¹
    let qb : ℝ := if pol then b else b⁻¹
    let t : ℂ := 2 * qa / (qa + qb)
    let ρ : ℂ := (qa - qb) / (qa + qb) * (Real.exp (-(4 * Real.pi * a / w * r) ^ 2 / 2) : ℝ)
    let E : ℂ := exp (I * (2 * Real.pi * d * b / w : ℝ))
    (roughLayer (fun _ => (b : ℂ)) d r).transfer w pol ⟨a, 1, true⟩ =
      (⟨b, 1, true⟩, some (!![1 / t, ρ / t; ρ / t, 1 / t] * !![E⁻¹, 0; 0, E])) := by
  intro qa qb t ρ E
  have haz : (a : ℂ) ≠ 0 := by exact_mod_cast ha.ne'
  have hbz : (b : ℂ) ≠ 0 := by exact_mod_cast hb.ne'
  have hqa : 0 < qa := by simp only [qa]; split <;> positivity
  have hqb : 0 < qb := by simp only [qb]; split <;> positivity
  have h1 : ((qa : ℂ) + qb) ≠ 0 := by exact_mod_cast (by linarith : qa + qb ≠ 0)
  have hma : momentum pol 1 (a : ℂ) = (qa : ℂ) := by cases pol <;> simp [momentum, polarizedDirection, qa]
  have hmb : momentum pol 1 (b : ℂ) = (qb : ℂ) := by cases pol <;> simp [momentum, polarizedDirection, qb]
  have ht : t ≠ 0 := by
    have : (qa : ℂ) ≠ 0 := by exact_mod_cast hqa.ne'
    simp only [t]
    exact div_ne_zero (mul_ne_zero two_ne_zero this) h1
  have hpd : polarizedDirection pol 1 = 1 := by cases pol <;> simp [polarizedDirection]
  have hprof : profileReflectivity (erfFourier r) w 1 (a : ℂ)
      = some ((Real.exp (-(4 * Real.pi * a / w * r) ^ 2 / 2) : ℝ) : ℂ) := by
    unfold profileReflectivity erfFourier
    have : (-2 * (-2 * (Real.pi : ℂ) * a * 1 / w)).re = 4 * Real.pi * a / w := by
      have : (-2 * (-2 * (Real.pi : ℂ) * a * 1 / w)) = ((4 * Real.pi * a / w : ℝ) : ℂ) := by
        push_cast; ring
      rw [this, ofReal_re]
    simp only [this, Option.map_some]
  have hr : refraction w 1 1 pol a b (some (profileReflectivity (erfFourier r)))
      = some (!![1 / t, ρ / t; ρ / t, 1 / t]) := by
    unfold refraction
    simp only [hma, hmb, haz, hbz, h1, or_self, if_false, Option.elim_some, hpd, hprof, Option.map_some,
      Option.bind_some]
    rw [if_neg ht]
  have hp : propagation w 1 d (b : ℂ) = !![E⁻¹, 0; 0, E] := by
    unfold propagation
    have e : (2 * (Real.pi : ℂ) * d * b * 1 / w) = ((2 * Real.pi * d * b / w : ℝ) : ℂ) := by
      push_cast; ring
    simp only [e, neg_mul, exp_neg, E]
  have hE : ‖E‖ = 1 := by
    simp only [E]
    rw [mul_comm]; exact norm_exp_ofReal_mul_I _
  unfold Layer.transfer roughLayer
  simp only [snell_normal, hr, hp, if_true, Bool.true_and]
  simp [hE]
  norm_num

/-- The amplitude that two rough surfaces of a film transmit. -/
theorem rough_film_matrix {q1 q2 q3 g1 g2 φ : ℝ} (h1 : 0 < q1) (h2 : 0 < q2) (h3 : 0 < q3)
    (hg1 : 0 < g1 ∧ g1 ≤ 1) (hg2 : 0 < g2 ∧ g2 ≤ 1) {m : M2} {k l : ℂ}
    (hm : m = (!![1 / (2 * q1 / (q1 + q2)), ((q1 - q2) / (q1 + q2) * g1) / (2 * q1 / (q1 + q2));
        ((q1 - q2) / (q1 + q2) * g1) / (2 * q1 / (q1 + q2)), 1 / (2 * q1 / (q1 + q2))] : M2)
      * !![(exp (I * φ))⁻¹, 0; 0, exp (I * φ)]
      * (!![1 / (2 * q2 / (q2 + q3)), ((q2 - q3) / (q2 + q3) * g2) / (2 * q2 / (q2 + q3)); k, l] : M2)) :
    let ρ := g1 * g2 * ((q1 - q2) / (q1 + q2)) * ((q2 - q3) / (q2 + q3))
    k = ((q2 - q3) / (q2 + q3) * g2) / (2 * q2 / (q2 + q3)) →
    m 0 0 ≠ 0 ∧ ‖1 / m 0 0‖ ^ 2 = (2 * q1 / (q1 + q2)) ^ 2 * (2 * q2 / (q2 + q3)) ^ 2
      / (1 + 2 * ρ * Real.cos (2 * φ) + ρ ^ 2) := by
  intro ρ hk
  have e1 : m 0 0 = (((q1 + q2) / (2 * q1) * ((q2 + q3) / (2 * q2)) : ℝ) : ℂ)
      * ((exp (I * φ))⁻¹ * (1 + ρ * exp ((2 * φ : ℝ) * I))) := by
    have hE : exp ((2 * φ : ℝ) * I) = exp (I * φ) * exp (I * φ) := by
      rw [← exp_add]; congr 1; push_cast; ring
    have hE0 : exp (I * φ) ≠ 0 := exp_ne_zero _
    have c1 : (q1 : ℂ) ≠ 0 := by exact_mod_cast h1.ne'
    have c2 : (q2 : ℂ) ≠ 0 := by exact_mod_cast h2.ne'
    have c3 : ((q1 : ℂ) + q2) ≠ 0 := by exact_mod_cast (by linarith : q1 + q2 ≠ 0)
    have c4 : ((q2 : ℂ) + q3) ≠ 0 := by exact_mod_cast (by linarith : q2 + q3 ≠ 0)
    rw [hm, hk, hE]
    generalize exp (I * φ) = E at *
    simp [Matrix.mul_apply, Fin.sum_univ_two, ρ]
    field_simp
  have hρ : |ρ| < 1 := by
    have a1 : |(q1 - q2) / (q1 + q2)| < 1 := by
      rw [abs_div, abs_of_pos (by linarith : 0 < q1 + q2), div_lt_one (by linarith), abs_lt]
      constructor <;> linarith
    have a2 : |(q2 - q3) / (q2 + q3)| ≤ 1 := by
      rw [abs_div, abs_of_pos (by linarith : 0 < q2 + q3), div_le_one (by linarith), abs_le]
      constructor <;> linarith
    simp only [ρ, abs_mul, abs_of_pos hg1.1, abs_of_pos hg2.1]
    have b1 : g1 * g2 ≤ 1 := mul_le_one₀ hg1.2 hg2.1.le hg2.2
    calc g1 * g2 * |(q1 - q2) / (q1 + q2)| * |(q2 - q3) / (q2 + q3)|
        ≤ g1 * g2 * |(q1 - q2) / (q1 + q2)| :=
          mul_le_of_le_one_right (by have := hg1.1; have := hg2.1; positivity) a2
      _ ≤ |(q1 - q2) / (q1 + q2)| := mul_le_of_le_one_left (abs_nonneg _) b1
      _ < 1 := a1
  have hnorm : ‖(1 + ρ * exp ((2 * φ : ℝ) * I) : ℂ)‖ ^ 2 = 1 + 2 * ρ * Real.cos (2 * φ) + ρ ^ 2 := by
    rw [← normSq_eq_norm_sq, normSq_apply, exp_ofReal_mul_I]
    simp only [add_re, one_re, mul_re, ofReal_re, ofReal_im, add_im, one_im, mul_im, I_re, I_im]
    have := Real.sin_sq_add_cos_sq (2 * φ)
    ring_nf at this ⊢
    nlinarith
  have hpos : 0 < 1 + 2 * ρ * Real.cos (2 * φ) + ρ ^ 2 := by
    have c0 := Real.abs_cos_le_one (2 * φ)
    have : |ρ * Real.cos (2 * φ)| ≤ |ρ| := by
      rw [abs_mul]; exact mul_le_of_le_one_right (abs_nonneg _) c0
    have := (abs_le.1 this).1
    have : ρ ^ 2 = |ρ| ^ 2 := (sq_abs ρ).symm
    nlinarith
  have hE1 : ‖exp (I * φ)‖ = 1 := by rw [mul_comm]; exact norm_exp_ofReal_mul_I _
  have hm2 : ‖m 0 0‖ ^ 2 = ((q1 + q2) / (2 * q1) * ((q2 + q3) / (2 * q2))) ^ 2
      * (1 + 2 * ρ * Real.cos (2 * φ) + ρ ^ 2) := by
    rw [e1, norm_mul, norm_mul, norm_inv, hE1, mul_pow, mul_pow, hnorm, norm_real, Real.norm_eq_abs, sq_abs]
    ring
  constructor
  · intro h
    rw [h] at hm2
    have : 0 < ((q1 + q2) / (2 * q1) * ((q2 + q3) / (2 * q2))) ^ 2
      * (1 + 2 * ρ * Real.cos (2 * φ) + ρ ^ 2) := by positivity
    rw [← hm2] at this
    simp at this
  · rw [norm_div, norm_one, div_pow, hm2]
    field_simp

/-- **C51**: at normal incidence on transparent materials the transmittance is the one of a film with two
rough surfaces: the roughness reduces the amplitude that is reflected at either surface by a Gaussian of the
width in units of the wavelength in the medium before it. -/
theorem C51_rough_film {w n o s : ℝ} (_hw : 0 < w) (hn : 0 < n) (ho : 0 < o) (hs : 0 < s) (pol : Bool)
    (dO D rO rS : ℝ) :
    let ρ := Real.exp (-(4 * Real.pi * n / w * rO) ^ 2 / 2) * Real.exp (-(4 * Real.pi * o / w * rS) ^ 2 / 2)
      * ((n - o) / (n + o)) * ((o - s) / (o + s))
    sensorTransmittance w pol 1 n (fun _ => o) (fun _ => s) dO D rO rS
      = some (s / n * (2 * n / (n + o)) ^ 2 * (2 * o / (o + s)) ^ 2
        / (1 + 2 * ρ * Real.cos (4 * Real.pi * o * dO / w) + ρ ^ 2)) := by
  intro ρ
  obtain ⟨ρ', hρ'⟩ : ∃ ρ', ρ' = ρ := ⟨_, rfl⟩
  rw [← hρ']
  simp only [ρ] at hρ'
  clear ρ
  have h1 := rough_layer_normal (w := w) hn ho pol dO rO
  have h2 := rough_layer_normal (w := w) ho hs pol 0 rS
  simp only at h1 h2
  unfold sensorTransmittance multilayerEfficiency multilayerCoefficients multilayerTransfer
  have e : substrateLayer (some (roughLayer (fun _ => (s : ℂ)) D rS)) = roughLayer (fun _ => (s : ℂ)) 0 rS :=
    rfl
  simp only [e, Stack.transfer, transferAll, h1, h2]
  have hg : ∀ x : ℝ, 0 < Real.exp (-x ^ 2 / 2) ∧ Real.exp (-x ^ 2 / 2) ≤ 1 := fun x =>
    ⟨Real.exp_pos _, by rw [Real.exp_le_one_iff]; nlinarith [sq_nonneg x]⟩
  have hg1 := hg (4 * Real.pi * n / w * rO)
  have hg2 := hg (4 * Real.pi * o / w * rS)
  generalize Real.exp (-(4 * Real.pi * n / w * rO) ^ 2 / 2) = g1 at *
  generalize Real.exp (-(4 * Real.pi * o / w * rS) ^ 2 / 2) = g2 at *
  have hq : ∀ x : ℝ, 0 < x → 0 < (if pol = true then x else x⁻¹) := by
    intro x hx; split <;> positivity
  have hone : (!![(exp (I * ((2 * Real.pi * 0 * s / w : ℝ) : ℂ)))⁻¹, 0;
      0, exp (I * ((2 * Real.pi * 0 * s / w : ℝ) : ℂ))] : M2) = 1 := by
    ext i j; fin_cases i <;> fin_cases j <;> simp
  have key := rough_film_matrix (φ := 2 * Real.pi * dO * o / w) (hq n hn) (hq o ho) (hq s hs) hg1 hg2 rfl rfl
    (l := 1 / (2 * ((if pol = true then o else o⁻¹ : ℝ) : ℂ) / ((if pol = true then o else o⁻¹ : ℝ)
      + (if pol = true then s else s⁻¹ : ℝ))))
  obtain ⟨k1, k2⟩ := key
  simp only [mul?, Option.bind_eq_bind, Option.bind_some, Option.pure_def, one_mul, hone, mul_one]
  rw [if_neg k1]
  simp only [Option.bind_some, if_true, k2, snell_normal]
  have hmn : ∀ x : ℝ, momentum pol 1 (x : ℂ) = ((if pol = true then x else x⁻¹ : ℝ) : ℂ) := by
    intro x; cases pol <;> simp [momentum, polarizedDirection]
  have hmn0 : momentum pol 1 (n : ℂ) ≠ 0 := by
    rw [hmn]; exact_mod_cast (hq n hn).ne'
  have hsub : (roughLayer (fun _ => (s : ℂ)) 0 rS).n w = (s : ℂ) := rfl
  simp only [hsub, if_neg hmn0, Option.map_some, Option.some.injEq]
  rw [hmn, hmn, ← ofReal_div, ofReal_re]
  have hcos : 2 * (2 * Real.pi * dO * o / w) = 4 * Real.pi * o * dO / w := by ring
  rw [hcos]
  cases pol
  · have r1 : (n⁻¹ - o⁻¹) / (n⁻¹ + o⁻¹) = -((n - o) / (n + o)) := by field_simp; ring
    have r2 : (o⁻¹ - s⁻¹) / (o⁻¹ + s⁻¹) = -((o - s) / (o + s)) := by field_simp; ring
    have t1 : 2 * n⁻¹ / (n⁻¹ + o⁻¹) = 2 * o / (n + o) := by field_simp; ring
    have t2 : 2 * o⁻¹ / (o⁻¹ + s⁻¹) = 2 * s / (o + s) := by field_simp; ring
    simp only [Bool.false_eq_true, if_false, r1, r2, t1, t2]
    have hρ : g1 * g2 * -((n - o) / (n + o)) * -((o - s) / (o + s)) = ρ' := by rw [hρ']; ring
    rw [hρ, div_mul_eq_mul_div]
    congr 1
    field_simp
  · simp only [if_true]
    have hρ : g1 * g2 * ((n - o) / (n + o)) * ((o - s) / (o + s)) = ρ' := hρ'.symm
    rw [hρ, div_mul_eq_mul_div]
    congr 1
    ring

/-! ### C63 -/

/-- **C63**: the size of a cell is the width in wavelength times the mean of its areas in the field at the
two wavelengths times the mean of its areas in the pupil at the eight corners in wavelength and field. -/
theorem C63_cell_area (v : VertexGrid) (a b : Bool) (c : Cell) :
    v.cellArea a b c = (v.wavelength (c.i + 1) - v.wavelength c.i)
      * ((∑ i ∈ Finset.range 2, |gridCell a (v.field (c.i + i)) c.j c.k|) / 2)
      * ((∑ i ∈ Finset.range 2, ∑ j ∈ Finset.range 2, ∑ k ∈ Finset.range 2,
        |gridCell b (v.pupil (c.i + i) (c.j + j) (c.k + k)) c.l c.m|) / 8) := by
  unfold VertexGrid.cellArea centerOf
  simp only [Finset.sum_range_succ, Finset.sum_range_zero, Nat.add_zero, zero_add]
  ring

/-- All numbers that a cell is sampled with are between zero and one. -/
def CellDraw.Proper (t : CellDraw) : Prop :=
  (0 ≤ t.ti ∧ t.ti ≤ 1) ∧ (0 ≤ t.tj ∧ t.tj ≤ 1) ∧ (0 ≤ t.tk ∧ t.tk ≤ 1) ∧ (0 ≤ t.tl ∧ t.tl ≤ 1) ∧
    (0 ≤ t.tm ∧ t.tm ≤ 1)

theorem cellLerpV_half {t p q K : ℝ} (h0 : 0 ≤ t) (h1 : t ≤ 1) {f : ℕ → V2} {i : ℕ}
    (h : ∀ a < 2, p * (f (i + a)).x + q * (f (i + a)).y ≤ K) :
    p * (cellLerpV t f i).x + q * (cellLerpV t f i).y ≤ K := by
  have := h 0 (by norm_num)
  have := h 1 (by norm_num)
  simp only [cellLerpV, cellLerp, Nat.add_zero] at *
  nlinarith

/-- **C63**: the ray of a cell is taken from inside of the cell: its wavelength is between the edges, and
every half plane that holds the corners of the cell in the field, or in the pupil, holds the ray. -/
theorem C63_sample_inside (v : VertexGrid) {t : CellDraw} (ht : t.Proper) (c : Cell) :
    (∀ lo hi, (∀ i < 2, lo ≤ v.wavelength (c.i + i) ∧ v.wavelength (c.i + i) ≤ hi) →
      lo ≤ (v.sample t c).wavelength ∧ (v.sample t c).wavelength ≤ hi) ∧
    (∀ p q K : ℝ, (∀ i < 2, ∀ j < 2, ∀ k < 2,
        p * (v.field (c.i + i) (c.j + j) (c.k + k)).x + q * (v.field (c.i + i) (c.j + j) (c.k + k)).y ≤ K) →
      p * (v.sample t c).field.x + q * (v.sample t c).field.y ≤ K) ∧
    (∀ p q K : ℝ, (∀ i < 2, ∀ j < 2, ∀ k < 2, ∀ l < 2, ∀ m < 2,
        p * (v.pupil (c.i + i) (c.j + j) (c.k + k) (c.l + l) (c.m + m)).x
          + q * (v.pupil (c.i + i) (c.j + j) (c.k + k) (c.l + l) (c.m + m)).y ≤ K) →
      p * (v.sample t c).pupil.x + q * (v.sample t c).pupil.y ≤ K) := by
  obtain ⟨⟨a0, a1⟩, ⟨b0, b1⟩, ⟨c0, c1⟩, ⟨d0, d1⟩, ⟨e0, e1⟩⟩ := ht
  refine ⟨?_, ?_, ?_⟩
  · intro lo hi h
    have h0 := h 0 (by norm_num)
    have h1 := h 1 (by norm_num)
    simp only [VertexGrid.sample, cellLerp, Nat.add_zero] at *
    constructor <;> nlinarith
  · intro p q K h
    exact cellLerpV_half a0 a1 fun i hi => cellLerpV_half b0 b1 fun j hj =>
      cellLerpV_half c0 c1 fun k hk => h i hi j hj k hk
  · intro p q K h
    exact cellLerpV_half a0 a1 fun i hi => cellLerpV_half b0 b1 fun j hj =>
      cellLerpV_half c0 c1 fun k hk => cellLerpV_half d0 d1 fun l hl =>
      cellLerpV_half e0 e1 fun m hm => h i hi j hj k hk l hl m hm

/-- The middle of a cell. -/
example : (⟨1 / 2, 1 / 2, 1 / 2, 1 / 2, 1 / 2⟩ : CellDraw).Proper := by
  unfold CellDraw.Proper; norm_num

end Optika
