import Verif.Model.Depletion
import Verif.Props.Silicon
import Verif.Props.Kernel

/-!
# C71: the fit of a depletion model
-/

namespace Optika
open Set

/-- The square root of the mean charge capture, as a function of pixel width over diffusion width. -/
noncomputable def captureRoot (a : ℝ) : ℝ :=
  Real.sqrt (2 / Real.pi) * (Real.exp (-a ^ 2 / 2) - 1) / a + erf (a / Real.sqrt 2)

theorem captureRoot_strictMonoOn : StrictMonoOn captureRoot (Ioi 0) := by
  have hder : ∀ a : ℝ, 0 < a → HasDerivAt captureRoot
      (Real.sqrt (2 / Real.pi) * (1 - Real.exp (-a ^ 2 / 2)) / a ^ 2) a := by
    intro a ha
    have h1 : HasDerivAt (fun a : ℝ => Real.exp (-a ^ 2 / 2)) (Real.exp (-a ^ 2 / 2) * (-a)) a := by
      have h0 : HasDerivAt (fun a : ℝ => -a ^ 2 / 2) (-a) a := by
        refine (((hasDerivAt_pow 2 a).neg).div_const 2).congr_deriv ?_
        norm_num; ring
      exact h0.exp
    have h2 := ((h1.sub_const 1).const_mul (Real.sqrt (2 / Real.pi))).div (hasDerivAt_id a) ha.ne'
    have h3 : HasDerivAt (fun a : ℝ => erf (a / Real.sqrt 2))
        (2 / Real.sqrt Real.pi * Real.exp (-(a / Real.sqrt 2) ^ 2) * (1 / Real.sqrt 2)) a :=
      HasDerivAt.comp (h₂ := erf) (h := fun a : ℝ => a / Real.sqrt 2) a (erf_hasDerivAt (a / Real.sqrt 2))
        ((hasDerivAt_id a).div_const (Real.sqrt 2))
    refine (h2.add h3).congr_deriv ?_
    have hs2 : Real.sqrt 2 ^ 2 = 2 := Real.sq_sqrt (by norm_num)
    have e1 : -(a / Real.sqrt 2) ^ 2 = -a ^ 2 / 2 := by
      rw [div_pow, hs2]; ring
    have e2 : Real.sqrt (2 / Real.pi) = 2 / Real.sqrt Real.pi * (1 / Real.sqrt 2) := by
      rw [Real.sqrt_div (by norm_num)]
      have : Real.sqrt 2 ≠ 0 := by positivity
      have : Real.sqrt Real.pi ≠ 0 := by positivity
      field_simp
      exact hs2
    rw [e1, e2]
    simp only [id]
    field_simp
    ring
  refine strictMonoOn_of_deriv_pos (convex_Ioi 0) ?_ ?_
  · intro a ha
    exact (hder a ha).continuousAt.continuousWithinAt
  · intro a ha
    rw [interior_Ioi] at ha
    have ha : 0 < a := ha
    rw [(hder a ha).deriv]
    have : Real.exp (-a ^ 2 / 2) < 1 := by
      rw [Real.exp_lt_one_iff]; have := sq_pos_of_pos ha; linarith
    have : 0 < 1 - Real.exp (-a ^ 2 / 2) := by linarith
    have := Real.pi_pos
    positivity

theorem meanChargeCapture_eq {w p : ℝ} (hw : 0 < w) (hp : 0 < p) :
    meanChargeCapture w p = some (captureRoot (p / w) ^ 2) := by
  have hx : 0 < p / w := by positivity
  unfold meanChargeCapture captureRoot
  simp only [div?_of_ne hw.ne', div?_of_ne hx.ne', Option.bind_eq_bind, Option.bind_some,
    Option.pure_def]

theorem captureRoot_pos {x : ℝ} (hx : 0 < x) : 0 < captureRoot x := by
  have hk := kernel_pos hx 0
  have : captureRoot x = kernelH x (0 + 1) - 2 * kernelH x 0 + kernelH x (0 - 1) := by
    rw [show (0 : ℝ) - 1 = -(0 + 1) by ring, kernelH_neg]
    unfold kernelH captureRoot
    rw [Real.sqrt_div (by norm_num), Real.sqrt_mul (by norm_num)]
    have h6 : Real.sqrt 2 ^ 2 = 2 := Real.sq_sqrt (by norm_num)
    have h7 : Real.sqrt Real.pi ≠ 0 := by positivity
    simp only [zero_add, mul_one, one_pow, mul_zero, zero_div, zero_mul, add_zero, Real.exp_zero, ne_eq,
      OfNat.ofNat_ne_zero, not_false_eq_true, zero_pow]
    field_simp
    linear_combination 2 * (Real.exp (-(x ^ 2 / 2)) - 1) * h6
  rw [this]
  simpa using hk

/-- The mean charge capture decreases strictly with the diffusion width. -/
theorem captureOfWidth_strictAnti {p : ℝ} (hp : 0 < p) :
    ∃ c : ℝ → ℝ, (∀ w, 0 ≤ w → captureOfWidth w p = some (c w)) ∧ StrictAntiOn c (Ici 0) := by
  refine ⟨fun w => if w = 0 then 1 else captureRoot (p / w) ^ 2, ?_, ?_⟩
  · intro w hw
    unfold captureOfWidth
    by_cases h : w = 0
    · simp [h]
    · simp only [if_neg h]
      exact meanChargeCapture_eq (lt_of_le_of_ne hw (Ne.symm h)) hp
  · intro v hv w hw hvw
    have hv : 0 ≤ v := hv
    have hw0 : 0 < w := lt_of_le_of_lt hv hvw
    simp only [if_neg hw0.ne']
    by_cases h : v = 0
    · simp only [if_pos h]
      obtain ⟨c, h1, h2, h3⟩ := C48_capture_range hw0 hp
      rw [meanChargeCapture_eq hw0 hp, Option.some.injEq] at h1
      rw [h1]; exact h3
    · have hv0 : 0 < v := lt_of_le_of_ne hv (Ne.symm h)
      simp only [if_neg h]
      have hlt : captureRoot (p / w) < captureRoot (p / v) :=
        captureRoot_strictMonoOn (mem_Ioi.2 (by positivity)) (mem_Ioi.2 (by positivity))
          (div_lt_div_of_pos_left hp hv0 hvw)
      exact pow_lt_pow_left₀ hlt (captureRoot_pos (by positivity)).le (by norm_num)

/-- The diffusion width decreases strictly with the thickness of the depletion region. -/
theorem chargeDiffusion_strictAnti {a s : ℝ} (ha : 0 < a) (hs : 0 < s) :
    ∃ w : ℝ → ℝ, (∀ d, 0 ≤ d → d ≤ s → chargeDiffusion a s d = some (w d) ∧ 0 ≤ w d) ∧
      StrictAntiOn w (Icc 0 s) := by
  refine ⟨fun d => Real.sqrt (layerMean a s (diffusionVariance (s - d))),
    fun d h0 h1 => ⟨chargeDiffusion_eq ha hs h0 h1, Real.sqrt_nonneg _⟩, ?_⟩
  intro d hd e he hde
  have key : ∀ f g : ℝ, 0 ≤ f → f < g → f * (a * f + Real.exp (-(a * f)) - 1)
      < g * (a * g + Real.exp (-(a * g)) - 1) := by
    intro f g hf hfg
    have h1 : 0 ≤ a * f + Real.exp (-(a * f)) - 1 := by
      have := Real.add_one_le_exp (-(a * f)); linarith
    have hg : 0 < g := lt_of_le_of_lt hf hfg
    have h2 : a * f + Real.exp (-(a * f)) - 1 < a * g + Real.exp (-(a * g)) - 1 := by
      have h3 : a * f < a * g := mul_lt_mul_of_pos_left hfg ha
      have h4 := Real.add_one_lt_exp (x := a * f - a * g) (by linarith)
      have h5 : Real.exp (-(a * f)) ≤ 1 := by
        rw [Real.exp_le_one_iff]; have := mul_nonneg ha.le hf; linarith
      have h6 : Real.exp (-(a * g)) = Real.exp (-(a * f)) * Real.exp (a * f - a * g) := by
        rw [← Real.exp_add]; congr 1; ring
      have h7 := Real.exp_pos (-(a * f))
      have h8 : Real.exp (a * f - a * g) < 1 := by rw [Real.exp_lt_one_iff]; linarith
      rw [h6]
      nlinarith
    nlinarith
  have hd0 := hd.1
  have he1 := he.2
  have b := diffusion_bounds ha (sub_nonneg.2 he.2) (by linarith [he.1] : s - e ≤ s) hs
  have hlt := key (s - e) (s - d) (by linarith) (by linarith)
  simp only
  rw [diffusionVariance_mean ha (by linarith) (by linarith [he.1]) hs,
    diffusionVariance_mean ha (by linarith) (by linarith) hs]
  apply Real.sqrt_lt_sqrt b.2.1
  exact div_lt_div_of_pos_right hlt b.1

/-- **C71**, the mean charge capture of a model is defined for every thickness of the depletion region
from zero to the thickness of the substrate, and increases strictly with it. -/
theorem C71_monotone {s p wavelength a : ℝ} {absorption : ℝ → Option ℝ} (hs : 0 < s) (hp : 0 < p)
    (ha : 0 < a) (hw : absorption wavelength = some a) :
    ∃ c : ℝ → ℝ, (∀ d, 0 ≤ d → d ≤ s →
        (⟨d, s, absorption, p⟩ : DepletionModel).meanChargeCapture wavelength = some (c d)) ∧
      StrictMonoOn c (Icc 0 s) := by
  obtain ⟨w, hw1, hw2⟩ := chargeDiffusion_strictAnti ha hs
  obtain ⟨c, hc1, hc2⟩ := captureOfWidth_strictAnti hp
  refine ⟨fun d => c (w d), ?_, ?_⟩
  · intro d h0 h1
    unfold DepletionModel.meanChargeCapture
    simp only [hw, Option.bind_eq_bind, Option.bind_some, (hw1 d h0 h1).1]
    exact hc1 _ (hw1 d h0 h1).2
  · intro d hd e he hde
    exact hc2 (hw1 e he.1 he.2).2 (hw1 d hd.1 hd.2).2 (hw2 hd he hde)

/-- The measurements that a depletion model of thickness `d` predicts at the given wavelengths. -/
def PredictedBy (m : DepletionModel) (measured : List (ℝ × ℝ)) : Prop :=
  ∀ q ∈ measured, m.meanChargeCapture q.1 = some q.2

theorem mapM_some {α β : Type} {f : α → Option β} {g : α → β} (l : List α)
    (h : ∀ x ∈ l, f x = some (g x)) : l.mapM f = some (l.map g) := by
  induction l with
  | nil => rfl
  | cons x l ih =>
    rw [List.mapM_cons, h x (by simp), ih fun y hy => h y (by simp [hy])]
    rfl

/-- **C71**, the function that is minimized is zero at the true thickness, and grows strictly with the
distance from it on either side. -/
theorem C71_unimodal {s p d₀ : ℝ} {absorption : ℝ → Option ℝ} {measured : List (ℝ × ℝ)}
    (hs : 0 < s) (hp : 0 < p) (h0 : 0 ≤ d₀) (h1 : d₀ ≤ s) (hne : measured ≠ [])
    (habs : ∀ q ∈ measured, ∃ a, 0 < a ∧ absorption q.1 = some a)
    (hmeas : PredictedBy ⟨d₀, s, absorption, p⟩ measured) :
    ∃ F : ℝ → ℝ, (∀ d, 0 ≤ d → d ≤ s → depletionObjective s absorption p measured d = some (F d)) ∧
      F d₀ = 0 ∧ StrictAntiOn F (Icc 0 d₀) ∧ StrictMonoOn F (Icc d₀ s) := by
  have hex : ∀ q : ℝ × ℝ, ∃ c : ℝ → ℝ, q ∈ measured → (∀ d, 0 ≤ d → d ≤ s →
      (⟨d, s, absorption, p⟩ : DepletionModel).meanChargeCapture q.1 = some (c d)) ∧
      StrictMonoOn c (Icc 0 s) := by
    intro q
    by_cases hq : q ∈ measured
    · obtain ⟨a, ha, hw⟩ := habs q hq
      obtain ⟨c, hc⟩ := C71_monotone hs hp ha hw
      exact ⟨c, fun _ => hc⟩
    · exact ⟨id, fun h => absurd h hq⟩
  choose c hc using hex
  have hlen : (0 : ℝ) < measured.length := by
    exact_mod_cast List.length_pos_iff.2 hne
  have hval : ∀ q ∈ measured, q.2 = c q d₀ := by
    intro q hq
    have := hmeas q hq
    rw [(hc q hq).1 d₀ h0 h1, Option.some.injEq] at this
    exact this.symm
  set S : ℝ → ℝ := fun d => (measured.map fun q => (q.2 - c q d) ^ 2).sum with hS
  have hS0 : ∀ d, 0 ≤ S d := fun d => List.sum_nonneg fun x hx => by
    obtain ⟨q, -, rfl⟩ := List.mem_map.1 hx
    exact sq_nonneg _
  have hobj : ∀ d, 0 ≤ d → d ≤ s →
      depletionObjective s absorption p measured d = some (Real.sqrt (S d / measured.length)) := by
    intro d hd0 hd1
    unfold depletionObjective
    rw [mapM_some (g := fun q => (q.2 - c q d) ^ 2)]
    · simp only [Option.bind_eq_bind, Option.bind_some, List.length_map]
      rw [div?_of_ne hlen.ne', Option.bind_some, sqrt?_of_nonneg (div_nonneg (hS0 d) hlen.le)]
    · intro q hq
      have h := (hc q hq).1 d hd0 hd1
      unfold DepletionModel.meanChargeCapture at h
      simp only [Option.bind_eq_bind, Option.bind_eq_some_iff] at h
      obtain ⟨a, ha, w, hw, hcap⟩ := h
      simp only [ha, hw, hcap, Option.bind_eq_bind, Option.bind_some, Option.pure_def]
  have hlt : ∀ d e, 0 ≤ d → d ≤ s → 0 ≤ e → e ≤ s →
      (∀ q ∈ measured, (q.2 - c q d) ^ 2 < (q.2 - c q e) ^ 2) →
      Real.sqrt (S d / measured.length) < Real.sqrt (S e / measured.length) := by
    intro d e _ _ _ _ h
    apply Real.sqrt_lt_sqrt (div_nonneg (hS0 d) hlen.le)
    apply div_lt_div_of_pos_right _ hlen
    exact List.sum_lt_sum_of_ne_nil hne _ _ h
  refine ⟨fun d => Real.sqrt (S d / measured.length), hobj, ?_, ?_, ?_⟩
  · have : S d₀ = 0 := by
      simp only [hS]
      rw [List.sum_eq_zero]
      intro x hx
      obtain ⟨q, hq, rfl⟩ := List.mem_map.1 hx
      rw [hval q hq]; simp
    simp [this]
  · intro d hd e he hde
    refine hlt e d (by linarith [he.1]) (by linarith [he.2]) hd.1 (by linarith [hd.2]) fun q hq => ?_
    have hm := (hc q hq).2
    have h2 := hm ⟨hd.1, by linarith [hd.2]⟩ ⟨he.1, by linarith [he.2]⟩ hde
    have h3 := hm.monotoneOn ⟨he.1, by linarith [he.2]⟩ ⟨h0, h1⟩ he.2
    rw [hval q hq]
    nlinarith
  · intro d hd e he hde
    refine hlt d e (by linarith [hd.1]) hd.2 (by linarith [he.1]) he.2 fun q hq => ?_
    have hm := (hc q hq).2
    have h2 := hm ⟨by linarith [hd.1], hd.2⟩ ⟨by linarith [he.1], he.2⟩ hde
    have h3 := hm.monotoneOn ⟨h0, h1⟩ ⟨by linarith [hd.1], hd.2⟩ hd.1
    rw [hval q hq]
    nlinarith

/-- **C71**: a fit to measurements that a depletion model predicts recovers that model. -/
theorem C71_recover {minimizer : ScalarMinimizer} {s p d₀ : ℝ} {absorption : ℝ → Option ℝ}
    {measured : List (ℝ × ℝ)} {m : DepletionModel}
    (hs : 0 < s) (hp : 0 < p) (h0 : 0 ≤ d₀) (h1 : d₀ ≤ s) (hne : measured ≠ [])
    (habs : ∀ q ∈ measured, ∃ a, 0 < a ∧ absorption q.1 = some a)
    (hmeas : PredictedBy ⟨d₀, s, absorption, p⟩ measured)
    (hfit : fitDepletion minimizer s absorption p measured = some m) :
    m = ⟨d₀, s, absorption, p⟩ := by
  obtain ⟨F, hF, -, hanti, hmono⟩ := C71_unimodal hs hp h0 h1 hne habs hmeas
  unfold fitDepletion at hfit
  simp only [Option.bind_eq_bind, Option.bind_eq_some_iff, Option.pure_def, Option.some.injEq] at hfit
  obtain ⟨x, hx, rfl⟩ := hfit
  obtain ⟨hx0, hx1, u, hu, ε, hε, hmin⟩ := minimizer.spec _ _ _ _ hx
  rw [hF x hx0 hx1, Option.some.injEq] at hu
  suffices x = d₀ by rw [this]
  rcases lt_trichotomy x d₀ with h | h | h
  · exfalso
    set y := min d₀ (x + ε / 2) with hy
    have hxy : x < y := lt_min h (by linarith)
    have hyd : y ≤ d₀ := min_le_left _ _
    have hye : y ≤ x + ε / 2 := min_le_right _ _
    have := hmin y (F y) (by linarith) (by linarith) (by rw [abs_lt]; constructor <;> linarith)
      (hF y (by linarith) (by linarith))
    have h2 := hanti ⟨hx0, h.le⟩ ⟨by linarith, hyd⟩ hxy
    linarith
  · exact h
  · exfalso
    set y := max d₀ (x - ε / 2) with hy
    have hxy : y < x := max_lt h (by linarith)
    have hyd : d₀ ≤ y := le_max_left _ _
    have hye : x - ε / 2 ≤ y := le_max_right _ _
    have := hmin y (F y) (by linarith) (by linarith) (by rw [abs_lt]; constructor <;> linarith)
      (hF y (by linarith) (by linarith))
    have h2 := hmono ⟨hyd, by linarith⟩ ⟨h.le, hx1⟩ hxy
    linarith

/-- A minimizer that finds a local minimum whenever there is one. -/
noncomputable def completeMinimizer : ScalarMinimizer where
  find f lo hi := open Classical in
    if h : ∃ x, lo ≤ x ∧ x ≤ hi ∧
      ∃ u, f x = some u ∧ ∃ ε > 0, ∀ y v, lo ≤ y → y ≤ hi → |y - x| < ε → f y = some v → u ≤ v
    then some h.choose else none
  spec f lo hi x h := by
    split at h
    · rename_i hex
      simp only [Option.some.injEq] at h
      rw [← h]; exact hex.choose_spec
    · simp at h

/-- Non-vacuity of `C71_recover`: a depletion region of 5 in a substrate of 14 and pixels of 13, measured
at two wavelengths. -/
example : ∃ measured m, measured.length = 2 ∧
    PredictedBy ⟨5, 14, fun w => some w, 13⟩ measured ∧
    fitDepletion completeMinimizer 14 (fun w => some w) 13 measured = some m := by
  obtain ⟨c1, hc1, -⟩ := C71_monotone (s := 14) (p := 13) (wavelength := 1) (a := 1)
    (absorption := fun w => some w) (by norm_num) (by norm_num) (by norm_num) rfl
  obtain ⟨c2, hc2, -⟩ := C71_monotone (s := 14) (p := 13) (wavelength := 2) (a := 2)
    (absorption := fun w => some w) (by norm_num) (by norm_num) (by norm_num) rfl
  have hpred : PredictedBy ⟨5, 14, fun w => some w, 13⟩ [(1, c1 5), (2, c2 5)] := by
    intro q hq
    simp only [List.mem_cons, List.not_mem_nil, or_false] at hq
    rcases hq with rfl | rfl
    · exact hc1 5 (by norm_num) (by norm_num)
    · exact hc2 5 (by norm_num) (by norm_num)
  obtain ⟨F, hF, hF0, hanti, hmono⟩ := C71_unimodal (s := 14) (p := 13) (d₀ := 5)
    (absorption := fun w => some w) (measured := [(1, c1 5), (2, c2 5)]) (by norm_num) (by norm_num)
    (by norm_num) (by norm_num) (by simp) (by
      intro q hq
      simp only [List.mem_cons, List.not_mem_nil, or_false] at hq
      rcases hq with rfl | rfl <;> exact ⟨_, by norm_num, rfl⟩) hpred
  refine ⟨[(1, c1 5), (2, c2 5)], ?_⟩
  have hex : ∃ x : ℝ, 0 ≤ x ∧ x ≤ 14 ∧ ∃ u, depletionObjective 14 (fun w => some w) 13
      [(1, c1 5), (2, c2 5)] x = some u ∧ ∃ ε > 0, ∀ y v, 0 ≤ y → y ≤ 14 → |y - x| < ε →
        depletionObjective 14 (fun w => some w) 13 [(1, c1 5), (2, c2 5)] y = some v → u ≤ v := by
    refine ⟨5, by norm_num, by norm_num, F 5, hF 5 (by norm_num) (by norm_num), 1, one_pos, ?_⟩
    intro y v hy0 hy1 _ hv
    rw [hF y hy0 hy1, Option.some.injEq] at hv
    rw [← hv]
    rcases le_total y 5 with h | h
    · exact hanti.antitoneOn ⟨hy0, h⟩ ⟨by norm_num, le_refl _⟩ h
    · exact hmono.monotoneOn ⟨le_refl _, by norm_num⟩ ⟨h, hy1⟩ h
  refine ⟨⟨hex.choose, 14, fun w => some w, 13⟩, rfl, hpred, ?_⟩
  unfold fitDepletion completeMinimizer
  simp only
  rw [dif_pos hex]
  rfl

end Optika
