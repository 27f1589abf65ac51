import Verif.Model.FitEqe
import Verif.Props.SensorMaterial

/-!
# Fit of the quantum efficiency of a sensor (C78)
-/

namespace Optika
open Complex

/-! ### Specification -/

/-- The effective quantum efficiency that a sensor reports for light at normal incidence from vacuum
(the default arguments of `quantum_efficiency_effective`). -/
noncomputable def SiliconMaterial.normalEqe (m : SiliconMaterial) (w : ℝ) : Option ℝ :=
  m.eqe w ⟨0, 0, 1⟩ 1 ⟨0, 0, -1⟩

/-- `s` is the sum of the squared differences between measurements (wavelength, efficiency) and the
sensor. -/
inductive Misfit (m : SiliconMaterial) : List (ℝ × ℝ) → ℝ → Prop
  | nil : Misfit m [] 0
  | cons {w e q s : ℝ} {l : List (ℝ × ℝ)} : m.normalEqe w = some q → Misfit m l s →
      Misfit m ((w, e) :: l) ((e - q) ^ 2 + s)

/-- The sensor where the fit begins: 50 Å of oxide, an implant of 2317 Å, roughness 50 Å, collection
efficiency 0.21. -/
def SiliconMaterial.IsGuess (m : SiliconMaterial) : Prop :=
  m.thicknessOxide = 50 ∧ m.thicknessImplant = 2317 ∧ m.roughnessOxide = 0
    ∧ m.roughnessSubstrate = 50 ∧ m.cceBacksurface = 21 / 100

/-- Sensors that a fit may return: smooth oxide, sensible parameters. -/
def SiliconMaterial.Candidate (m : SiliconMaterial) : Prop :=
  0 ≤ m.thicknessOxide ∧ 0 ≤ m.thicknessImplant ∧ m.roughnessOxide = 0
    ∧ 0 ≤ m.roughnessSubstrate ∧ 0 ≤ m.cceBacksurface ∧ m.cceBacksurface ≤ 1

/-- Two sensors made of the same materials with the same thickness of the substrate. -/
def SiliconMaterial.SameStuff (m m' : SiliconMaterial) : Prop :=
  m.nSilicon = m'.nSilicon ∧ m.nOxide = m'.nOxide ∧ m.thicknessSubstrate = m'.thicknessSubstrate

/-- From its guess the minimizer finds the global minimum of a function. -/
def BoxMinimizer.GlobalFor (b : BoxMinimizer) (f : EqeParams → Option ℝ) : Prop :=
  ∀ (y : EqeParams) (v : ℝ), y.InBounds → f y = some v →
    ∃ u, f (b.find f eqeGuess) = some u ∧ u ≤ v

/-! ### Lemmas -/

theorem guess_in_bounds : eqeGuess.InBounds := by
  unfold EqeParams.InBounds eqeGuess
  norm_num

theorem normalEqe_eq (m : SiliconMaterial) (w : ℝ) : m.normalEqe w =
    quantumEfficiencyEffective w 1 1 m.nOxide m.nSilicon m.thicknessOxide m.thicknessImplant
      m.thicknessSubstrate m.cceBacksurface m.roughnessOxide m.roughnessSubstrate := by
  unfold SiliconMaterial.normalEqe SiliconMaterial.eqe
  simp [V3.dot]

/-- The parameters of a sensor. -/
noncomputable def SiliconMaterial.params (m : SiliconMaterial) : EqeParams :=
  ⟨m.thicknessOxide, m.thicknessImplant, m.roughnessSubstrate / nanometre, m.cceBacksurface⟩

theorem fitted_of_material (m : SiliconMaterial) (h : m.roughnessOxide = 0) (w : ℝ) :
    eqeFitted m.nOxide m.nSilicon m.thicknessSubstrate m.params w = m.normalEqe w := by
  rw [normalEqe_eq]
  unfold eqeFitted SiliconMaterial.params nanometre
  rw [h]
  simp only [zero_mul]
  congr 1
  ring

theorem misfit_iff (m : SiliconMaterial) (l : List (ℝ × ℝ)) (s : ℝ) :
    Misfit m l s ↔ ∃ squares, allFinite (l.map fun p =>
      (m.normalEqe p.1).map fun q => (p.2 - q) ^ 2) = some squares ∧ squares.sum = s
        ∧ squares.length = l.length := by
  induction l generalizing s with
  | nil =>
    constructor
    · rintro ⟨⟩
      exact ⟨[], rfl, rfl, rfl⟩
    · rintro ⟨sq, h1, h2, -⟩
      simp only [List.map_nil, allFinite, Option.some.injEq] at h1
      subst h1
      simp only [List.sum_nil] at h2
      subst h2
      exact .nil
  | cons p l ih =>
    obtain ⟨w, e⟩ := p
    constructor
    · rintro (_ | ⟨hq, hl⟩)
      rename_i q s
      obtain ⟨sq, h1, h2, h3⟩ := (ih s).1 hl
      refine ⟨(e - q) ^ 2 :: sq, ?_, ?_, ?_⟩
      · simp only [List.map_cons, hq, Option.map_some, allFinite, h1]
      · simp [h2]
      · simp [h3]
    · rintro ⟨sq, h1, h2, h3⟩
      rw [List.map_cons] at h1
      rcases hq : m.normalEqe w with _ | q
      · simp [hq, allFinite] at h1
      · simp only [hq, Option.map_some, allFinite, Option.map_eq_some_iff] at h1
        obtain ⟨sq', h4, rfl⟩ := h1
        simp only [List.sum_cons] at h2
        subst h2
        exact .cons hq ((ih _).2 ⟨sq', h4, rfl, by simpa using h3⟩)

theorem misfit_nonneg {m : SiliconMaterial} {l : List (ℝ × ℝ)} {s : ℝ} (h : Misfit m l s) :
    0 ≤ s := by
  induction h with
  | nil => exact le_rfl
  | cons _ _ ih => positivity

theorem misfit_point {m : SiliconMaterial} {l : List (ℝ × ℝ)} {s : ℝ} (h : Misfit m l s) :
    ∀ p ∈ l, ∃ q, m.normalEqe p.1 = some q ∧ (p.2 - q) ^ 2 ≤ s := by
  induction h with
  | nil => simp
  | cons hq hl ih =>
    intro p hp
    rcases List.mem_cons.1 hp with rfl | hp
    · exact ⟨_, hq, le_add_of_nonneg_right (misfit_nonneg hl)⟩
    · obtain ⟨q, h1, h2⟩ := ih p hp
      exact ⟨q, h1, h2.trans (le_add_of_nonneg_left (sq_nonneg _))⟩

theorem misfit_exact {m : SiliconMaterial} {l : List (ℝ × ℝ)} {s : ℝ} (h : Misfit m l s)
    (hm : ∀ p ∈ l, m.normalEqe p.1 = some p.2) : s = 0 := by
  induction h with
  | nil => rfl
  | cons hq _ ih =>
    have := hm _ List.mem_cons_self
    simp only [hq, Option.some.injEq] at this
    rw [ih (fun p hp => hm p (List.mem_cons_of_mem _ hp)), this]
    simp

theorem allFinite_length {α : Type} (l : List (Option α)) {l' : List α}
    (h : allFinite l = some l') : l'.length = l.length := by
  induction l generalizing l' with
  | nil => simp only [allFinite, Option.some.injEq] at h; subst h; rfl
  | cons a l ih =>
    cases a with
    | none => simp [allFinite] at h
    | some a =>
      simp only [allFinite, Option.map_eq_some_iff] at h
      obtain ⟨l'', h1, rfl⟩ := h
      simp [ih h1]

/-- The function that is minimized, for the parameters of a sensor. -/
theorem residual_iff (m : SiliconMaterial) (h : m.roughnessOxide = 0) {l : List (ℝ × ℝ)}
    (hl : l ≠ []) (v : ℝ) :
    eqeResidual m.nOxide m.nSilicon m.thicknessSubstrate l m.params = some v
      ↔ ∃ s, Misfit m l s ∧ v = Real.sqrt (s / l.length) := by
  have hn : (0 : ℝ) < l.length := by
    exact_mod_cast List.length_pos_iff.2 hl
  unfold eqeResidual
  simp only [fitted_of_material m h, Option.bind_eq_bind, Option.bind_eq_some_iff]
  constructor
  · rintro ⟨sq, h1, mean, h2, h3⟩
    have hlen := allFinite_length _ h1
    rw [List.length_map] at hlen
    have hm : Misfit m l sq.sum := (misfit_iff m l _).2 ⟨sq, h1, rfl, hlen⟩
    rw [hlen, div?_of_ne hn.ne', Option.some.injEq] at h2
    subst h2
    rw [sqrt?_of_nonneg (div_nonneg (misfit_nonneg hm) hn.le), Option.some.injEq] at h3
    exact ⟨_, hm, h3.symm⟩
  · rintro ⟨s, hm, rfl⟩
    obtain ⟨sq, h1, rfl, hlen⟩ := (misfit_iff m l _).1 hm
    refine ⟨sq, h1, sq.sum / l.length, ?_, ?_⟩
    · rw [hlen, div?_of_ne hn.ne']
    · exact sqrt?_of_nonneg (div_nonneg (misfit_nonneg hm) hn.le)

theorem sum_le_of_residual {s s' : ℝ} {n : ℕ} (hn : 0 < n) (hs : 0 ≤ s)
    (h : Real.sqrt (s' / n) ≤ Real.sqrt (s / n)) : s' ≤ s := by
  have hn' : (0 : ℝ) < n := by exact_mod_cast hn
  rw [Real.sqrt_le_sqrt_iff (by positivity)] at h
  exact (div_le_div_iff_of_pos_right hn').1 h

section
variable (b : BoxMinimizer) (nO nO' nSi : ℝ → ℂ) (iqy fano : ℝ → ℝ → ℝ) (D : ℝ)
  (l : List (ℝ × ℝ)) (T : ℝ)

theorem fit_params : (fitEqe b nO nO' nSi iqy fano D l T).params
    = b.find (eqeResidual nO nSi D l) eqeGuess := by
  unfold fitEqe SiliconMaterial.params nanometre
  simp

theorem fit_roughness : (fitEqe b nO nO' nSi iqy fano D l T).roughnessOxide = 0 := by
  simp [fitEqe]

theorem candidate_params {m : SiliconMaterial} (h : m.Candidate) : m.params.InBounds := by
  obtain ⟨h1, h2, -, h4, h5, h6⟩ := h
  exact ⟨h1, h2, div_nonneg h4 (by norm_num [nanometre]), h5, h6⟩

/-! ### C78 -/

/-- **C78**: the sensor that is fitted has sensible parameters, the thickness and temperature that
were given, and a smooth oxide. -/
theorem C78_parameters : (fitEqe b nO nO' nSi iqy fano D l T).Candidate
    ∧ (fitEqe b nO nO' nSi iqy fano D l T).thicknessSubstrate = D
    ∧ (fitEqe b nO nO' nSi iqy fano D l T).temperature = T := by
  obtain ⟨h1, h2, h3, h4, h5⟩ := b.bounds (eqeResidual nO nSi D l) _ guess_in_bounds
  refine ⟨⟨h1, h2, by simp [fitEqe], ?_, h4, h5⟩, rfl, rfl⟩
  exact mul_nonneg h3 (by norm_num [nanometre])

/-- **C78** (partial: for one table of the oxide, see the counterexample): the sensor that is fitted
agrees with the measurements at least as well as the sensor where the fit begins. -/
theorem C78_improves_partial {g : SiliconMaterial} (hg : g.IsGuess)
    (hs : g.SameStuff (fitEqe b nO nO nSi iqy fano D l T)) (hl : l ≠ []) {s : ℝ}
    (h : Misfit g l s) :
    ∃ s', Misfit (fitEqe b nO nO nSi iqy fano D l T) l s' ∧ s' ≤ s := by
  obtain ⟨g1, g2, g3, g4, g5⟩ := hg
  obtain ⟨e1, e2, e3⟩ := hs
  have e1 : g.nSilicon = nSi := e1
  have e2 : g.nOxide = nO := e2
  have e3 : g.thicknessSubstrate = D := e3
  have hp : g.params = eqeGuess := by
    unfold SiliconMaterial.params eqeGuess nanometre
    rw [g1, g2, g4, g5]
    norm_num
  have hr := (residual_iff g g3 hl _).2 ⟨s, h, rfl⟩
  rw [e1, e2, e3, hp] at hr
  obtain ⟨u, hu, huv⟩ := b.descent _ _ _ guess_in_bounds hr
  have hf := fit_params b nO nO nSi iqy fano D l T
  rw [← hf] at hu
  obtain ⟨s', hs', rfl⟩ :=
    (residual_iff (fitEqe b nO nO nSi iqy fano D l T) (fit_roughness ..) hl u).1 hu
  exact ⟨s', hs', sum_le_of_residual (List.length_pos_iff.2 hl) (misfit_nonneg h) huv⟩

/-- **C78** (partial: for one table of the oxide): with a minimizer that finds the minimum no sensor
of the same materials agrees better, and measurements of such a sensor are reproduced. -/
theorem C78_best_partial (hb : b.GlobalFor (eqeResidual nO nSi D l)) {g : SiliconMaterial}
    (hg : g.Candidate)
    (hs : g.SameStuff (fitEqe b nO nO nSi iqy fano D l T)) (hl : l ≠ []) {s : ℝ}
    (h : Misfit g l s) :
    ∃ s', Misfit (fitEqe b nO nO nSi iqy fano D l T) l s' ∧ s' ≤ s
      ∧ ((∀ p ∈ l, g.normalEqe p.1 = some p.2) →
        ∀ p ∈ l, (fitEqe b nO nO nSi iqy fano D l T).normalEqe p.1 = some p.2) := by
  obtain ⟨e1, e2, e3⟩ := hs
  have e1 : g.nSilicon = nSi := e1
  have e2 : g.nOxide = nO := e2
  have e3 : g.thicknessSubstrate = D := e3
  have hr := (residual_iff g hg.2.2.1 hl _).2 ⟨s, h, rfl⟩
  rw [e1, e2, e3] at hr
  obtain ⟨u, hu, huv⟩ := hb _ _ (candidate_params hg) hr
  have hf := fit_params b nO nO nSi iqy fano D l T
  rw [← hf] at hu
  obtain ⟨s', hs', rfl⟩ :=
    (residual_iff (fitEqe b nO nO nSi iqy fano D l T) (fit_roughness ..) hl u).1 hu
  have hle := sum_le_of_residual (List.length_pos_iff.2 hl) (misfit_nonneg h) huv
  refine ⟨s', hs', hle, fun hm p hp => ?_⟩
  have hz := misfit_exact h hm
  obtain ⟨q, h1, h2⟩ := misfit_point hs' p hp
  have : p.2 - q = 0 := by
    have := h2.trans (hle.trans hz.le)
    nlinarith
  rw [h1, sub_eq_zero.1 this]
end

/-! ### Examples -/

theorem momentum_normal (pol : Bool) (n : ℂ) : momentum pol 1 n = if pol then n else 1 / n := by
  cases pol <;> simp [momentum, polarizedDirection]

theorem quarter_layer (pol : Bool) {n : ℝ} (hn : 0 < n) {e : ℂ}
    (he : exp (I * (2 * Real.pi * ((1 / 4 : ℝ) : ℂ) * n * 1 / (1 : ℝ))) = e) :
    (⟨fun _ => (n : ℂ), 1 / 4, none⟩ : Layer).transfer 1 pol ⟨1, 1, true⟩ =
      (⟨n, 1, true⟩, some (interfaceMatrix (momentum pol 1 1) (momentum pol 1 n)
        * !![e⁻¹, 0; 0, e])) := by
  have hnz : (n : ℂ) ≠ 0 := by exact_mod_cast hn.ne'
  have hsum : ∀ x : ℝ, 0 < x → (1 : ℂ) + x ≠ 0 := by
    intro x hx h
    have := congrArg re h
    simp at this
    linarith
  have hr : refraction 1 1 1 pol 1 n none
      = some (interfaceMatrix (momentum pol 1 1) (momentum pol 1 n)) := by
    rw [refraction_eq_some]
    refine ⟨one_ne_zero, hnz, ?_, ?_, rfl⟩
    · cases pol
      · simpa [momentum_normal] using hsum n⁻¹ (inv_pos.2 hn)
      · simpa [momentum_normal] using hsum n hn
    · cases pol <;> simp [momentum_normal]
  have hp : propagation 1 1 (1 / 4) n = !![e⁻¹, 0; 0, e] := by
    unfold propagation
    simp only [neg_mul, exp_neg, he]
  have hv : ‖e‖⁻¹ < 10 ^ 10 := by
    have : ‖e‖ = 1 := by
      rw [← he, norm_exp]
      simp
    rw [this]
    norm_num
  unfold Layer.transfer
  simp only [snell_normal, hr, hp, if_true, Bool.true_and]
  simp [hv, hv.not_ge]

theorem quarter_substrate (pol : Bool) {n : ℝ} (hn : 0 < n) {N : ℂ} (hN : 0 < N.re) :
    (⟨fun _ => N, 0, none⟩ : Layer).transfer 1 pol ⟨n, 1, true⟩ =
      (⟨N, 1, true⟩, some (interfaceMatrix (momentum pol 1 n) (momentum pol 1 N))) := by
  have hnz : (n : ℂ) ≠ 0 := by exact_mod_cast hn.ne'
  have hNz : N ≠ 0 := fun h => by simp [h] at hN
  have hsum : ∀ (x : ℝ) (z : ℂ), 0 < x → 0 < z.re → (x : ℂ) + z ≠ 0 := by
    intro x z hx hz h
    have := congrArg re h
    simp at this
    linarith
  have hr : refraction 1 1 1 pol n N none
      = some (interfaceMatrix (momentum pol 1 n) (momentum pol 1 N)) := by
    rw [refraction_eq_some]
    refine ⟨hnz, hNz, ?_, ?_, rfl⟩
    · cases pol
      · simpa [momentum_normal] using hsum n⁻¹ N⁻¹ (inv_pos.2 hn) (by
          rw [inv_re]; exact div_pos hN (normSq_pos.2 hNz))
      · simpa [momentum_normal] using hsum n N hn hN
    · cases pol <;> simp [momentum_normal, hnz]
  have hp : propagation 1 1 0 N = 1 := by
    unfold propagation
    ext i j
    fin_cases i <;> fin_cases j <;> simp
  unfold Layer.transfer
  simp only [snell_normal, hr, hp, if_true, Bool.true_and]
  norm_num

theorem quarter_efficiency (pol : Bool) {n : ℝ} (hn : 0 < n) {N : ℂ} (hN : 0 < N.re) {D : ℝ} {e : ℂ}
    (he : exp (I * (2 * Real.pi * ((1 / 4 : ℝ) : ℂ) * n * 1 / (1 : ℝ))) = e) (he2 : e ^ 2 = -1) :
    ∃ R, multilayerEfficiency 1 pol 1 1 (.sequence [.layer ⟨fun _ => (n : ℂ), 1 / 4, none⟩])
      (some ⟨fun _ => N, D, none⟩) = some (R, 4 * n ^ 2 * N.re / normSq (N + n ^ 2)) := by
  have hnz : (n : ℂ) ≠ 0 := by exact_mod_cast hn.ne'
  have hNz : N ≠ 0 := fun h => by simp [h] at hN
  have he0 : e ≠ 0 := fun h => by simp [h] at he2
  have hei : e⁻¹ = -e := by
    field_simp
    rw [he2]; norm_num
  have hden : N + (n : ℂ) ^ 2 ≠ 0 := by
    intro h
    have := congrArg re h
    rw [add_re, ← ofReal_pow, ofReal_re, zero_re] at this
    nlinarith [sq_nonneg n]
  have ht : multilayerTransfer 1 pol 1 1 (.sequence [.layer ⟨fun _ => (n : ℂ), 1 / 4, none⟩])
      (some ⟨fun _ => N, D, none⟩) = (⟨N, 1, true⟩, some
        (interfaceMatrix (momentum pol 1 1) (momentum pol 1 n) * !![e⁻¹, 0; 0, e]
          * interfaceMatrix (momentum pol 1 n) (momentum pol 1 N))) := by
    unfold multilayerTransfer
    simp only [Stack.transfer, transferAll, quarter_layer pol hn he, substrateLayer,
      Option.elim_some, quarter_substrate pol hn hN]
    simp [mul?]
  set M : M2 := interfaceMatrix (momentum pol 1 1) (momentum pol 1 n) * !![e⁻¹, 0; 0, e]
          * interfaceMatrix (momentum pol 1 n) (momentum pol 1 N) with hM
  have h00 : M 0 0 = -e * (N + n ^ 2) / (2 * n * (if pol then 1 else N)) := by
    rw [hM, hei]
    cases pol
    · simp [momentum_normal, interfaceMatrix, Matrix.mul_apply, Fin.sum_univ_two]
      field_simp
      ring
    · simp [momentum_normal, interfaceMatrix, Matrix.mul_apply, Fin.sum_univ_two]
      field_simp
      ring
  have h0 : M 0 0 ≠ 0 := by
    rw [h00]
    apply div_ne_zero (mul_ne_zero (neg_ne_zero.2 he0) hden)
    cases pol <;> simp [hnz, hNz]
  refine ⟨‖M 1 0 / M 0 0‖ ^ 2, ?_⟩
  · unfold multilayerEfficiency multilayerCoefficients
    rw [ht]
    simp only [Option.bind_some, h0, if_false, substrateLayer, Option.elim_some, snell_normal,
      if_true]
    rw [if_neg (by cases pol <;> simp [momentum_normal])]
    congr 1
    refine Prod.ext rfl ?_
    have hne : ‖e‖ = 1 := by
      have := congrArg norm he2
      rw [norm_pow, norm_neg, norm_one] at this
      nlinarith [norm_nonneg e]
    simp only [h00]
    rw [one_div, inv_div, norm_div, div_pow, norm_mul (-e), norm_neg, hne, one_mul,
      ← normSq_eq_norm_sq, ← normSq_eq_norm_sq]
    cases pol
    · simp only [momentum_normal, Bool.false_eq_true, if_false, map_mul, normSq_ofReal]
      have : normSq N ≠ 0 := (normSq_pos.2 hNz).ne'
      have h4 : (1 / N / (1 / 1) : ℂ).re = N.re / normSq N := by simp [inv_re]
      rw [h4]
      have : normSq 2 = 4 := by simp [normSq_apply]; norm_num
      rw [this]
      field_simp
    · simp only [momentum_normal, if_true, map_mul, normSq_ofReal]
      have : normSq 2 = 4 := by simp [normSq_apply]; norm_num
      rw [this]
      simp
      ring

/-- The effective quantum efficiency behind an oxide of index `n` whose thickness is a quarter of the
wavelength. -/
theorem quarter_eqe {n : ℝ} (hn : 0 < n) {e : ℂ}
    (he : exp (I * (2 * Real.pi * ((1 / 4 : ℝ) : ℂ) * n * 1 / (1 : ℝ))) = e) (he2 : e ^ 2 = -1) :
    quantumEfficiencyEffective 1 1 1 (fun _ => (n : ℂ)) (fun _ => 2 + I) (1 / 4) 1 1 1 0 0
      = some (8 * n ^ 2 / ((n ^ 2 + 2) ^ 2 + 1) * (1 - Real.exp (-(4 * Real.pi)))) := by
  have hT : ∀ pol, sensorTransmittance 1 pol 1 1 (fun _ => (n : ℂ)) (fun _ => 2 + I) (1 / 4) 1 0 0
      = some (8 * n ^ 2 / ((n ^ 2 + 2) ^ 2 + 1)) := by
    intro pol
    obtain ⟨R, hR⟩ := quarter_efficiency (D := 1) pol hn (N := 2 + I) (by simp) he he2
    unfold sensorTransmittance
    rw [efficiency_smooth, hR, Option.map_some]
    congr 1
    have h1 : normSq (2 + I + (n : ℂ) ^ 2) = (n ^ 2 + 2) ^ 2 + 1 := by
      rw [← ofReal_pow, normSq_apply]
      simp only [add_re, add_im, re_ofNat, im_ofNat, I_re, I_im, ofReal_re, ofReal_im]
      ring
    have h2 : (2 + I : ℂ).re = 2 := by simp
    rw [h1, h2]
    ring
  have ha : absorptionEffective 1 (2 + I) 1 = some (4 * Real.pi) := by
    unfold absorptionEffective
    rw [div?_of_ne one_ne_zero]
    simp
  have hA : ∀ pol, sensorAbsorbance 1 pol 1 1 (fun _ => (n : ℂ)) (fun _ => 2 + I) (1 / 4) 1 0 0
      = some (8 * n ^ 2 / ((n ^ 2 + 2) ^ 2 + 1) * (1 - Real.exp (-(4 * Real.pi)))) := by
    intro pol
    unfold sensorAbsorbance
    simp only [hT, snell_normal, ha, Option.bind_eq_bind, Option.bind_some, Option.pure_def]
    congr 1
    ring_nf
  have hc : chargeCollectionEfficiency (4 * Real.pi) 1 1 = some 1 := by
    unfold chargeCollectionEfficiency
    have : 4 * Real.pi * 1 ≠ 0 := by positivity
    simp only [div?_of_ne this, Option.bind_eq_bind, Option.bind_some, Option.pure_def]
    simp
  unfold quantumEfficiencyEffective sensorAbsorbanceAverage
  simp only [hA, snell_normal, ha, hc, Option.bind_eq_bind, Option.bind_some, Option.pure_def]
  congr 1
  ring

theorem quarter_one : quantumEfficiencyEffective 1 1 1 (fun _ => 1) (fun _ => 2 + I) (1 / 4) 1 1 1
    0 0 = some (4 / 5 * (1 - Real.exp (-(4 * Real.pi)))) := by
  have h := quarter_eqe (n := 1) (e := I) one_pos (by
    refine Eq.trans ?_ exp_pi_div_two_mul_I; congr 1; push_cast; ring) I_sq
  rw [ofReal_one] at h
  rw [h]
  norm_num

theorem quarter_three : quantumEfficiencyEffective 1 1 1 (fun _ => 3) (fun _ => 2 + I) (1 / 4) 1 1 1
    0 0 = some (36 / 61 * (1 - Real.exp (-(4 * Real.pi)))) := by
  have h := quarter_eqe (n := 3) (e := -I) (by norm_num) (by
    have : exp (Real.pi * I + Real.pi / 2 * I) = -I := by
      rw [exp_add, exp_pi_mul_I, exp_pi_div_two_mul_I]; ring
    refine Eq.trans ?_ this; congr 1; push_cast; ring) (by rw [neg_sq]; exact I_sq)
  rw [show ((3 : ℝ) : ℂ) = 3 by norm_num] at h
  rw [h]
  norm_num

/-- The minimizer that looks at one more point than the start. -/
noncomputable def twoPointMinimizer (y : EqeParams) (hy : y.InBounds) : BoxMinimizer := by
  classical
  exact
  { find := fun f x => if ∃ u, f y = some u ∧ ∀ v, f x = some v → u ≤ v then y else x
    bounds := fun f x hx => by
      split
      · exact hy
      · exact hx
    descent := fun f x v _ h => by
      split
      · rename_i hu
        obtain ⟨u, h1, h2⟩ := hu
        exact ⟨u, h1, h2 v h⟩
      · exact ⟨v, h, le_rfl⟩ }

theorem quarter_bounds : (⟨1 / 4, 1, 0, 1⟩ : EqeParams).InBounds := by
  unfold EqeParams.InBounds; norm_num

theorem quarter_residual : eqeResidual (fun _ => 1) (fun _ => 2 + I) 1
    [(1, 4 / 5 * (1 - Real.exp (-(4 * Real.pi))))] ⟨1 / 4, 1, 0, 1⟩ = some 0 := by
  have hfit : eqeFitted (fun _ => 1) (fun _ => 2 + I) 1 ⟨1 / 4, 1, 0, 1⟩ 1
      = some (4 / 5 * (1 - Real.exp (-(4 * Real.pi)))) := by
    unfold eqeFitted
    simpa using quarter_one
  unfold eqeResidual
  simp only [List.map_cons, List.map_nil, hfit, Option.map_some, allFinite, Option.bind_eq_bind,
    Option.bind_some, sub_self]
  simp [div?_of_ne, sqrt?_of_nonneg]

theorem residual_nonneg {nO nSi : ℝ → ℂ} {D : ℝ} {l : List (ℝ × ℝ)} {x : EqeParams} {v : ℝ}
    (hv : eqeResidual nO nSi D l x = some v) : 0 ≤ v := by
  unfold eqeResidual at hv
  simp only [Option.bind_eq_bind, Option.bind_eq_some_iff] at hv
  obtain ⟨-, -, m, -, hm⟩ := hv
  rw [sqrt?_eq_some] at hm
  rw [hm.2]
  exact Real.sqrt_nonneg _

theorem quarter_find : (twoPointMinimizer _ quarter_bounds).find (eqeResidual (fun _ => 1)
    (fun _ => 2 + I) 1 [(1, 4 / 5 * (1 - Real.exp (-(4 * Real.pi))))]) eqeGuess
      = ⟨1 / 4, 1, 0, 1⟩ := by
  unfold twoPointMinimizer
  simp only
  rw [if_pos]
  exact ⟨0, quarter_residual, fun v hv => residual_nonneg hv⟩

/-- A sensor with a quarter wave of an oxide that has no effect: the minimizer finds it. -/
example : ∃ (b : BoxMinimizer) (g : SiliconMaterial) (l : List (ℝ × ℝ)), l ≠ [] ∧ g.Candidate
    ∧ b.GlobalFor (eqeResidual g.nOxide g.nSilicon g.thicknessSubstrate l)
    ∧ (∀ p ∈ l, g.normalEqe p.1 = some p.2) ∧ ∃ s, Misfit g l s := by
  let g : SiliconMaterial :=
    ⟨fun _ => 2 + I, fun _ => 1, fun _ _ => 1, fun _ _ => 1, 1 / 4, 1, 1, 0, 0, 1, 300⟩
  have hq : g.normalEqe 1 = some (4 / 5 * (1 - Real.exp (-(4 * Real.pi)))) := by
    rw [normalEqe_eq]
    exact quarter_one
  refine ⟨twoPointMinimizer _ quarter_bounds, g, [(1, 4 / 5 * (1 - Real.exp (-(4 * Real.pi))))],
    by simp, ?_, ?_, ?_, _, .cons hq .nil⟩
  · unfold SiliconMaterial.Candidate
    norm_num [g]
  · intro y v _ hv
    exact ⟨0, by rw [quarter_find]; exact quarter_residual, residual_nonneg hv⟩
  · intro p hp
    rw [List.mem_singleton] at hp
    subst hp
    exact hq

/-- **C78** fails for the tables of the code: the fit uses the index of one oxide and the sensor that
it returns the index of another.  The fit reproduces the measurement exactly: a sensor with the
parameters found and the oxide of the fit has it; but the sensor that is returned has not. -/
theorem C78_oxide_counterexample : ∃ (b : BoxMinimizer) (nO nO' nSi : ℝ → ℂ) (D w e : ℝ),
    PassiveIndex (nO w) ∧ PassiveIndex (nO' w) ∧ PassiveIndex (nSi w) ∧ ∀ iqy fano T,
      ({ fitEqe b nO nO' nSi iqy fano D [(w, e)] T with nOxide := nO } : SiliconMaterial).normalEqe w
          = some e
        ∧ ∃ q, (fitEqe b nO nO' nSi iqy fano D [(w, e)] T).normalEqe w = some q ∧ q < e * (3 / 4) := by
  refine ⟨twoPointMinimizer _ quarter_bounds, fun _ => 1, fun _ => 3, fun _ => 2 + I, 1, 1,
    4 / 5 * (1 - Real.exp (-(4 * Real.pi))), ⟨by norm_num, by norm_num, by norm_num⟩,
    ⟨by norm_num, by norm_num, by norm_num⟩,
    ⟨fun h => by simpa using congrArg im h, by simp, by simp⟩, fun iqy fano T => ⟨?_, ?_⟩⟩
  · rw [normalEqe_eq]
    simp only [fitEqe, quarter_find, zero_mul]
    exact quarter_one
  · refine ⟨36 / 61 * (1 - Real.exp (-(4 * Real.pi))), ?_, ?_⟩
    · rw [normalEqe_eq]
      simp only [fitEqe, quarter_find, zero_mul]
      exact quarter_three
    · have : Real.exp (-(4 * Real.pi)) < 1 := by
        rw [Real.exp_lt_one_iff]
        have := Real.pi_pos
        linarith
      linarith
end Optika
