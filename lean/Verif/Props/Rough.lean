import Verif.Props.Profiles

/-!
# Energy in stacks with rough interfaces (C32)
-/

namespace Optika
open Complex Matrix

/-- An interface that reflects less than an ideal one, by a real factor. -/
def Interface.Reducing (w : ℝ) (f : Interface) : Prop :=
  ∀ d n γ, f w d n = some γ → ∃ g : ℝ, γ = g ∧ |g| ≤ 1

/-- A layer of transparent material that light propagates in, with any interface that reduces
reflection; `σ` is the square of the tangential momentum. -/
structure Layer.Propagating (w σ : ℝ) (l : Layer) : Prop where
  index : ∃ n : ℝ, l.n w = n ∧ 0 < n ∧ σ < n ^ 2
  reducing : ∀ f, l.interface = some f → f.Reducing w

theorem profile_reducing (fourier : ℝ → ℝ → Option ℝ)
    (hf : fourier = erfFourier ∨ fourier = exponentialFourier ∨ fourier = linearFourier 1 ∨
      fourier = sinusoidalFourier) {width : ℝ} (hw : 0 ≤ width) (w : ℝ) :
    (profileReflectivity (fourier width)).Reducing w := by
  intro d n γ h
  unfold profileReflectivity at h
  obtain ⟨x, hx, rfl⟩ := Option.map_eq_some_iff.1 h
  exact ⟨x, rfl, C37_le_one fourier hf hw hx⟩

/-- A transparent medium that light propagates in. -/
structure Lit (σ : ℝ) (m : Medium) : Prop where
  real : ∃ n c : ℝ, m.n = n ∧ m.direction = c ∧ 0 < n ∧ 0 < c ∧ n ^ 2 * (1 - c ^ 2) = σ
  valid : m.valid = true

theorem lit_next {σ w : ℝ} {m : Medium} (h : Lit σ m) {l : Layer} (hl : l.Propagating w σ) :
    Lit σ (l.next w m) := by
  obtain ⟨n, c, hn, hc, hn0, hc0, hσ⟩ := h.real
  obtain ⟨n', hn', hn'0, hs⟩ := hl.index
  have hd : snellsLawScalar m.direction m.n (l.n w) = (Real.sqrt (1 - σ / n' ^ 2) : ℝ) := by
    rw [snellsLawScalar_eq, hn, hc, hn']
    have e : (1 : ℂ) - (n : ℂ) ^ 2 * (1 - (c : ℂ) ^ 2) / (n' : ℂ) ^ 2 = ((1 - σ / n' ^ 2 : ℝ) : ℂ) := by
      rw [← hσ]; push_cast; rfl
    rw [e, csqrt_ofReal]
    rw [sub_nonneg, div_le_one (by positivity)]
    exact hs.le
  have hpos : 0 < 1 - σ / n' ^ 2 := by
    rw [sub_pos, div_lt_one (by positivity)]; exact hs
  refine ⟨⟨n', Real.sqrt (1 - σ / n' ^ 2), hn', hd, hn'0, Real.sqrt_pos.2 hpos, ?_⟩, ?_⟩
  · rw [Real.sq_sqrt hpos.le]; field_simp; ring
  · show (m.valid && _) = true
    rw [h.valid, hd, norm_propagation, hn', ← ofReal_mul, ofReal_im]
    norm_num

/-- The momentum is positive. -/
theorem lit_momentum {σ : ℝ} {m : Medium} (h : Lit σ m) (pol : Bool) :
    ∃ q : ℝ, momentum pol m.direction m.n = q ∧ 0 < q := by
  obtain ⟨n, c, hn, hc, hn0, hc0, -⟩ := h.real
  obtain ⟨q, hq, hqv⟩ := momentum_ambient (n := n) (c := c) pol hn0
  refine ⟨q, by rw [hn, hc, hq], ?_⟩
  rw [hqv]; cases pol <;> simp <;> positivity

/-- Flux across a rough interface between transparent media. -/
theorem fluxOf_rough {p q g : ℝ} (hp : 0 < p) (hq : 0 < q) (hg : |g| ≤ 1) {k : M2}
    (h00 : k 0 0 = interfaceMatrix p q 0 0) (h11 : k 1 1 = interfaceMatrix p q 1 1)
    (h01 : k 0 1 = g * interfaceMatrix p q 0 1) (h10 : k 1 0 = g * interfaceMatrix p q 1 0)
    (a b : ℂ) (hf : 0 ≤ fluxOf q a b) :
    fluxOf q a b ≤ fluxOf p (app1 k a b) (app2 k a b) := by
  have e1 : app1 k a b = (((p + q) / (2 * p) : ℝ) : ℂ) * a + ((g * ((p - q) / (2 * p)) : ℝ) : ℂ) * b := by
    simp only [app1, h00, h01, interfaceMatrix]
    simp
  have e2 : app2 k a b = ((g * ((p - q) / (2 * p)) : ℝ) : ℂ) * a + (((p + q) / (2 * p) : ℝ) : ℂ) * b := by
    simp only [app2, h11, h10, interfaceMatrix]
    simp
  rw [e1, e2]
  rw [fluxOf_eq] at hf ⊢
  rw [fluxOf_eq]
  simp only [ofReal_re, ofReal_im, mul_zero, zero_mul, sub_zero] at hf ⊢
  have key : ∀ s t : ℝ, ‖(s : ℂ) * a + (t : ℂ) * b‖ ^ 2 - ‖(t : ℂ) * a + (s : ℂ) * b‖ ^ 2 =
      (s ^ 2 - t ^ 2) * (‖a‖ ^ 2 - ‖b‖ ^ 2) := by
    intro s t
    simp only [← Complex.normSq_eq_norm_sq, normSq_apply, add_re, add_im, mul_re, mul_im, ofReal_re,
      ofReal_im]
    ring
  rw [key]
  have hd : 0 ≤ ‖a‖ ^ 2 - ‖b‖ ^ 2 := nonneg_of_mul_nonneg_right hf hq
  have hg2 : g ^ 2 ≤ 1 := by rw [← sq_abs]; exact pow_le_one₀ (abs_nonneg g) hg
  have hfac : q ≤ p * (((p + q) / (2 * p)) ^ 2 - (g * ((p - q) / (2 * p))) ^ 2) := by
    have : p * (((p + q) / (2 * p)) ^ 2 - (g * ((p - q) / (2 * p))) ^ 2) - q =
        (1 - g ^ 2) * (p - q) ^ 2 / (4 * p) := by field_simp; ring
    have h2 : 0 ≤ (1 - g ^ 2) * (p - q) ^ 2 / (4 * p) := by
      apply div_nonneg (mul_nonneg (by linarith) (sq_nonneg _)) (by positivity)
    linarith
  nlinarith [mul_le_mul_of_nonneg_right hfac hd]

theorem fluxOf_phase {σ w h : ℝ} {m : Medium} (hm : Lit σ m) (pol : Bool) (a b : ℂ) :
    fluxOf (momentum pol m.direction m.n) a b = fluxOf (momentum pol m.direction m.n)
      (app1 (propagation w m.direction h m.n) a b) (app2 (propagation w m.direction h m.n) a b) := by
  obtain ⟨n, c, hn, hc, hn0, hc0, hσ⟩ := hm.real
  obtain ⟨q, hq, -⟩ := lit_momentum hm pol
  rw [hq, app1_propagation, app2_propagation, phase_eq]
  apply fluxOf_slab_eq
  left
  refine ⟨ofReal_im q, ?_⟩
  rw [hn, hc, ← ofReal_mul, ofReal_im, mul_zero]

theorem rough_transfer {σ w : ℝ} {m : Medium} (hm : Lit σ m) {l : Layer} (hl : l.Propagating w σ)
    (pol : Bool) {k : M2} (h : (l.transfer w pol m).2 = some k) (a b : ℂ)
    (hf : 0 ≤ fluxOf (momentum pol (l.next w m).direction (l.next w m).n) a b) :
    fluxOf (momentum pol (l.next w m).direction (l.next w m).n) a b ≤
      fluxOf (momentum pol m.direction m.n) (app1 k a b) (app2 k a b) := by
  have hm' := lit_next hm hl
  obtain ⟨p, hp, hp0⟩ := lit_momentum hm pol
  obtain ⟨q, hq, hq0⟩ := lit_momentum hm' pol
  have hval : (m.valid && decide (‖propagation w (snellsLawScalar m.direction m.n
    (l.n w)) l.thickness (l.n w) 0 0‖ < 10 ^ 10)) = true := hm'.valid
  unfold Layer.transfer at h
  simp only [hm.valid, if_true] at h
  rw [hm.valid] at hval
  rw [hval] at h
  simp only [if_true] at h
  obtain ⟨r, hr, rfl⟩ := Option.map_eq_some_iff.1 h
  have hphase := fluxOf_phase (w := w) (h := l.thickness) hm' pol a b
  rw [app1_mul, app2_mul]
  rw [hphase] at hf ⊢
  rw [hq] at hf ⊢
  have hq' : momentum pol (snellsLawScalar m.direction m.n (l.n w)) (l.n w) = q := hq
  cases hi : l.interface with
  | none =>
    rw [hi] at hr
    obtain ⟨-, -, -, h4, rfl⟩ := refraction_eq_some.1 hr
    rw [hq', fluxOf_interface h4]
    rfl
  | some f =>
    rw [hi] at hr
    obtain ⟨γ, hγ, -, -, -, -, m1, m2, m3, m4⟩ := refraction_rough hr
    obtain ⟨g, rfl, hg⟩ := hl.reducing f hi _ _ _ hγ
    rw [hp, hq'] at m1 m2 m3 m4
    rw [hp]
    exact fluxOf_rough hp0 hq0 hg m1 m2 m3 m4 _ _ hf

theorem rough_layers {σ w : ℝ} {pol : Bool} (ls : List Layer) {m : Medium} (hm : Lit σ m)
    (hl : ∀ l ∈ ls, l.Propagating w σ) {k : M2}
    (h : (transferAll w pol (ls.map .layer) m (some 1)).2 = some k) :
    Lit σ (transferAll w pol (ls.map .layer) m (some 1)).1 ∧
    ∀ a b, 0 ≤ fluxOf (momentum pol (transferAll w pol (ls.map .layer) m (some 1)).1.direction
        (transferAll w pol (ls.map .layer) m (some 1)).1.n) a b →
      fluxOf (momentum pol (transferAll w pol (ls.map .layer) m (some 1)).1.direction
        (transferAll w pol (ls.map .layer) m (some 1)).1.n) a b ≤
      fluxOf (momentum pol m.direction m.n) (app1 k a b) (app2 k a b) := by
  induction ls generalizing m k with
  | nil =>
    simp only [List.map_nil, transferAll, Option.some.injEq] at h ⊢
    rw [← h]
    refine ⟨hm, fun a b _ => ?_⟩
    rw [app1_one, app2_one]
  | cons l ls ih =>
    simp only [List.map_cons, transferAll, mul?_one_left, Stack.transfer] at h ⊢
    rw [transferAll_acc] at h ⊢
    simp only at h ⊢
    rw [Layer.transfer_fst] at h ⊢
    cases h1 : (l.transfer w pol m).2 with
    | none => rw [h1, mul?_none_left] at h; simp at h
    | some k1 =>
      cases h2 : (transferAll w pol (ls.map .layer) (l.next w m) (some 1)).2 with
      | none => rw [h2, mul?_none_right] at h; simp at h
      | some k2 =>
        rw [h1, h2, mul?_some] at h
        simp only [Option.some.injEq] at h
        have hl1 := hl l List.mem_cons_self
        obtain ⟨l2, s2⟩ := ih (lit_next hm hl1) (fun x hx => hl x (List.mem_cons_of_mem _ hx)) h2
        refine ⟨l2, fun a b hab => ?_⟩
        have hs := s2 a b hab
        rw [← h, app1_mul, app2_mul]
        exact hs.trans (rough_transfer hm hl1 pol h1 _ _ (hab.trans hs))

/-- **C32** with roughness: a stack of transparent layers with interfaces of any profile does not
create energy, as long as light propagates in all layers.  Missing: rough interfaces of absorbing
layers, for which the claim is false (`C32_rough_counterexample`). -/
theorem C32_rough_partial {w n c : ℝ} (hn : 0 < n) (hc : 0 < c) (hc1 : c ≤ 1)
    (pol : Bool) (layers : Stack) (sub : Option Layer) (hcount : layers.Counted)
    (hl : ∀ l ∈ layers.flat, l.Propagating w (n ^ 2 * (1 - c ^ 2)))
    (hs : (substrateLayer sub).Propagating w (n ^ 2 * (1 - c ^ 2))) {R T : ℝ}
    (h : multilayerEfficiency w pol c n layers sub = some (R, T)) :
    0 ≤ R ∧ 0 ≤ T ∧ R + T ≤ 1 := by
  obtain ⟨r, t, hrt, h0, rfl, rfl⟩ := efficiency_split h
  obtain ⟨k1, k2, hk1, hk2, hk0, rfl, rfl⟩ := coefficients_split hrt
  set σ := n ^ 2 * (1 - c ^ 2) with hσdef
  have hσ : 0 ≤ σ := mul_nonneg (sq_nonneg n) (by nlinarith)
  have hm : Lit σ ⟨n, c, true⟩ := ⟨⟨n, c, rfl, rfl, hn, hc, rfl⟩, rfl⟩
  have g : Good σ (n : ℂ) (c : ℂ) := good_ambient hn hc.le
  have e := transfer_flat w pol layers ⟨n, c, true⟩ hcount (fun l hl' => by
    obtain ⟨x, hx, hx0, -⟩ := (hl l hl').index
    rw [hx]; exact_mod_cast hx0.ne') (by rw [hk1]; simp)
  have hk1' := hk1
  rw [e] at hk1'
  obtain ⟨l1, s1⟩ := rough_layers layers.flat hm hl hk1'
  rw [← e] at s1 l1
  set m1 := (layers.transfer w pol ⟨n, c, true⟩).1 with hm1
  have l2 := lit_next l1 hs
  obtain ⟨q, hq, hq0⟩ := lit_momentum hm pol
  obtain ⟨q2, hq2, hq20⟩ := lit_momentum l2 pol
  obtain ⟨f1, f2⟩ := first_column hk0
  have hdir : ((substrateLayer sub).next w m1).direction =
      snellsLawScalar c n ((substrateLayer sub).n w) := by
    obtain ⟨x, y, hx, hy, hx0, hy0, hxy⟩ := l1.real
    show snellsLawScalar _ _ _ = _
    rw [snellsLawScalar_eq, snellsLawScalar_eq, hx, hy]
    congr 3
    have : ((x ^ 2 * (1 - y ^ 2) : ℝ) : ℂ) = ((n ^ 2 * (1 - c ^ 2) : ℝ) : ℂ) := by rw [hxy]
    push_cast at this
    exact this
  have hq2' : momentum pol (snellsLawScalar c n ((substrateLayer sub).n w))
      ((substrateLayer sub).n w) = q2 := by rw [← hdir]; exact hq2
  rw [if_pos l2.valid, hq2']
  simp only at hq
  rw [hq, ← ofReal_div, ofReal_re]
  refine ⟨by positivity, by positivity, ?_⟩
  have hpos : 0 ≤ fluxOf (momentum pol ((substrateLayer sub).next w m1).direction
      ((substrateLayer sub).next w m1).n) (1 / (k1 * k2) 0 0) 0 := by
    rw [hq2, fluxOf_transmitted, ofReal_re]; positivity
  have t1 := rough_transfer l1 hs pol hk2 _ _ hpos
  have t2 := s1 _ _ (hpos.trans t1)
  have t3 := t1.trans t2
  rw [← app1_mul, ← app2_mul, f1, f2, hq2, fluxOf_transmitted, ofReal_re] at t3
  simp only at t3
  rw [hq, fluxOf_ambient] at t3
  have : ‖1 / (k1 * k2) 0 0‖ ^ 2 * (q2 / q) ≤ 1 - ‖(k1 * k2) 1 0 / (k1 * k2) 0 0‖ ^ 2 := by
    rw [mul_div_assoc', div_le_iff₀ hq0]
    linarith
  linarith

/-- A rough film of index two on a rough substrate of index three. -/
example {R T : ℝ} (h : multilayerEfficiency 1 true 1 1
    (.layer ⟨fun _ => 2, 1, some (profileReflectivity (erfFourier 1))⟩)
    (some ⟨fun _ => 3, 0, some (profileReflectivity (exponentialFourier 1))⟩) = some (R, T)) :
    R + T ≤ 1 := by
  have h' : multilayerEfficiency 1 true ((1 : ℝ) : ℂ) ((1 : ℝ) : ℂ)
    (.layer ⟨fun _ => 2, 1, some (profileReflectivity (erfFourier 1))⟩)
    (some ⟨fun _ => 3, 0, some (profileReflectivity (exponentialFourier 1))⟩) = some (R, T) := by
    simpa using h
  refine (C32_rough_partial one_pos one_pos le_rfl true _ _ (by simp [Stack.Counted]) ?_ ?_ h').2.2
  · intro l hl
    simp only [Stack.flat, List.mem_singleton] at hl
    subst hl
    refine ⟨⟨2, by simp, by norm_num, by norm_num⟩, fun f hf => ?_⟩
    simp only [Option.some.injEq] at hf
    subst hf
    exact profile_reducing _ (Or.inl rfl) zero_le_one 1
  · refine ⟨⟨3, by simp [substrateLayer], by norm_num, by norm_num⟩, fun f hf => ?_⟩
    simp only [substrateLayer, Option.elim_some, Option.some.injEq] at hf
    subst hf
    exact profile_reducing _ (Or.inr (Or.inl rfl)) zero_le_one 1

/-- An absorbing layer with a rough back: more light is transmitted than arrives, whatever the
width of the interface.  The film of index `1 + i` has no thickness; without roughness everything
is transmitted. -/
theorem C32_rough_counterexample {width : ℝ} (hw : 0 < width) :
    ∃ R T, multilayerEfficiency 1 true 1 1 (.layer ⟨fun _ => 1 + I, 0, none⟩)
      (some ⟨fun _ => 1, 0, some (profileReflectivity (exponentialFourier width))⟩) = some (R, T) ∧
      1 < T := by
  set γ : ℝ := 1 / (1 + (4 * Real.pi * width) ^ 2 / 2) with hγ
  have hpi := Real.pi_pos
  have hγ0 : 0 < γ := by positivity
  have hγ1 : γ < 1 := by
    rw [hγ, div_lt_one (by positivity)]
    have : 0 < (4 * Real.pi * width) ^ 2 := by positivity
    linarith
  have hI : (1 + I : ℂ) ≠ 0 := fun h => by simpa using congrArg re h
  have hlt : ‖(1 : M2) 0 0‖ < 10 ^ 10 := by norm_num
  have hfac : profileReflectivity (exponentialFourier width) 1 1 (1 + I) = some (γ : ℂ) := by
    unfold profileReflectivity exponentialFourier
    simp only [Option.map_some, Option.some.injEq]
    rw [hγ]
    congr 2
    have : (-2 * (-2 * (Real.pi : ℂ) * (1 + I) * 1 / ((1 : ℝ) : ℂ))).re = 4 * Real.pi := by
      simp
      ring
    rw [this]
  have hr1 : refraction 1 1 1 true 1 (1 + I) none = some (interfaceMatrix 1 (1 + I)) := by
    refine refraction_eq_some.2 ⟨one_ne_zero, hI, ?_, ?_, ?_⟩
    · simp only [momentum, polarizedDirection, if_true, one_mul]
      intro h; have := congrArg re h; norm_num at this
    · simp [momentum, polarizedDirection]
    · simp [momentum, polarizedDirection]
  have hr2 : refraction 1 1 1 true (1 + I) 1 (some (profileReflectivity (exponentialFourier width)))
      = some !![(2 + I) / (2 * (1 + I)), γ * (I / (2 * (1 + I)));
          γ * (I / (2 * (1 + I))), (2 + I) / (2 * (1 + I))] := by
    have h2 : (1 + I + 1 : ℂ) ≠ 0 := fun h => by have := congrArg re h; norm_num at this
    unfold refraction
    simp only [momentum, polarizedDirection, if_true, one_mul, Option.elim_some, hfac,
      Option.map_some, Option.bind_some]
    rw [if_neg (by push Not; exact ⟨hI, one_ne_zero, h2⟩), if_neg (by
      apply div_ne_zero _ h2
      exact mul_ne_zero two_ne_zero hI)]
    congr 1
    ext i j
    fin_cases i <;> fin_cases j <;> simp <;> field_simp <;> ring
  have hM : ((interfaceMatrix 1 (1 + I)) * !![(2 + I) / (2 * (1 + I)), γ * (I / (2 * (1 + I)));
          γ * (I / (2 * (1 + I))), (2 + I) / (2 * (1 + I))] : M2) 0 0
      = (3 + γ + 4 * I) / (4 * (1 + I)) := by
    simp only [interfaceMatrix, Matrix.mul_apply, Fin.sum_univ_two]
    simp
    field_simp
    linear_combination (4 - 4 * (γ : ℂ)) * I_sq
  have hM0 : (3 + γ + 4 * I : ℂ) / (4 * (1 + I)) ≠ 0 := by
    apply div_ne_zero
    · intro h; have := congrArg im h; norm_num at this
    · exact mul_ne_zero (by norm_num) hI
  have ht : multilayerTransfer 1 true 1 1 (.layer ⟨fun _ => 1 + I, 0, none⟩)
      (some ⟨fun _ => 1, 0, some (profileReflectivity (exponentialFourier width))⟩) =
      (⟨1, 1, true⟩, some ((interfaceMatrix 1 (1 + I)) *
        !![(2 + I) / (2 * (1 + I)), γ * (I / (2 * (1 + I)));
          γ * (I / (2 * (1 + I))), (2 + I) / (2 * (1 + I))])) := by
    unfold multilayerTransfer
    simp only [Stack.transfer, substrateLayer, Option.elim_some, Layer.transfer, propagation_zero,
      snell_normal, if_true, hr1, Bool.true_and, decide_eq_true hlt, Option.map_some, mul_one, hr2,
      mul?_some]
  refine ⟨‖((interfaceMatrix 1 (1 + I)) * !![(2 + I) / (2 * (1 + I)), γ * (I / (2 * (1 + I)));
          γ * (I / (2 * (1 + I))), (2 + I) / (2 * (1 + I))] : M2) 1 0
        / ((3 + γ + 4 * I) / (4 * (1 + I)))‖ ^ 2, 32 / ((3 + γ) ^ 2 + 16), ?_, ?_⟩
  · unfold multilayerEfficiency multilayerCoefficients
    simp only [ht, hM, if_neg hM0, Option.bind_some, if_true]
    have hq : momentum true 1 1 = 1 := by simp [momentum, polarizedDirection]
    simp only [substrateLayer, Option.elim_some, snell_normal, hq, if_neg one_ne_zero, div_one,
      one_re, mul_one]
    congr 2
    rw [norm_div, norm_one, norm_div, one_div, inv_div, div_pow, norm_mul, mul_pow,
      ← Complex.normSq_eq_norm_sq, ← Complex.normSq_eq_norm_sq, ← Complex.normSq_eq_norm_sq]
    simp [normSq_apply]
    field_simp
    ring
  · rw [lt_div_iff₀ (by positivity)]
    nlinarith

end Optika
