import Verif.Spec.Waves
import Verif.Props.Fresnel

/-!
# C70: the fields in a coating
-/

namespace Optika
open Complex Matrix

/-- Both polarizations in terms of the momentum. -/
def WavesQ (q : ℂ → ℂ → ℂ) (w : ℝ) (qs t : ℂ) : (n c f b : ℂ) → List Slab → Prop
  | n, c, f, b, [] => f + b = t ∧ q c n * (f - b) = qs * t
  | n, c, f, b, s :: L => ∃ f' b', f + b = f' + b' ∧ q c n * (f - b) = q s.c s.n * (f' - b') ∧
      WavesQ q w qs t s.n s.c (f' * s.phase w) (b' / s.phase w) L

/-- The slabs that light traverses. -/
noncomputable def slabsOf (w : ℝ) : List Layer → Medium → List Slab
  | [], _ => []
  | l :: ls, m => ⟨l.n w, (l.next w m).direction, l.thickness⟩ :: slabsOf w ls (l.next w m)

theorem interface_iff {qi qj f b f' b' : ℂ} (hqi : qi ≠ 0) :
    (f + b = f' + b' ∧ qi * (f - b) = qj * (f' - b')) ↔
      f = (qi + qj) / (2 * qi) * f' + (qi - qj) / (2 * qi) * b' ∧
      b = (qi - qj) / (2 * qi) * f' + (qi + qj) / (2 * qi) * b' := by
  constructor
  · rintro ⟨h1, h2⟩
    constructor
    · field_simp
      linear_combination qi * h1 + h2
    · field_simp
      linear_combination qi * h1 - h2
  · rintro ⟨rfl, rfl⟩
    constructor
    · field_simp
      ring
    · field_simp
      ring

theorem next_valid_of {w : ℝ} {ks : List Layer} {m : Medium}
    (h : (ks.foldl (fun m l => l.next w m) m).valid = true) : m.valid = true := by
  induction ks generalizing m with
  | nil => exact h
  | cons k ks ih =>
    have := ih h
    unfold Layer.next at this
    simp only [Bool.and_eq_true] at this
    exact this.1

theorem transferAll_state (w : ℝ) (p : Bool) (ks : List Layer) (m : Medium) (acc : Option M2) :
    (transferAll w p (ks.map .layer) m acc).1 = ks.foldl (fun m l => l.next w m) m := by
  induction ks generalizing m acc with
  | nil => rfl
  | cons k ks ih => simp only [List.map_cons, transferAll, Stack.transfer, List.foldl_cons]; rw [ih]; rfl

/-- The product of the transfer matrices determines the amplitudes of the waves. -/
theorem waves_matrix (w : ℝ) (pol : Bool) (sub : Layer) (hi : sub.interface = none)
    (h0 : sub.thickness = 0) (ks : List Layer) (hks : ∀ l ∈ ks, l.interface = none) (m : Medium)
    (hv : (ks.foldl (fun m l => l.next w m) m).valid = true) (k1 k2 : M2)
    (h1 : (transferAll w pol (ks.map .layer) m (some 1)).2 = some k1)
    (h2 : (sub.transfer w pol (ks.foldl (fun m l => l.next w m) m)).2 = some k2) (f b t : ℂ) :
    WavesQ (momentum pol) w (momentum pol
        (sub.next w (ks.foldl (fun m l => l.next w m) m)).direction (sub.n w)) t m.n m.direction f b
      (slabsOf w ks m) ↔ f = (k1 * k2) 0 0 * t ∧ b = (k1 * k2) 1 0 * t := by
  induction ks generalizing m k1 f b with
  | nil =>
    simp only [List.map_nil, transferAll, Option.some.injEq] at h1
    subst h1
    simp only [List.foldl_nil] at hv h2 ⊢
    obtain ⟨-, -, hq, hk⟩ := transfer_valid_matrix hi hv h2
    have hp : (if (sub.next w m).valid then propagation w (sub.next w m).direction sub.thickness
        (sub.next w m).n else 1) = (1 : M2) := by
      rw [h0, propagation_zero]; simp
    rw [hp, mul_one] at hk
    subst hk
    rw [one_mul]
    simp only [slabsOf, WavesQ]
    have := interface_iff (qi := momentum pol m.direction m.n)
      (qj := momentum pol (sub.next w m).direction (sub.n w)) (f := f) (b := b) (f' := t) (b' := 0) hq
    simp only [add_zero, sub_zero, mul_zero] at this
    rw [this]
    simp [interfaceMatrix, Layer.next]
  | cons k ks ih =>
    have hv0 : m.valid = true := next_valid_of hv
    have hv1 : (k.next w m).valid = true := next_valid_of (ks := ks) hv
    simp only [List.map_cons, transferAll, Stack.transfer] at h1
    rw [transferAll_acc, mul?_one_left] at h1
    simp only at h1
    cases hA : (k.transfer w pol m).2 with
    | none => rw [hA, mul?_none_left] at h1; exact absurd h1 (by simp)
    | some A =>
      cases hB : (transferAll w pol (ks.map .layer) (k.transfer w pol m).1 (some 1)).2 with
      | none => rw [hB, mul?_none_right] at h1; exact absurd h1 (by simp)
      | some B =>
        rw [hA, hB, mul?_some, Option.some.injEq] at h1
        subst h1
        obtain ⟨-, -, hq, hk⟩ := transfer_valid_matrix (hks k (by simp)) hv0 hA
        rw [if_pos hv1] at hk
        simp only [slabsOf, WavesQ]
        rw [Layer.transfer_fst] at hB
        have key := fun f b => ih (fun l hl => hks l (by simp [hl])) (k.next w m) hv B hB h2 f b
        have hph : ∀ s : Slab, s.phase w ≠ 0 := fun s => exp_ne_zero _
        set s : Slab := ⟨k.n w, (k.next w m).direction, k.thickness⟩ with hs
        have hprop : propagation w (k.next w m).direction k.thickness (k.next w m).n =
            !![1 / s.phase w, 0; 0, s.phase w] := by
          unfold propagation Slab.phase
          rw [one_div, ← exp_neg]
          simp only [hs, Layer.next]
          congr 3 <;> ring_nf
        rw [hprop] at hk
        have hN : A * B * k2 = A * (B * k2) := by rw [mul_assoc]
        rw [hN]
        generalize B * k2 = N at key
        subst hk
        have hS : (k.next w m).n = s.n ∧ (k.next w m).direction = s.c := ⟨rfl, rfl⟩
        rw [hS.1, hS.2] at key ⊢
        have hp := hph s
        generalize s.phase w = ph at *
        constructor
        · rintro ⟨f', b', e1, e2, e3⟩
          obtain ⟨e3, e4⟩ := (key _ _).1 e3
          obtain ⟨e5, e6⟩ := (interface_iff hq).1 ⟨e1, e2⟩
          have hf' : f' = N 0 0 * t / ph := by rw [eq_div_iff hp]; exact e3
          have hb' : b' = N 1 0 * t * ph := by rw [← e4]; field_simp
          rw [e5, e6, hf', hb']
          constructor
          · simp [interfaceMatrix, Matrix.mul_apply, Fin.sum_univ_two]
            ring
          · simp [interfaceMatrix, Matrix.mul_apply, Fin.sum_univ_two]
            ring
        · rintro ⟨e1, e2⟩
          refine ⟨N 0 0 * t / ph, N 1 0 * t * ph, ?_⟩
          rw [← and_assoc]
          refine ⟨(interface_iff hq).2 ?_, (key _ _).2 ⟨by field_simp, by field_simp⟩⟩
          rw [e1, e2]
          constructor
          · simp [interfaceMatrix, Matrix.mul_apply, Fin.sum_univ_two]
            ring
          · simp [interfaceMatrix, Matrix.mul_apply, Fin.sum_univ_two]
            ring

/-- Slabs with the indices and thicknesses of the layers, in which waves travel as Snell's law demands
of waves that come from a medium of index `n` at an angle of cosine `c`. -/
def SlabsOf (w : ℝ) (n c : ℂ) (layers : List Layer) (slabs : List Slab) : Prop :=
  List.Forall₂ (fun l s => s.n = l.n w ∧ s.h = l.thickness ∧ Refracted n c s.n s.c) layers slabs

theorem propagation_phase (w : ℝ) (c n : ℂ) (h : ℝ) :
    propagation w c h n = !![1 / (Slab.mk n c h).phase w, 0; 0, (Slab.mk n c h).phase w] := by
  unfold propagation Slab.phase
  rw [one_div, ← exp_neg]
  congr 3 <;> ring_nf

theorem slabsOf_eq {w : ℝ} {n c : ℂ} {ks : List Layer} {slabs : List Slab}
    (h : SlabsOf w n c ks slabs) (hk : ∀ l ∈ ks, l.n w ≠ 0)
    (hclear : ∀ s ∈ slabs, 1 / ‖s.phase w‖ < 10 ^ 10) (m : Medium)
    (ht : m.transverse = n ^ 2 * (1 - c ^ 2)) (hv : m.valid = true) :
    slabsOf w ks m = slabs ∧ (ks.foldl (fun m l => l.next w m) m).valid = true ∧
      (ks.foldl (fun m l => l.next w m) m).transverse = n ^ 2 * (1 - c ^ 2) := by
  induction h generalizing m with
  | nil => exact ⟨rfl, hv, ht⟩
  | @cons l s ks slabs hls _ ih =>
    obtain ⟨e1, e2, e3⟩ := hls
    have hn : l.n w ≠ 0 := hk l (by simp)
    have hd : snellsLawScalar m.direction m.n (l.n w) = s.c := by
      rw [snellsLawScalar_congr (d := c) (m := n) ht]
      rw [e1] at e3
      exact e3.eq hn
    have hs : (⟨l.n w, (l.next w m).direction, l.thickness⟩ : Slab) = s := by
      obtain ⟨sn, sc, sh⟩ := s
      simp only at e1 e2 hd
      subst e1 e2 hd
      rfl
    have hvalid : (l.next w m).valid = true := by
      unfold Layer.next
      simp only [hv, Bool.true_and, decide_eq_true_eq]
      rw [propagation_phase]
      have := hclear s (by simp)
      rw [← hs] at this
      simpa [Layer.next] using this
    obtain ⟨h1, h2, h3⟩ := ih (fun l hl => hk l (by simp [hl])) (fun s hs => hclear s (by simp [hs]))
      (l.next w m) (by rw [next_transverse w l m hn]; exact ht) hvalid
    refine ⟨?_, h2, h3⟩
    simp only [slabsOf]
    rw [hs, h1]

/-- The coefficients of a coating are amplitudes of waves. -/
theorem coefficients_waves {w : ℝ} (pol : Bool) {n c : ℂ} (layers : Stack)
    (sub : Option Layer) (hcount : layers.Counted)
    (hl : ∀ l ∈ layers.flat, l.n w ≠ 0 ∧ l.interface = none)
    (hs : (substrateLayer sub).n w ≠ 0 ∧ (substrateLayer sub).interface = none)
    {slabs : List Slab} (hslabs : SlabsOf w n c layers.flat slabs)
    (hclear : ∀ s ∈ slabs, 1 / ‖s.phase w‖ < 10 ^ 10) {cs : ℂ}
    (hcs : Refracted n c ((substrateLayer sub).n w) cs) {r t : ℂ}
    (h : multilayerCoefficients w pol c n layers sub = some (r, t)) (r' t' : ℂ) :
    WavesQ (momentum pol) w (momentum pol cs ((substrateLayer sub).n w)) t' n c 1 r' slabs ↔
      r' = r ∧ t' = t := by
  obtain ⟨k1, k2, h1, h2, h0, hr, ht⟩ := coefficients_split h
  have hflat := transfer_flat w pol layers ⟨n, c, true⟩ hcount (fun l hl' => (hl l hl').1)
    (by rw [h1]; simp)
  rw [hflat] at h1 h2 ht
  rw [transferAll_state] at h2 ht
  obtain ⟨e1, e2, e3⟩ := slabsOf_eq hslabs (fun l hl' => (hl l hl').1) hclear ⟨n, c, true⟩ rfl rfl
  have hthick : (substrateLayer sub).thickness = 0 := by
    cases sub <;> rfl
  have key := waves_matrix w pol (substrateLayer sub) hs.2 hthick layers.flat
    (fun l hl' => (hl l hl').2) ⟨n, c, true⟩ e2 k1 k2 h1 h2 1 r' t'
  have hdir : ((substrateLayer sub).next w
      (layers.flat.foldl (fun m l => l.next w m) ⟨n, c, true⟩)).direction = cs := by
    generalize layers.flat.foldl (fun m l => l.next w m) ⟨n, c, true⟩ = m0 at e3 ⊢
    unfold Layer.next
    simp only
    rw [snellsLawScalar_congr (d := c) (m := n) e3]
    exact hcs.eq hs.1
  have hvs : ((substrateLayer sub).next w
      (layers.flat.foldl (fun m l => l.next w m) ⟨n, c, true⟩)).valid = true := by
    generalize layers.flat.foldl (fun m l => l.next w m) ⟨n, c, true⟩ = m0 at e2 ⊢
    unfold Layer.next
    simp only [e2, Bool.true_and, decide_eq_true_eq, hthick, propagation_zero]
    norm_num
  rw [hdir, e1] at key
  rw [if_pos hvs] at ht
  rw [key, hr, ht]
  constructor
  · rintro ⟨g1, g2⟩
    have hte : t' = 1 / (k1 * k2) 0 0 := by rw [eq_div_iff h0, mul_comm]; exact g1.symm
    exact ⟨by rw [g2, hte]; ring, hte⟩
  · rintro ⟨rfl, rfl⟩
    exact ⟨by field_simp, by ring⟩

theorem wavesS_iff (w : ℝ) (ns cs t n c f b : ℂ) (L : List Slab) :
    WavesS w ns cs t n c f b L ↔ WavesQ (momentum true) w (momentum true cs ns) t n c f b L := by
  induction L generalizing n c f b with
  | nil => simp only [WavesS, WavesQ, momentum_s]
  | cons s L ih => simp only [WavesS, WavesQ, momentum_s, ih]

theorem momentum_p_real {c n : ℂ} (hc : c.im = 0) : momentum false c n = c / n := by
  have : (starRingEnd ℂ) c = c := conj_eq_iff_im.2 hc
  simp [momentum, polarizedDirection, this, div_eq_mul_inv]

theorem wavesP_iff (w : ℝ) (ns cs t n c f b : ℂ) (L : List Slab) (hns : ns ≠ 0) (hcs : cs.im = 0)
    (hn : n ≠ 0) (hc : c.im = 0) (hL : ∀ s ∈ L, s.n ≠ 0 ∧ s.c.im = 0) :
    WavesP w ns cs t n c f b L ↔
      WavesQ (momentum false) w (momentum false cs ns) (ns * t) n c (n * f) (n * b) L := by
  induction L generalizing n c f b with
  | nil =>
    simp only [WavesP, WavesQ, momentum_p_real hcs, momentum_p_real hc]
    constructor
    · rintro ⟨h1, h2⟩
      exact ⟨by linear_combination h1, by field_simp; linear_combination h2⟩
    · rintro ⟨h1, h2⟩
      refine ⟨by linear_combination h1, ?_⟩
      field_simp at h2
      linear_combination h2
  | cons s L ih =>
    obtain ⟨hs1, hs2⟩ := hL s (by simp)
    have hp : s.phase w ≠ 0 := exp_ne_zero _
    simp only [WavesP, WavesQ, momentum_p_real hs2, momentum_p_real hc]
    constructor
    · rintro ⟨f', b', h1, h2, h3⟩
      refine ⟨s.n * f', s.n * b', by linear_combination h1, ?_, ?_⟩
      · field_simp; linear_combination h2
      · rw [ih _ _ _ _ hs1 hs2 fun s hs => hL s (by simp [hs])] at h3
        rw [mul_assoc, mul_div_assoc]
        exact h3
    · rintro ⟨f', b', h1, h2, h3⟩
      refine ⟨f' / s.n, b' / s.n, ?_, ?_, ?_⟩
      · field_simp; linear_combination h1
      · field_simp at h2 ⊢; linear_combination h2
      · rw [ih _ _ _ _ hs1 hs2 fun s hs => hL s (by simp [hs])]
        have e1 : s.n * (f' / s.n * s.phase w) = f' * s.phase w := by field_simp
        have e2 : s.n * (b' / s.n / s.phase w) = b' / s.phase w := by field_simp
        rw [e1, e2]
        exact h3

/-- **C70**: light that is polarized perpendicular to the plane of incidence.  If reflectivity and
transmissivity of a coating are finite, there are waves in the layers whose fields are continuous at all
boundaries; they are unique, and reflectivity and transmissivity are the flux of the reflected and of the
transmitted wave.  For any nested and periodic sequence of transparent or absorbing layers that is not
opaque, on any substrate and below any medium. -/
theorem C70_s {w : ℝ} {n c : ℂ} (layers : Stack) (sub : Option Layer) (hcount : layers.Counted)
    (hl : ∀ l ∈ layers.flat, l.n w ≠ 0 ∧ l.interface = none)
    (hs : (substrateLayer sub).n w ≠ 0 ∧ (substrateLayer sub).interface = none)
    {slabs : List Slab} (hslabs : SlabsOf w n c layers.flat slabs)
    (hclear : ∀ s ∈ slabs, 1 / ‖s.phase w‖ < 10 ^ 10) {cs : ℂ}
    (hcs : Refracted n c ((substrateLayer sub).n w) cs) {R T : ℝ}
    (h : multilayerEfficiency w true c n layers sub = some (R, T)) :
    ∃ r t, WavesS w ((substrateLayer sub).n w) cs t n c 1 r slabs ∧ R = ‖r‖ ^ 2 ∧
      T = ((substrateLayer sub).n w * cs / (n * c)).re * ‖t‖ ^ 2 ∧
      ∀ r' t', WavesS w ((substrateLayer sub).n w) cs t' n c 1 r' slabs → r' = r ∧ t' = t := by
  obtain ⟨r, t, h1, h2, hR, hT⟩ := efficiency_split h
  have key := coefficients_waves true layers sub hcount hl hs hslabs hclear hcs h1
  refine ⟨r, t, (wavesS_iff ..).2 ((key r t).2 ⟨rfl, rfl⟩), hR, ?_, fun r' t' h' =>
    (key r' t').1 ((wavesS_iff ..).1 h')⟩
  rw [hcs.eq hs.1, momentum_s, momentum_s] at hT
  rw [hT, mul_comm]

/-- **C70**: the same for light polarized in the plane of incidence, if the cosines of the angles are
real: at normal incidence, and for transparent layers below the critical angle.  Missing: other
cosines, for which the claim fails already without any layers (`C56_p_counterexample`). -/
theorem C70_p_partial {w : ℝ} {n c : ℂ} (hn : n ≠ 0) (hc : c.im = 0) (layers : Stack)
    (sub : Option Layer) (hcount : layers.Counted)
    (hl : ∀ l ∈ layers.flat, l.n w ≠ 0 ∧ l.interface = none)
    (hs : (substrateLayer sub).n w ≠ 0 ∧ (substrateLayer sub).interface = none)
    {slabs : List Slab} (hslabs : SlabsOf w n c layers.flat slabs)
    (hclear : ∀ s ∈ slabs, 1 / ‖s.phase w‖ < 10 ^ 10) (hreal : ∀ s ∈ slabs, s.c.im = 0) {cs : ℂ}
    (hcs : Refracted n c ((substrateLayer sub).n w) cs) (hcsr : cs.im = 0) {R T : ℝ}
    (h : multilayerEfficiency w false c n layers sub = some (R, T)) :
    ∃ r t, WavesP w ((substrateLayer sub).n w) cs t n c 1 r slabs ∧ R = ‖r‖ ^ 2 ∧
      T = (cs / (substrateLayer sub).n w / (c / n)).re * ‖(substrateLayer sub).n w / n‖ ^ 2 *
        ‖t‖ ^ 2 ∧
      ∀ r' t', WavesP w ((substrateLayer sub).n w) cs t' n c 1 r' slabs → r' = r ∧ t' = t := by
  obtain ⟨r, t, h1, h2, hR, hT⟩ := efficiency_split h
  have key := coefficients_waves false layers sub hcount hl hs hslabs hclear hcs h1
  have hmem : ∀ s ∈ slabs, s.n ≠ 0 ∧ s.c.im = 0 := by
    intro s hs'
    refine ⟨?_, hreal s hs'⟩
    clear h hclear hreal key h1
    unfold SlabsOf at hslabs
    obtain ⟨l, hl', hls⟩ : ∃ l ∈ layers.flat, s.n = l.n w := by
      generalize layers.flat = ks at hslabs
      induction hslabs with
      | nil => exact absurd hs' (by simp)
      | cons e _ ih =>
        rcases List.mem_cons.1 hs' with rfl | hs'
        · exact ⟨_, by simp, e.1⟩
        · obtain ⟨l, hl, e⟩ := ih hs'
          exact ⟨l, by simp [hl], e⟩
    rw [hls]; exact (hl l hl').1
  -- waves with the amplitude of the incident wave scaled to the magnetic field
  have scale : ∀ (qs k t' f b n' c' : ℂ) (L : List Slab), k ≠ 0 →
      (WavesQ (momentum false) w qs (k * t') n' c' (k * f) (k * b) L ↔
        WavesQ (momentum false) w qs t' n' c' f b L) := by
    intro qs k t' f b n' c' L hk
    induction L generalizing n' c' f b with
    | nil =>
      simp only [WavesQ]
      constructor
      · rintro ⟨g1, g2⟩
        exact ⟨mul_left_cancel₀ hk (by linear_combination g1),
          mul_left_cancel₀ hk (by linear_combination g2)⟩
      · rintro ⟨g1, g2⟩
        exact ⟨by linear_combination k * g1, by linear_combination k * g2⟩
    | cons s L ih =>
      simp only [WavesQ]
      constructor
      · rintro ⟨f', b', g1, g2, g3⟩
        refine ⟨f' / k, b' / k, ?_, ?_, ?_⟩
        · field_simp; linear_combination g1
        · field_simp; linear_combination g2
        · rw [← ih]
          have e1 : k * (f' / k * s.phase w) = f' * s.phase w := by field_simp
          have e2 : k * (b' / k / s.phase w) = b' / s.phase w := by
            have : s.phase w ≠ 0 := exp_ne_zero _
            field_simp
          rw [e1, e2]
          exact g3
      · rintro ⟨f', b', g1, g2, g3⟩
        refine ⟨k * f', k * b', by linear_combination k * g1, by linear_combination k * g2, ?_⟩
        rw [← ih] at g3
        rw [mul_assoc, mul_div_assoc]
        exact g3
  have hiff : ∀ r' t', WavesP w ((substrateLayer sub).n w) cs t' n c 1 r' slabs ↔
      r' = r ∧ (substrateLayer sub).n w / n * t' = t := by
    intro r' t'
    rw [wavesP_iff w _ _ _ _ _ _ _ _ hs.1 hcsr hn hc hmem]
    have e : (substrateLayer sub).n w * t' = n * ((substrateLayer sub).n w / n * t') := by field_simp
    rw [e, scale _ _ _ _ _ _ _ _ hn]
    exact key _ _
  have hns := hs.1
  refine ⟨r, n / (substrateLayer sub).n w * t, (hiff _ _).2 ⟨rfl, by field_simp⟩, hR, ?_, ?_⟩
  · rw [hcs.eq hs.1, momentum_p_real hcsr, momentum_p_real hc] at hT
    rw [hT, norm_mul, norm_div, norm_div]
    have : ‖(substrateLayer sub).n w‖ ≠ 0 := norm_ne_zero_iff.2 hns
    have : ‖n‖ ≠ 0 := norm_ne_zero_iff.2 hn
    field_simp
  · intro r' t' h'
    obtain ⟨g1, g2⟩ := (hiff _ _).1 h'
    refine ⟨g1, ?_⟩
    rw [← g2]
    field_simp

/-- A quarter-wave layer whose index is the geometric mean of those of vacuum and glass removes the
reflection: the amplitudes of the waves are easy to guess, and `C70_s` turns them into the result of the
program. -/
example : multilayerEfficiency 1 true 1 1 (.sequence [.layer ⟨fun _ => 2, 1 / 8, none⟩])
    (some ⟨fun _ => 4, 0, none⟩) = some (0, 1) := by
  have hphase : (Slab.mk 2 1 (1 / 8)).phase 1 = I := by
    unfold Slab.phase
    have : I * (2 * (Real.pi : ℂ) * ((1 / 8 : ℝ) : ℂ) * 2 * 1 / ((1 : ℝ) : ℂ)) = Real.pi / 2 * I := by
      push_cast; ring
    simp only
    rw [this, exp_pi_div_two_mul_I]
  have hsnell : ∀ k : ℂ, k ≠ 0 → snellsLawScalar 1 1 k = 1 := by
    intro k hk
    exact Refracted.eq ⟨by ring, by simp, by simp⟩ hk
  obtain ⟨R, T, h⟩ := C32_finite (w := 1) (n := 1) (c := 1) one_pos one_pos one_pos le_rfl true
    (.sequence [.layer ⟨fun _ => 2, 1 / 8, none⟩]) (some ⟨fun _ => 4, 0, none⟩)
    (by simp [Stack.Counted, CountedAll])
    (by
      simp only [Stack.flat, flatAll, List.append_nil, List.mem_singleton, forall_eq]
      exact ⟨by norm_num, by norm_num, by norm_num, by norm_num, rfl⟩)
    ⟨by simp [substrateLayer], by simp [substrateLayer], by simp [substrateLayer],
      by simp [substrateLayer], rfl⟩
    (by
      intro l hl
      rw [ofReal_one, hsnell]
      · exact one_ne_zero
      · simp only [Stack.flat, flatAll, List.append_nil, List.mem_append, List.mem_singleton,
          substrateLayer, Option.elim_some] at hl
        rcases hl with rfl | rfl <;> norm_num)
  rw [ofReal_one] at h
  obtain ⟨r, t, -, hR, hT, huniq⟩ := C70_s (.sequence [.layer ⟨fun _ => 2, 1 / 8, none⟩])
    (some ⟨fun _ => 4, 0, none⟩) (by simp [Stack.Counted, CountedAll])
    (by simp [Stack.flat, flatAll]) (by simp [substrateLayer]) (slabs := [⟨2, 1, 1 / 8⟩])
    (by
      simp only [Stack.flat, flatAll, List.append_nil]
      exact .cons ⟨rfl, rfl, by ring, by simp, by simp⟩ .nil)
    (by
      simp only [List.mem_singleton, forall_eq]
      rw [hphase]; norm_num)
    (cs := 1) ⟨by ring, by simp, by simp⟩ h
  obtain ⟨rfl, rfl⟩ := huniq 0 (I / 2) (by
    simp only [WavesS, hphase, substrateLayer, Option.elim_some]
    refine ⟨3 / 4, 1 / 4, by norm_num, by norm_num, ?_, ?_⟩
    · rw [div_I]; ring
    · rw [div_I]; ring)
  rw [h, hR, hT]
  norm_num [substrateLayer]

/-! ### Coatings of surfaces -/

/-- The complex index of a medium, in terms of what can be observed: the phase velocity, and the decay
of the flux, which falls by `exp (-attenuation)` per unit of length. -/
structure MediumIndex (r : Ray) (n : ℂ) : Prop where
  re : n.re = r.index
  decay : ∀ z : ℝ, ‖exp (2 * Real.pi * I * n * z / r.wavelength)‖ ^ 2 = Real.exp (-r.attenuation * z)

theorem MediumIndex.eq {r : Ray} {n : ℂ} (h : MediumIndex r n) (hw : r.wavelength ≠ 0) :
    rayIndex r = n := by
  have h1 := h.decay 1
  rw [Complex.norm_exp, ← Real.exp_nat_mul, Real.exp_eq_exp] at h1
  have e : (2 * Real.pi * I * n * (1 : ℝ) / (r.wavelength : ℂ)).re
      = -(2 * Real.pi * n.im / r.wavelength) := by
    rw [Complex.div_ofReal_re]
    simp [mul_re, mul_im]
    ring
  rw [e] at h1
  have hpi := Real.pi_ne_zero
  have him : r.attenuation * r.wavelength / (4 * Real.pi) = n.im := by
    field_simp at h1 ⊢
    push_cast at h1
    linarith
  apply Complex.ext
  · unfold rayIndex
    rw [him]
    simp [h.re]
  · unfold rayIndex
    rw [him]
    simp

/-- What the following theorems assume of a coating and of the light that meets it: no rough
interfaces, no layer so thick that light is lost in it completely, and real cosines. -/
structure Coated (w : ℝ) (n c : ℂ) (layers : List Layer) (sub : Option Layer) (slabs : List Slab)
    (cs : ℂ) : Prop where
  index : n ≠ 0
  layer : ∀ l ∈ layers, l.n w ≠ 0 ∧ l.interface = none
  substrate : (substrateLayer sub).n w ≠ 0 ∧ (substrateLayer sub).interface = none
  bySnell : SlabsOf w n c layers slabs
  clear : ∀ s ∈ slabs, 1 / ‖s.phase w‖ < 10 ^ 10
  real : ∀ s ∈ slabs, s.c.im = 0
  refracted : Refracted n c ((substrateLayer sub).n w) cs
  realSubstrate : cs.im = 0

theorem average_waves {w c : ℝ} {n : ℂ} {layers : Stack} {sub : Option Layer} {slabs : List Slab}
    {cs : ℂ} (hcount : layers.Counted) (hc : Coated w n c layers.flat sub slabs cs) {x : ℝ × ℝ}
    (h : multilayerAverage w c n layers sub = some x) :
    ∃ r t r' t', WavesS w ((substrateLayer sub).n w) cs t n c 1 r slabs ∧
      WavesP w ((substrateLayer sub).n w) cs t' n c 1 r' slabs ∧
      x.1 = (‖r‖ ^ 2 + ‖r'‖ ^ 2) / 2 ∧
      x.2 = (((substrateLayer sub).n w * cs / (n * c)).re * ‖t‖ ^ 2 +
        (cs / (substrateLayer sub).n w / (c / n)).re * ‖(substrateLayer sub).n w / n‖ ^ 2 *
          ‖t'‖ ^ 2) / 2 := by
  unfold multilayerAverage at h
  simp only [Option.bind_eq_bind, Option.bind_eq_some_iff, Option.pure_def, Option.some.injEq] at h
  obtain ⟨⟨R, T⟩, h1, ⟨R', T'⟩, h2, rfl⟩ := h
  obtain ⟨r, t, a1, rfl, rfl, -⟩ := C70_s layers sub hcount hc.layer hc.substrate hc.bySnell hc.clear
    hc.refracted h1
  obtain ⟨r', t', b1, rfl, rfl, -⟩ := C70_p_partial hc.index (ofReal_im c) layers sub hcount hc.layer
    hc.substrate hc.bySnell hc.clear hc.real hc.refracted hc.realSubstrate h2
  exact ⟨r, t, r', t', a1, b1, rfl, rfl⟩

/-- **C70**: the efficiency of a mirror with a coating is the mean of the reflectivities of both
polarizations, for a ray that comes from a medium with any index and attenuation.  Missing: cosines that
are not real, see `C70_p_partial`. -/
theorem C70_mirror_partial {ray : Ray} (hw : ray.wavelength ≠ 0) {normal : V3} {layers : Stack}
    (hcount : layers.Counted) {sub : Option Layer} {n : ℂ} (hn : MediumIndex ray n)
    {slabs : List Slab} {cs : ℂ}
    (hc : Coated ray.wavelength n ((-(ray.direction.dot normal) : ℝ) : ℂ) layers.flat sub slabs cs)
    {e : ℝ} (h : multilayerMirrorEfficiency layers sub ray normal = some e) :
    ∃ r t r' t',
      WavesS ray.wavelength ((substrateLayer sub).n ray.wavelength) cs t n
        ((-(ray.direction.dot normal) : ℝ) : ℂ) 1 r slabs ∧
      WavesP ray.wavelength ((substrateLayer sub).n ray.wavelength) cs t' n
        ((-(ray.direction.dot normal) : ℝ) : ℂ) 1 r' slabs ∧
      e = (‖r‖ ^ 2 + ‖r'‖ ^ 2) / 2 := by
  unfold multilayerMirrorEfficiency at h
  rw [hn.eq hw, Option.map_eq_some_iff] at h
  obtain ⟨x, h, rfl⟩ := h
  obtain ⟨r, t, r', t', h1, h2, h3, -⟩ := average_waves hcount hc h
  exact ⟨r, t, r', t', h1, h2, h3⟩

/-- **C70**: the efficiency of a film is the mean of the transmissivities of both polarizations, with
vacuum behind the film. -/
theorem C70_film_partial {ray : Ray} (hw : ray.wavelength ≠ 0) {normal : V3} {layers : Stack}
    (hcount : layers.Counted) {n : ℂ} (hn : MediumIndex ray n) {slabs : List Slab} {cs : ℂ}
    (hc : Coated ray.wavelength n ((-(ray.direction.dot normal) : ℝ) : ℂ) layers.flat none slabs cs)
    {e : ℝ} (h : multilayerFilmEfficiency layers ray normal = some e) :
    ∃ r t r' t',
      WavesS ray.wavelength 1 cs t n ((-(ray.direction.dot normal) : ℝ) : ℂ) 1 r slabs ∧
      WavesP ray.wavelength 1 cs t' n ((-(ray.direction.dot normal) : ℝ) : ℂ) 1 r' slabs ∧
      e = ((cs / (n * (-(ray.direction.dot normal) : ℝ))).re * ‖t‖ ^ 2 +
        (cs / ((-(ray.direction.dot normal) : ℝ) / n)).re * ‖1 / n‖ ^ 2 * ‖t'‖ ^ 2) / 2 := by
  unfold multilayerFilmEfficiency at h
  rw [hn.eq hw, Option.map_eq_some_iff] at h
  obtain ⟨x, h, rfl⟩ := h
  obtain ⟨r, t, r', t', h1, h2, -, h4⟩ := average_waves hcount hc h
  refine ⟨r, t, r', t', h1, h2, ?_⟩
  rw [h4]
  simp [substrateLayer]

/-- **C70**: a filter of a bulk layer with oxide on both sides, in vacuum: the transmissivity of the
three films, times the fraction of the area that the mesh leaves open. -/
theorem C70_filter_partial {ray : Ray} (hw : ray.wavelength ≠ 0) (hi : ray.index = 1)
    (ha : ray.attenuation = 0) {normal : V3} (hin : ray.direction.dot normal < 0)
    {layer oxide : Layer} {mesh : ℝ} {slabs : List Slab}
    (hc : Coated ray.wavelength 1 ((-(ray.direction.dot normal) : ℝ) : ℂ) [oxide, layer, oxide] none
      slabs ((-(ray.direction.dot normal) : ℝ) : ℂ))
    {e : ℝ} (h : thinFilmEfficiency (.layer layer) (.layer oxide) mesh ray normal = some e) :
    ∃ r t r' t',
      WavesS ray.wavelength 1 ((-(ray.direction.dot normal) : ℝ) : ℂ) t 1
        ((-(ray.direction.dot normal) : ℝ) : ℂ) 1 r slabs ∧
      WavesP ray.wavelength 1 ((-(ray.direction.dot normal) : ℝ) : ℂ) t' 1
        ((-(ray.direction.dot normal) : ℝ) : ℂ) 1 r' slabs ∧
      e = mesh * ((‖t‖ ^ 2 + ‖t'‖ ^ 2) / 2) := by
  unfold thinFilmEfficiency at h
  rw [Option.map_eq_some_iff] at h
  obtain ⟨x, h, rfl⟩ := h
  have hn : MediumIndex ray 1 := by
    refine ⟨by simp [hi], fun z => ?_⟩
    rw [Complex.norm_exp, ← Real.exp_nat_mul, Real.exp_eq_exp, Complex.div_ofReal_re]
    simp [ha]
  have hd : ((-(ray.direction.dot normal) : ℝ) : ℂ) ≠ 0 := by
    rw [ofReal_ne_zero]; linarith
  obtain ⟨r, t, r', t', h1, h2, h3⟩ := C70_film_partial hw (layers := .sequence [.layer oxide,
    .layer layer, .layer oxide]) (by simp [Stack.Counted, CountedAll]) hn (slabs := slabs)
    (cs := ((-(ray.direction.dot normal) : ℝ) : ℂ)) (by
      have e : (Stack.sequence [.layer oxide, .layer layer, .layer oxide]).flat =
          [oxide, layer, oxide] := by simp [Stack.flat, flatAll]
      rw [e]; exact hc) h
  refine ⟨r, t, r', t', h1, h2, ?_⟩
  rw [h3, one_mul, div_one, div_self hd, one_div, inv_one]
  simp only [one_re, norm_one]
  ring

/-- An absorbing film with oxide on both sides, at normal incidence. -/
example : Coated 1 1 1
    [⟨fun _ => 2, 1 / 8, none⟩, ⟨fun _ => 2 + I, 1 / 8, none⟩, ⟨fun _ => 2, 1 / 8, none⟩] none
    [⟨2, 1, 1 / 8⟩, ⟨2 + I, 1, 1 / 8⟩, ⟨2, 1, 1 / 8⟩] 1 := by
  have hI : (2 + I : ℂ) ≠ 0 := fun h => by
    have := congrArg re h
    simp at this
  have hr : ∀ k : ℂ, Refracted 1 1 k 1 := fun k => ⟨by ring, by simp, by simp⟩
  refine ⟨one_ne_zero, ?_, by simp [substrateLayer],
    .cons ⟨rfl, rfl, hr _⟩ (.cons ⟨rfl, rfl, hr _⟩ (.cons ⟨rfl, rfl, hr _⟩ .nil)), ?_, ?_, hr _,
    by simp⟩
  · simp only [List.mem_cons, List.not_mem_nil, or_false]
    rintro l (rfl | rfl | rfl)
    · simp
    · exact ⟨hI, rfl⟩
    · simp
  · have h2 : 1 / ‖(Slab.mk 2 1 (1 / 8)).phase 1‖ < 10 ^ 10 := by
      simp only [Slab.phase]
      rw [Complex.norm_exp]
      have : (I * (2 * (Real.pi : ℂ) * ((1 / 8 : ℝ) : ℂ) * 2 * 1 / ((1 : ℝ) : ℂ))).re = 0 := by
        rw [mul_one, ofReal_one, div_one]
        simp [mul_re, mul_im]
      rw [this]; norm_num
    have h3 : 1 / ‖(Slab.mk (2 + I) 1 (1 / 8)).phase 1‖ < 10 ^ 10 := by
      simp only [Slab.phase]
      rw [Complex.norm_exp]
      have : (I * (2 * (Real.pi : ℂ) * ((1 / 8 : ℝ) : ℂ) * (2 + I) * 1 / ((1 : ℝ) : ℂ))).re
          = -(Real.pi / 4) := by
        rw [mul_one, ofReal_one, div_one]
        simp [mul_re, mul_im]
        ring
      rw [this, one_div, ← Real.exp_neg, neg_neg]
      have h4 := Real.pi_lt_four
      calc Real.exp (Real.pi / 4) ≤ Real.exp 1 := Real.exp_le_exp.2 (by linarith)
        _ < 3 := Real.exp_one_lt_three
        _ < 10 ^ 10 := by norm_num
    simp only [List.mem_cons, List.not_mem_nil, or_false]
    rintro s (rfl | rfl | rfl) <;> assumption
  · simp only [List.mem_cons, List.not_mem_nil, or_false]
    rintro s (rfl | rfl | rfl) <;> simp

end Optika
