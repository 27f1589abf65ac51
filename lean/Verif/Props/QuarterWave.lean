import Verif.Props.Reciprocity
import Mathlib.Analysis.SpecificLimits.Basic

/-!
# C81: layers of a quarter and of half a wave

Textbook formulas for perpendicular light on transparent layers whose optical thickness is a quarter of
the wavelength: the coating acts like a single medium of the index that `effectiveIndex` gives; and layers
of half a wave are invisible.
-/

namespace Optika
open Complex Matrix

/-! ## Specification -/

/-- The index of the medium that behaves like quarter-wave layers of these indices on a substrate of
index `ns`: each layer turns an index `y` into `n² / y`. -/
noncomputable def effectiveIndex (ns : ℝ) : List ℝ → ℝ
  | [] => ns
  | n :: L => n ^ 2 / effectiveIndex ns L

/-- A transparent smooth layer of index `n` whose optical thickness is a quarter of the wavelength. -/
structure QuarterWave (w : ℝ) (l : Layer) (n : ℝ) : Prop where
  index : l.n w = n
  pos : 0 < n
  thickness : l.thickness * n = w / 4
  smooth : l.interface = none

/-! ## Helpers -/

theorem effectiveIndex_pos {ns : ℝ} (hs : 0 < ns) {L : List ℝ} (h : ∀ n ∈ L, 0 < n) :
    0 < effectiveIndex ns L := by
  induction L with
  | nil => exact hs
  | cons n L ih =>
    have := ih fun m hm => h m (by simp [hm])
    have := h n (by simp)
    simp only [effectiveIndex]
    positivity

/-- The momentum that the layers look like. -/
noncomputable def effectiveMomentum (pol : Bool) (qs : ℂ) : List Slab → ℂ
  | [] => qs
  | s :: L => momentum pol s.c s.n ^ 2 / effectiveMomentum pol qs L

theorem effectiveMomentum_ne_zero {pol : Bool} {qs : ℂ} (hqs : qs ≠ 0) {L : List Slab}
    (hL : ∀ s ∈ L, momentum pol s.c s.n ≠ 0) : effectiveMomentum pol qs L ≠ 0 := by
  induction L with
  | nil => exact hqs
  | cons s L ih =>
    exact div_ne_zero (pow_ne_zero 2 (hL s (by simp))) (ih fun x hx => hL x (by simp [hx]))

theorem waves_quarter (pol : Bool) (w : ℝ) {qs : ℂ} (hqs : qs ≠ 0) (t : ℂ) (L : List Slab)
    (hL : ∀ s ∈ L, s.phase w = I) (hq : ∀ s ∈ L, momentum pol s.c s.n ≠ 0) (n c f b : ℂ)
    (h : WavesQ (momentum pol) w qs t n c f b L) :
    momentum pol c n * (f - b) = effectiveMomentum pol qs L * (f + b) := by
  induction L generalizing n c f b with
  | nil =>
    obtain ⟨h1, h2⟩ := h
    rw [h1, h2]; rfl
  | cons s L ih =>
    obtain ⟨f', b', h1, h2, h3⟩ := h
    have e := ih (fun x hx => hL x (by simp [hx])) (fun x hx => hq x (by simp [hx])) _ _ _ _ h3
    rw [hL s (by simp)] at e
    have hI : b' / I = -(b' * I) := by rw [div_I]
    rw [hI] at e
    have e' : momentum pol s.c s.n * (f' + b') = effectiveMomentum pol qs L * (f' - b') := by
      have : I * (momentum pol s.c s.n * (f' + b')) = I * (effectiveMomentum pol qs L * (f' - b')) := by
        linear_combination e
      exact mul_left_cancel₀ I_ne_zero this
    have hne := effectiveMomentum_ne_zero hqs (fun x hx => hq x (List.mem_cons_of_mem s hx))
    simp only [effectiveMomentum]
    rw [h1, h2]
    field_simp
    linear_combination -(momentum pol s.c s.n) * e'

theorem momentum_perpendicular (pol : Bool) (n : ℝ) : momentum pol 1 n = ((if pol then n else 1 / n : ℝ) : ℂ) := by
  cases pol <;> simp [momentum, polarizedDirection]

theorem effectiveMomentum_normal (pol : Bool) (ns : ℝ) (slabs : List Slab) (L : List ℝ)
    (h : List.Forall₂ (fun (s : Slab) n => s.n = (n : ℝ) ∧ s.c = 1) slabs L) :
    effectiveMomentum pol (momentum pol 1 ns) slabs =
      ((if pol then effectiveIndex ns L else 1 / effectiveIndex ns L : ℝ) : ℂ) := by
  induction h with
  | nil => exact momentum_perpendicular pol ns
  | @cons s n slabs L h _ ih =>
    simp only [effectiveMomentum, effectiveIndex]
    rw [ih, h.1, h.2, momentum_perpendicular]
    cases pol <;> push_cast <;> simp [div_eq_mul_inv, mul_comm]

theorem refracted_normal (n m : ℂ) : Refracted n 1 m 1 := ⟨by simp, by simp, by simp⟩

theorem quarter_pos {w : ℝ} {ls : List Layer} {L : List ℝ} (h : List.Forall₂ (QuarterWave w) ls L) :
    ∀ m ∈ L, 0 < m := by
  induction h with
  | nil => simp
  | cons h _ ih =>
    intro m hm
    rcases List.mem_cons.1 hm with rfl | hm
    · exact h.pos
    · exact ih m hm

theorem quarter_transparent {w : ℝ} (hw : 0 < w) {ls : List Layer} {L : List ℝ}
    (h : List.Forall₂ (QuarterWave w) ls L) : ∀ l ∈ ls, l.Transparent w := by
  induction h with
  | nil => simp
  | @cons l' m _ _ h _ ih =>
    intro l hl
    rcases List.mem_cons.1 hl with rfl | hl
    · have ht : 0 ≤ l.thickness := by
        have h1 := h.thickness
        have h2 := h.pos
        by_contra hneg
        push Not at hneg
        nlinarith
      exact ⟨⟨by rw [h.index]; exact_mod_cast h.pos.ne', by rw [h.index]; simpa using h.pos.le,
        by rw [h.index]; simp, ht, h.smooth⟩, by rw [h.index]; simp⟩
    · exact ih l hl

theorem quarter_slabs {w : ℝ} (hw : 0 < w) (n : ℂ) {ls : List Layer} {L : List ℝ}
    (h : List.Forall₂ (QuarterWave w) ls L) : ∃ slabs : List Slab, SlabsOf w n 1 ls slabs ∧
      List.Forall₂ (fun (s : Slab) n => s.n = (n : ℝ) ∧ s.c = 1) slabs L ∧
      ∀ s ∈ slabs, s.phase w = I ∧ s.n ≠ 0 ∧ s.c = 1 := by
  induction h with
  | nil => exact ⟨[], .nil, .nil, by simp⟩
  | @cons l m _ _ h _ ih =>
    obtain ⟨slabs, h1, h2, h3⟩ := ih
    refine ⟨⟨l.n w, 1, l.thickness⟩ :: slabs, .cons ⟨rfl, rfl, refracted_normal _ _⟩ h1,
      .cons ⟨h.index, rfl⟩ h2, ?_⟩
    intro s hs
    rcases List.mem_cons.1 hs with rfl | hs
    · refine ⟨?_, by simp only [h.index]; exact_mod_cast h.pos.ne', rfl⟩
      unfold Slab.phase
      simp only
      rw [h.index]
      have e : (2 * Real.pi * l.thickness * m * 1 / w : ℂ) = Real.pi / 2 := by
        have : ((l.thickness * m : ℝ) : ℂ) = ((w / 4 : ℝ) : ℂ) := by rw [h.thickness]
        push_cast at this
        have hw' : (w : ℂ) ≠ 0 := by exact_mod_cast hw.ne'
        field_simp
        linear_combination 4 * this
      rw [e, mul_comm, exp_pi_div_two_mul_I]
    · exact h3 s hs

/-! ## Quarter waves -/

/-- **C81**: perpendicular light on quarter-wave layers is reflected and transmitted as by a surface of
the effective index, for both polarizations. -/
theorem C81_quarter {w n ns : ℝ} (hw : 0 < w) (hn : 0 < n) (hns : 0 < ns) (pol : Bool) (layers : Stack)
    (hcount : layers.Counted) (sub : Option Layer) (hs : (substrateLayer sub).n w = ns)
    (hsi : (substrateLayer sub).interface = none) {indices : List ℝ}
    (hq : List.Forall₂ (QuarterWave w) layers.flat indices) :
    multilayerEfficiency w pol 1 n layers sub =
      some (((n - effectiveIndex ns indices) / (n + effectiveIndex ns indices)) ^ 2,
        4 * n * effectiveIndex ns indices / (n + effectiveIndex ns indices) ^ 2) := by
  have hthick : 0 ≤ (substrateLayer sub).thickness := by cases sub <;> exact le_rfl
  have hpos := quarter_pos hq
  have hl := quarter_transparent hw hq
  have hst : (substrateLayer sub).Transparent w :=
    ⟨⟨by rw [hs]; exact_mod_cast hns.ne', by rw [hs]; simpa using hns.le, by rw [hs]; simp, hthick,
      hsi⟩, by rw [hs]; simp⟩
  have snell1 : ∀ a b : ℂ, snellsLawScalar ((1 : ℝ) : ℂ) a b = 1 := by
    intro a b
    rw [snellsLawScalar_eq]
    exact csqrt_unique (by simp) (by simp) (by simp)
  obtain ⟨R, T, h⟩ := C32_finite hw hn one_pos le_rfl pol layers sub hcount
    (fun l h => (hl l h).toPassive) hst.toPassive (fun l _ => by rw [snell1]; exact one_ne_zero)
  have hsum := C32_transparent_partial hw hn one_pos le_rfl pol layers sub hcount hl hst h
  rw [ofReal_one] at h
  obtain ⟨r, t, hrt, -, hR, -⟩ := efficiency_split h
  obtain ⟨slabs, hslabs, hsq, hphase⟩ := quarter_slabs hw n hq
  have hwaves := (coefficients_waves pol layers sub hcount (fun l h => ⟨(hl l h).ne, (hl l h).ideal⟩)
    ⟨hst.ne, hsi⟩ hslabs (by
      intro s hs
      rw [(hphase s hs).1]; simp; norm_num) (refracted_normal _ _) hrt r t).2 ⟨rfl, rfl⟩
  rw [hs] at hwaves
  have hY := effectiveIndex_pos hns hpos
  have key := waves_quarter pol w (momentum_ne_zero (by exact_mod_cast hns.ne') one_ne_zero pol) _ slabs
    (fun s hs => (hphase s hs).1) (fun s hs => by
      rw [(hphase s hs).2.2]
      exact momentum_ne_zero (hphase s hs).2.1 one_ne_zero pol) _ _ _ _ hwaves
  rw [effectiveMomentum_normal pol ns slabs indices hsq, momentum_perpendicular] at key
  set Y := effectiveIndex ns indices
  have hr : r = ((if pol then (n - Y) / (n + Y) else (Y - n) / (n + Y) : ℝ) : ℂ) := by
    have h1 : ((n : ℂ) + Y) ≠ 0 := by exact_mod_cast (add_pos hn hY).ne'
    have h2 : (n : ℂ) ≠ 0 := by exact_mod_cast hn.ne'
    have h3 : (Y : ℂ) ≠ 0 := by exact_mod_cast hY.ne'
    cases pol
    · simp only [Bool.false_eq_true, if_false] at key ⊢
      push_cast at key ⊢
      field_simp at key ⊢
      linear_combination -key
    · simp only [if_true] at key ⊢
      push_cast at key ⊢
      field_simp
      linear_combination -key
  have hR' : R = ((n - Y) / (n + Y)) ^ 2 := by
    rw [hR, hr, Complex.norm_real, Real.norm_eq_abs, sq_abs]
    cases pol
    · simp only [Bool.false_eq_true, if_false]
      rw [div_pow, div_pow]; ring
    · simp
  rw [h, Option.some.injEq, Prod.mk.injEq]
  refine ⟨hR', ?_⟩
  have : n + Y ≠ 0 := (add_pos hn hY).ne'
  have hT : T = 1 - R := by linarith
  rw [hT, hR']
  field_simp
  ring

/-- **C81**: a single quarter-wave layer whose index is the geometric mean of those of its neighbours
does not reflect. -/
theorem C81_antireflection {w n ns m : ℝ} (hw : 0 < w) (hn : 0 < n) (hns : 0 < ns) (pol : Bool) {l : Layer}
    (hl : QuarterWave w l m) (hm : m ^ 2 = n * ns) (sub : Option Layer)
    (hs : (substrateLayer sub).n w = ns) (hsi : (substrateLayer sub).interface = none) :
    multilayerEfficiency w pol 1 n (.layer l) sub = some (0, 1) := by
  rw [C81_quarter hw hn hns pol (.layer l) (by simp [Stack.Counted]) sub hs hsi (indices := [m])
    (by simp only [Stack.flat]; exact .cons hl .nil)]
  have : effectiveIndex ns [m] = n := by
    simp only [effectiveIndex]; rw [hm]; field_simp
  rw [this]
  simp only [Option.some.injEq, Prod.mk.injEq]
  constructor
  · simp
  · field_simp; ring

theorem effectiveIndex_periodic (ns a b : ℝ) (ha : a ≠ 0) (hb : b ≠ 0) (hs : ns ≠ 0) (N : ℕ) :
    effectiveIndex ns (List.replicate N [a, b]).flatten = (a / b) ^ (2 * N) * ns := by
  induction N with
  | zero => simp [effectiveIndex]
  | succ N ih =>
    rw [List.replicate_succ, List.flatten_cons]
    simp only [List.cons_append, List.nil_append, effectiveIndex, ih]
    have : (a / b) ^ (2 * N) ≠ 0 := pow_ne_zero _ (div_ne_zero ha hb)
    rw [show 2 * (N + 1) = 2 * N + 2 by ring, pow_add]
    field_simp

/-- **C81**: a periodic mirror of `N` pairs of quarter-wave layers. -/
theorem C81_bragg {w n ns a b : ℝ} (hw : 0 < w) (hn : 0 < n) (hns : 0 < ns) (pol : Bool) {la lb : Layer}
    (ha : QuarterWave w la a) (hb : QuarterWave w lb b) {N : ℕ} (hN : 1 ≤ N) (sub : Option Layer)
    (hs : (substrateLayer sub).n w = ns) (hsi : (substrateLayer sub).interface = none) :
    multilayerEfficiency w pol 1 n (.periodic [.layer la, .layer lb] N) sub =
      some (((n * b ^ (2 * N) - a ^ (2 * N) * ns) / (n * b ^ (2 * N) + a ^ (2 * N) * ns)) ^ 2,
        4 * n * ns * (a * b) ^ (2 * N) / (n * b ^ (2 * N) + a ^ (2 * N) * ns) ^ 2) := by
  refine (C81_quarter hw hn hns pol (.periodic [.layer la, .layer lb] N)
    (by simp [Stack.Counted, CountedAll, hN]) sub hs hsi
    (indices := (List.replicate N [a, b]).flatten) ?_).trans ?_
  · simp only [Stack.flat, flatAll, List.cons_append, List.nil_append]
    clear hN
    induction N with
    | zero => exact .nil
    | succ N ih =>
      rw [List.replicate_succ, List.flatten_cons, List.replicate_succ, List.flatten_cons]
      exact .cons ha (.cons hb ih)
  · rw [effectiveIndex_periodic _ _ _ ha.pos.ne' hb.pos.ne' hns.ne', div_pow a b, mul_pow]
    have h1 : 0 < b ^ (2 * N) := pow_pos hb.pos _
    have h2 : 0 < a ^ (2 * N) := pow_pos ha.pos _
    have e : n + a ^ (2 * N) / b ^ (2 * N) * ns =
        (n * b ^ (2 * N) + a ^ (2 * N) * ns) / b ^ (2 * N) := by field_simp
    have e' : n - a ^ (2 * N) / b ^ (2 * N) * ns =
        (n * b ^ (2 * N) - a ^ (2 * N) * ns) / b ^ (2 * N) := by field_simp
    rw [Option.some.injEq, Prod.mk.injEq, e, e']
    have h3 : 0 < n * b ^ (2 * N) + a ^ (2 * N) * ns := by positivity
    constructor
    · congr 1
      field_simp
    · field_simp

/-- **C81**: with more and more pairs, of which the first layer has the larger index, the mirror reflects
all light. -/
theorem C81_bragg_limit {w n ns a b : ℝ} (hw : 0 < w) (hn : 0 < n) (hns : 0 < ns) (pol : Bool)
    {la lb : Layer} (ha : QuarterWave w la a) (hb : QuarterWave w lb b) (hab : b < a)
    (sub : Option Layer) (hs : (substrateLayer sub).n w = ns)
    (hsi : (substrateLayer sub).interface = none) (ε : ℝ) (hε : 0 < ε) :
    ∃ N₀, ∀ N ≥ N₀, ∃ R T, multilayerEfficiency w pol 1 n (.periodic [.layer la, .layer lb] N) sub =
      some (R, T) ∧ 1 - ε < R ∧ R ≤ 1 := by
  have hx : 1 < a / b := by rw [one_lt_div hb.pos]; exact hab
  obtain ⟨N₀, hN₀⟩ := pow_unbounded_of_one_lt (4 * n / (ns * ε)) hx
  refine ⟨N₀ + 1, fun N hN => ⟨_, _, C81_bragg hw hn hns pol ha hb (by omega) sub hs hsi, ?_⟩⟩
  have h1 : 0 < b ^ (2 * N) := pow_pos hb.pos _
  have h2 : 0 < a ^ (2 * N) := pow_pos ha.pos _
  have h3 : 4 * n / (ns * ε) < a ^ (2 * N) / b ^ (2 * N) := by
    rw [← div_pow]
    exact hN₀.trans_le (pow_le_pow_right₀ hx.le (by omega))
  rw [div_lt_div_iff₀ (by positivity) h1] at h3
  generalize a ^ (2 * N) = A at *
  generalize b ^ (2 * N) = B at *
  have h4 : 0 < n * B + A * ns := by positivity
  have e : ((n * B - A * ns) / (n * B + A * ns)) ^ 2
      = 1 - 4 * n * B * (A * ns) / (n * B + A * ns) ^ 2 := by
    field_simp; ring
  rw [e]
  have h5 : 4 * n * B * (A * ns) / (n * B + A * ns) ^ 2 < ε := by
    rw [div_lt_iff₀ (by positivity)]
    have h6 : 4 * n * B * (A * ns) < (A * (ns * ε)) * (A * ns) :=
      mul_lt_mul_of_pos_right h3 (by positivity)
    have h7 : A * (ns * ε) * (A * ns) ≤ ε * (n * B + A * ns) ^ 2 := by
      have : (A * ns) ^ 2 ≤ (n * B + A * ns) ^ 2 :=
        pow_le_pow_left₀ (by positivity) (by nlinarith [mul_pos hn h1]) 2
      nlinarith
    linarith
  have h8 : 0 ≤ 4 * n * B * (A * ns) / (n * B + A * ns) ^ 2 := by positivity
  constructor <;> linarith

/-- A layer of index 2 on a substrate of index 4. -/
example (pol : Bool) : multilayerEfficiency 8 pol 1 ((1 : ℝ) : ℂ) (.layer ⟨fun _ => 2, 1, none⟩)
    (some ⟨fun _ => 4, 0, none⟩) = some (0, 1) :=
  C81_antireflection (m := 2) (ns := 4) (by norm_num) one_pos (by norm_num) pol
    ⟨by simp, by norm_num, by norm_num, rfl⟩ (by norm_num) _ (by simp [substrateLayer]) rfl

/-- Three pairs of indices 2 and 1. -/
example (pol : Bool) : multilayerEfficiency 8 pol 1 ((1 : ℝ) : ℂ)
    (.periodic [.layer ⟨fun _ => 2, 1, none⟩, .layer ⟨fun _ => 1, 2, none⟩] 3) none =
      some ((63 / 65) ^ 2, 256 / 65 ^ 2) := by
  rw [C81_bragg (a := 2) (b := 1) (ns := 1) (by norm_num) one_pos one_pos pol
    ⟨by simp, by norm_num, by norm_num, rfl⟩ ⟨by simp, by norm_num, by norm_num, rfl⟩ (by norm_num)
    none (by simp [substrateLayer]) rfl]
  norm_num

/-! ## Half waves -/

theorem chain_half {pol : Bool} {w : ℝ} {qs q : ℂ} {s : Slab} {A B : List Slab} {e : ℂ}
    (hp : propagation w s.c s.h s.n = e • 1) (hq : q ≠ 0) (hs : momentum pol s.c s.n ≠ 0)
    (hA : ∀ s ∈ A, momentum pol s.c s.n ≠ 0) :
    chain pol w qs q (A ++ s :: B) = e • chain pol w qs q (A ++ B) := by
  induction A generalizing q with
  | nil =>
    cases B with
    | nil =>
      simp only [List.nil_append, chain, hp]
      rw [Matrix.mul_smul, mul_one, Matrix.smul_mul, interfaceMatrix_mul hq hs]
    | cons b B =>
      simp only [List.nil_append, chain, hp]
      rw [Matrix.mul_smul, mul_one, Matrix.smul_mul, ← mul_assoc, ← mul_assoc,
        interfaceMatrix_mul hq hs]
  | cons a A ih =>
    simp only [List.cons_append, chain]
    rw [ih (hA a (by simp)) fun x hx => hA x (by simp [hx]), Matrix.mul_smul]

theorem slabs_ok {w : ℝ} {n c : ℂ} {ls : List Layer} {slabs : List Slab}
    (h : SlabsOf w n c ls slabs) (hn : ∀ l ∈ ls, l.n w ≠ 0)
    (hclear : ∀ s ∈ slabs, 1 / ‖s.phase w‖ < 10 ^ 10) :
    ∀ l ∈ ls, l.ok w (n ^ 2 * (1 - c ^ 2)) = true := by
  induction h with
  | nil => simp
  | @cons l s ls slabs h _ ih =>
    intro x hx
    rcases List.mem_cons.1 hx with rfl | hx
    · obtain ⟨e1, e2, e3⟩ := h
      have hc := e3.eq (by rw [e1]; exact hn x (by simp))
      rw [snellsLawScalar_eq, e1] at hc
      unfold Layer.ok
      rw [hc, decide_eq_true_eq, propagation_phase]
      have := hclear s (by simp)
      obtain ⟨sn, sc, sh⟩ := s
      simp only at e1 e2
      subst e1 e2
      simpa using this
    · exact ih (fun l hl => hn l (by simp [hl])) (fun s hs => hclear s (by simp [hs])) x hx

theorem half_propagation {w : ℝ} (hw : w ≠ 0) {n c : ℂ} {h : ℝ} {k : ℤ}
    (hk : h * n * c = k * (w / 2)) : propagation w c h n = exp (k * (Real.pi * I)) • (1 : M2) := by
  have hw' : (w : ℂ) ≠ 0 := by exact_mod_cast hw
  unfold propagation
  have e : (2 * Real.pi * h * n * c / w : ℂ) = k * Real.pi := by
    field_simp
    linear_combination 2 * hk
  have e1 : exp (I * (k * Real.pi)) = exp (k * (Real.pi * I)) := by ring_nf
  have e2 : exp (-I * (k * Real.pi)) = exp (k * (Real.pi * I)) := by
    rw [exp_eq_exp_iff_exists_int]
    exact ⟨-k, by push_cast; ring⟩
  simp only [e, e1, e2]
  ext i j
  fin_cases i <;> fin_cases j <;> simp

theorem half_norm (k : ℤ) : ‖exp (k * (Real.pi * I))‖ = 1 := by
  rw [← mul_assoc, ← ofReal_intCast, ← ofReal_mul, norm_exp_ofReal_mul_I]

theorem half_ok {w : ℝ} (hw : w ≠ 0) {l : Layer} {σ c : ℂ} (hc : csqrt (1 - σ / (l.n w) ^ 2) = c)
    {k : ℤ} (hk : l.thickness * l.n w * c = k * (w / 2)) : l.ok w σ = true := by
  unfold Layer.ok
  rw [hc, decide_eq_true_eq, half_propagation hw hk]
  have : (exp (k * (Real.pi * I)) • (1 : M2)) 0 0 = exp (k * (Real.pi * I)) := by simp
  rw [this, half_norm]
  norm_num

/-- **C81**: a layer that is a whole number of half waves thick, as seen along the ray, changes neither
reflectivity nor transmissivity, wherever it is among whatever other layers, for any angle and
polarization. -/
theorem C81_half {w : ℝ} (hw : w ≠ 0) (pol : Bool) {n c cl : ℂ} {l : Layer} {A B : List Layer}
    {layers without : Stack} {sub : Option Layer} (hcount : layers.Counted) (hcount' : without.Counted)
    (hflat : layers.flat = A ++ l :: B) (hflat' : without.flat = A ++ B)
    (hl : ∀ l ∈ layers.flat, l.n w ≠ 0 ∧ l.interface = none)
    (hs : (substrateLayer sub).n w ≠ 0 ∧ (substrateLayer sub).interface = none)
    {slabs : List Slab} (hslabs : SlabsOf w n c without.flat slabs)
    (hclear : ∀ s ∈ slabs, 1 / ‖s.phase w‖ < 10 ^ 10)
    (hcl : Refracted n c (l.n w) cl) {k : ℤ} (hk : l.thickness * l.n w * cl = k * (w / 2))
    {R T R' T' : ℝ} (h : multilayerEfficiency w pol c n layers sub = some (R, T))
    (h' : multilayerEfficiency w pol c n without sub = some (R', T')) : R = R' ∧ T = T' := by
  have hl' : ∀ l ∈ without.flat, l.n w ≠ 0 ∧ l.interface = none := by
    intro x hx
    apply hl
    rw [hflat'] at hx
    rw [hflat]
    simp only [List.mem_append, List.mem_cons] at hx ⊢
    tauto
  have hln : l.n w ≠ 0 := (hl l (by rw [hflat]; simp)).1
  have hok := slabs_ok hslabs (fun x hx => (hl' x hx).1) hclear
  obtain ⟨hq, P⟩ := transmissivity_chain hcount hl hs h
  obtain ⟨-, Q⟩ := transmissivity_chain hcount' hl' hs h'
  have hc := hcl.eq hln
  rw [snellsLawScalar_eq] at hc
  have hprop := half_propagation hw hk
  have hnorm := half_norm k
  have hlok := half_ok hw hc hk
  have hall : without.flat.all (fun l => l.ok w (n ^ 2 * (1 - c ^ 2))) = true :=
    List.all_eq_true.2 hok
  have hall' : layers.flat.all (fun l => l.ok w (n ^ 2 * (1 - c ^ 2))) = true := by
    rw [List.all_eq_true]
    intro x hx
    rw [hflat] at hx
    simp only [List.mem_append, List.mem_cons] at hx
    rcases hx with hx | rfl | hx
    · exact hok x (by rw [hflat']; simp [hx])
    · exact hlok
    · exact hok x (by rw [hflat']; simp [hx])
  rw [if_pos hall'] at P
  rw [if_pos hall] at Q
  obtain ⟨p1, p2, p3, p4⟩ := P
  obtain ⟨-, q2, q3, q4⟩ := Q
  rw [hflat, List.map_append, List.map_cons] at p1 p2 p3 p4
  rw [hflat', List.map_append] at q2 q3 q4
  rw [hc] at p1 p2 p3 p4
  have hmem := p1 ⟨l.n w, cl, l.thickness⟩ (List.mem_append_right _ List.mem_cons_self)
  have hA := fun s hs => p1 s (List.mem_append_left _ hs)
  clear p1 hl hl' hok hall hall' hlok hclear hslabs h h'
  rw [chain_half (s := ⟨l.n w, cl, l.thickness⟩) hprop hq hmem hA] at p3 p4
  rw [p3, p4, q3, q4]
  constructor
  · congr 2
    simp only [Matrix.smul_apply, smul_eq_mul]
    rw [mul_div_mul_left _ _ (exp_ne_zero _)]
  · congr 2
    simp only [Matrix.smul_apply, smul_eq_mul, one_div]
    rw [norm_inv, norm_inv, norm_mul, hnorm, one_mul]

/-- A layer of index 2 and half a wave on glass. -/
example : ∃ R T R' T', multilayerEfficiency 4 true ((1 : ℝ) : ℂ) ((1 : ℝ) : ℂ)
      (.layer ⟨fun _ => 2, 1, none⟩) (some ⟨fun _ => 3 / 2, 0, none⟩) = some (R, T) ∧
    multilayerEfficiency 4 true ((1 : ℝ) : ℂ) ((1 : ℝ) : ℂ) (.sequence [])
      (some ⟨fun _ => 3 / 2, 0, none⟩) = some (R', T') ∧ R = R' ∧ T = T' := by
  have snell1 : ∀ a b : ℂ, snellsLawScalar ((1 : ℝ) : ℂ) a b = 1 := by
    intro a b
    rw [snellsLawScalar_eq]
    exact csqrt_unique (by simp) (by simp) (by simp)
  have hB : (⟨fun _ => 2, 1, none⟩ : Layer).Passive 4 :=
    ⟨two_ne_zero, by simp, by simp, by norm_num, rfl⟩
  have hs : (substrateLayer (some ⟨fun _ => 3 / 2, 0, none⟩)).Passive 4 :=
    ⟨by simp [substrateLayer], by simp [substrateLayer]; norm_num, by simp [substrateLayer],
      by simp [substrateLayer], rfl⟩
  obtain ⟨R, T, h⟩ := C32_finite (w := 4) (by norm_num) (n := 1) one_pos (c := 1) one_pos le_rfl true
    (.layer ⟨fun _ => 2, 1, none⟩) (some ⟨fun _ => 3 / 2, 0, none⟩) (by simp [Stack.Counted])
    (by simpa [Stack.flat] using hB) hs (fun l _ => by rw [snell1]; exact one_ne_zero)
  obtain ⟨R', T', h'⟩ := C32_finite (w := 4) (by norm_num) (n := 1) one_pos (c := 1) one_pos le_rfl true
    (.sequence []) (some ⟨fun _ => 3 / 2, 0, none⟩) (by simp [Stack.Counted, CountedAll])
    (by simp [Stack.flat, flatAll]) hs (fun l _ => by rw [snell1]; exact one_ne_zero)
  refine ⟨R, T, R', T', h, h', C81_half (l := ⟨fun _ => 2, 1, none⟩) (A := []) (B := []) (slabs := [])
    (cl := 1) (k := 1) (by norm_num) true (by simp [Stack.Counted]) (by simp [Stack.Counted, CountedAll])
    (by simp [Stack.flat]) (by simp [Stack.flat, flatAll]) (by simp [Stack.flat]) ⟨hs.ne, rfl⟩ (by simp [SlabsOf, Stack.flat, flatAll])
    (by simp) ⟨by simp, by simp, by simp⟩ (by norm_num) h h'⟩

end Optika
