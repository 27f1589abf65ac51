import Verif.Props.Waves

/-!
# C80: coatings transmit the same light in both directions

The way back: the layers in reverse order, from the medium behind the coating, at the angle at which
the light left.
-/

namespace Optika
open Complex Matrix

/-- The product of the matrices of slabs between a medium of momentum `q` and one of `qs`. -/
noncomputable def chain (pol : Bool) (w : ℝ) (qs : ℂ) : ℂ → List Slab → M2
  | q, [] => interfaceMatrix q qs
  | q, s :: L => interfaceMatrix q (momentum pol s.c s.n) * propagation w s.c s.h s.n *
      chain pol w qs (momentum pol s.c s.n) L

theorem chain_append (pol : Bool) (w : ℝ) (q qs : ℂ) (L : List Slab) (s : Slab) :
    chain pol w qs q (L ++ [s]) = chain pol w (momentum pol s.c s.n) q L *
      propagation w s.c s.h s.n * interfaceMatrix (momentum pol s.c s.n) qs := by
  induction L generalizing q with
  | nil => simp [chain]
  | cons x L ih => simp only [List.cons_append, chain, ih, mul_assoc]

/-- Transposed, with the signs of the amplitudes that travel back reversed. -/
def flip2 (m : M2) : M2 := !![m 0 0, -m 1 0; -m 0 1, m 1 1]

theorem flip2_mul (a b : M2) : flip2 (a * b) = flip2 b * flip2 a := by
  ext i j
  fin_cases i <;> fin_cases j <;> simp [flip2, Matrix.mul_apply, Fin.sum_univ_two] <;> ring

theorem flip2_interface {q q' : ℂ} (hq : q ≠ 0) :
    interfaceMatrix q' q = (q / q') • flip2 (interfaceMatrix q q') := by
  rcases eq_or_ne q' 0 with h | h
  · subst h
    ext i j
    fin_cases i <;> fin_cases j <;> simp [flip2, interfaceMatrix]
  · ext i j
    fin_cases i <;> fin_cases j <;> simp [flip2, interfaceMatrix] <;> field_simp <;> ring

theorem flip2_propagation (w : ℝ) (c : ℂ) (h : ℝ) (n : ℂ) :
    flip2 (propagation w c h n) = propagation w c h n := by
  ext i j
  fin_cases i <;> fin_cases j <;> simp [flip2, propagation]

theorem chain_reverse (pol : Bool) (w : ℝ) (q qs : ℂ) (hq : q ≠ 0) (L : List Slab)
    (hL : ∀ s ∈ L, momentum pol s.c s.n ≠ 0) :
    chain pol w q qs L.reverse = (q / qs) • flip2 (chain pol w qs q L) := by
  induction L generalizing q with
  | nil => exact flip2_interface hq
  | cons s L ih =>
    have hs := hL s (by simp)
    rw [List.reverse_cons, chain_append, ih _ hs fun x hx => hL x (by simp [hx])]
    simp only [chain, flip2_mul, flip2_propagation]
    rw [flip2_interface hq]
    simp only [Matrix.smul_mul, Matrix.mul_smul, smul_smul, mul_assoc]
    congr 1
    field_simp

theorem slabsOf_map (w : ℝ) (ks : List Layer) (m : Medium) (h : ∀ l ∈ ks, l.n w ≠ 0) :
    slabsOf w ks m =
      ks.map fun l => ⟨l.n w, csqrt (1 - m.transverse / (l.n w) ^ 2), l.thickness⟩ := by
  induction ks generalizing m with
  | nil => rfl
  | cons k ks ih =>
    simp only [slabsOf, List.map_cons]
    rw [ih _ fun l hl => h l (by simp [hl]), next_transverse w k m (h k (by simp))]
    congr 2
    simp only [Layer.next]
    rw [snellsLawScalar_eq]
    rfl

theorem chain_of_transfer (w : ℝ) (pol : Bool) (sub : Layer) (hi : sub.interface = none)
    (h0 : sub.thickness = 0) (ks : List Layer) (hks : ∀ l ∈ ks, l.interface = none) (m : Medium)
    (hv : (ks.foldl (fun m l => l.next w m) m).valid = true) (k1 k2 : M2)
    (h1 : (transferAll w pol (ks.map .layer) m (some 1)).2 = some k1)
    (h2 : (sub.transfer w pol (ks.foldl (fun m l => l.next w m) m)).2 = some k2) :
    k1 * k2 = chain pol w (momentum pol
        (sub.next w (ks.foldl (fun m l => l.next w m) m)).direction (sub.n w))
      (momentum pol m.direction m.n) (slabsOf w ks m) ∧ momentum pol m.direction m.n ≠ 0 ∧
      ∀ s ∈ slabsOf w ks m, momentum pol s.c s.n ≠ 0 := by
  induction ks generalizing m k1 with
  | nil =>
    simp only [List.map_nil, transferAll, Option.some.injEq] at h1
    subst h1
    simp only [List.foldl_nil] at hv h2 ⊢
    obtain ⟨-, -, hq, hk⟩ := transfer_valid_matrix hi hv h2
    have hp : (if (sub.next w m).valid then propagation w (sub.next w m).direction sub.thickness
        (sub.next w m).n else 1) = (1 : M2) := by
      rw [h0, propagation_zero]; simp
    rw [hp, mul_one] at hk
    subst hk
    rw [one_mul]
    exact ⟨rfl, hq, by simp [slabsOf]⟩
  | cons k ks ih =>
    have hv0 : m.valid = true := next_valid_of hv
    have hv1 : (k.next w m).valid = true := next_valid_of (ks := ks) hv
    simp only [List.map_cons, transferAll, Stack.transfer] at h1
    rw [transferAll_acc, mul?_one_left] at h1
    simp only at h1
    cases hA : (k.transfer w pol m).2 with
    | none => rw [hA, mul?_none_left] at h1; exact absurd h1 (by simp)
    | some A =>
      cases hB : (transferAll w pol (ks.map .layer) (k.transfer w pol m).1 (some 1)).2 with
      | none => rw [hB, mul?_none_right] at h1; exact absurd h1 (by simp)
      | some B =>
        rw [hA, hB, mul?_some, Option.some.injEq] at h1
        subst h1
        obtain ⟨-, -, hq, hk⟩ := transfer_valid_matrix (hks k (by simp)) hv0 hA
        rw [if_pos hv1] at hk
        rw [Layer.transfer_fst] at hB
        obtain ⟨e1, e2, e3⟩ := ih (fun l hl => hks l (by simp [hl])) (k.next w m) hv B hB h2
        refine ⟨?_, hq, ?_⟩
        · rw [mul_assoc, e1, hk]; rfl
        · intro s hs
          simp only [slabsOf, List.mem_cons] at hs
          rcases hs with rfl | hs
          · exact e2
          · exact e3 s hs

/-- What the reflectivity and the transmissivity are made of. -/
theorem transmissivity_chain {w : ℝ} {pol : Bool} {n c : ℂ} {layers : Stack} {sub : Option Layer}
    (hcount : layers.Counted) (hl : ∀ l ∈ layers.flat, l.n w ≠ 0 ∧ l.interface = none)
    (hs : (substrateLayer sub).n w ≠ 0 ∧ (substrateLayer sub).interface = none) {R T : ℝ}
    (h : multilayerEfficiency w pol c n layers sub = some (R, T)) :
    let σ := n ^ 2 * (1 - c ^ 2)
    let slabs := layers.flat.map fun l : Layer =>
      (⟨l.n w, csqrt (1 - σ / (l.n w) ^ 2), l.thickness⟩ : Slab)
    let q := momentum pol c n
    let qs := momentum pol (snellsLawScalar c n ((substrateLayer sub).n w)) ((substrateLayer sub).n w)
    q ≠ 0 ∧ if layers.flat.all (fun l => l.ok w σ) then
      (∀ s ∈ slabs, momentum pol s.c s.n ≠ 0) ∧ chain pol w qs q slabs 0 0 ≠ 0 ∧
      R = ‖chain pol w qs q slabs 1 0 / chain pol w qs q slabs 0 0‖ ^ 2 ∧
      T = ‖1 / chain pol w qs q slabs 0 0‖ ^ 2 * (qs / q).re else T = 0 := by
  intro σ slabs q qs
  obtain ⟨r, t, hrt, hq0, hR, hT⟩ := efficiency_split h
  obtain ⟨k1, k2, h1, h2, h0, hr, ht⟩ := coefficients_split hrt
  have hflat := transfer_flat w pol layers ⟨n, c, true⟩ hcount (fun l hl' => (hl l hl').1)
    (by rw [h1]; simp)
  rw [hflat] at h1 h2 ht
  rw [transferAll_state] at h2 ht
  rw [substrate_valid] at ht
  have hval := walk_valid w layers.flat ⟨n, c, true⟩ fun l hl' => (hl l hl').1
  have hσ : (⟨n, c, true⟩ : Medium).transverse = σ := rfl
  rw [hσ, Bool.true_and] at hval
  refine ⟨hq0, ?_⟩
  have hthick : (substrateLayer sub).thickness = 0 := by
    cases sub <;> rfl
  split_ifs with hok
  · rw [hok] at hval
    rw [hval] at ht
    simp only [if_true] at ht
    obtain ⟨e1, e2, e3⟩ := chain_of_transfer w pol (substrateLayer sub) hs.2 hthick layers.flat
      (fun l hl' => (hl l hl').2) ⟨n, c, true⟩ hval k1 k2 h1 h2
    have hdir : ((substrateLayer sub).next w
        (layers.flat.foldl (fun m l => l.next w m) ⟨n, c, true⟩)).direction =
        snellsLawScalar c n ((substrateLayer sub).n w) := by
      have ht' := walk_transverse w layers.flat ⟨n, c, true⟩ fun l hl' => (hl l hl').1
      unfold Layer.next
      exact snellsLawScalar_congr ht' _
    have hsl := slabsOf_map w layers.flat ⟨n, c, true⟩ fun l hl' => (hl l hl').1
    rw [hσ] at hsl
    rw [hdir, hsl] at e1
    rw [hsl] at e3
    refine ⟨e3, ?_, ?_, ?_⟩
    · rw [e1] at h0; exact h0
    · rw [hR, hr, e1]
    · rw [hT, ht, e1]
  · have : layers.flat.all (fun l => l.ok w σ) = false := by simpa using hok
    rw [this] at hval
    rw [hval] at ht
    simp only [Bool.false_eq_true, if_false] at ht
    rw [hT, ht]; simp

/-- **C80**: light that comes back along the path of the transmitted light is transmitted to the same
degree, whatever the layers are made of, however they are nested, and for both polarizations.  `sub` is
the medium behind the coating and `amb` the one before it. -/
theorem C80_reciprocity {w : ℝ} (pol : Bool) {n c cs : ℂ} {front back : Stack}
    {sub amb : Option Layer} (hfront : front.Counted) (hback : back.Counted)
    (hflat : back.flat = front.flat.reverse)
    (hl : ∀ l ∈ front.flat, l.n w ≠ 0 ∧ l.interface = none)
    (hs : (substrateLayer sub).n w ≠ 0 ∧ (substrateLayer sub).interface = none)
    (ha : (substrateLayer amb).n w = n) (hn : n ≠ 0) (hai : (substrateLayer amb).interface = none)
    (hc : 0 < c.re) (hcs : Refracted n c ((substrateLayer sub).n w) cs) {R T R' T' : ℝ}
    (h : multilayerEfficiency w pol c n front sub = some (R, T))
    (h' : multilayerEfficiency w pol cs ((substrateLayer sub).n w) back amb = some (R', T')) :
    T = T' := by
  have hl' : ∀ l ∈ back.flat, l.n w ≠ 0 ∧ l.interface = none := by
    intro l hl'
    rw [hflat, List.mem_reverse] at hl'
    exact hl l hl'
  obtain ⟨hq, A⟩ := transmissivity_chain hfront hl hs h
  obtain ⟨hq', B⟩ := transmissivity_chain hback hl' ⟨ha ▸ hn, hai⟩ h'
  rw [ha, hcs.snell, hflat, List.all_reverse, List.map_reverse] at B
  have hret : snellsLawScalar cs ((substrateLayer sub).n w) n = c := by
    have : Refracted ((substrateLayer sub).n w) cs n c :=
      ⟨hcs.snell.symm, hc.le, fun h => absurd h hc.ne'⟩
    exact this.eq hn
  rw [hret] at B
  rw [hcs.eq hs.1] at A
  split_ifs at A B with hok
  · obtain ⟨a1, a2, -, rfl⟩ := A
    obtain ⟨b1, b2, -, rfl⟩ := B
    rw [chain_reverse pol w _ _ hq _ a1] at b2 ⊢
    set M := chain pol w (momentum pol cs ((substrateLayer sub).n w)) (momentum pol c n)
      (front.flat.map fun l : Layer =>
        (⟨l.n w, csqrt (1 - n ^ 2 * (1 - c ^ 2) / (l.n w) ^ 2), l.thickness⟩ : Slab)) with hM
    set q := momentum pol c n
    set qs := momentum pol cs ((substrateLayer sub).n w)
    have e : ((q / qs) • flip2 M) 0 0 = q / qs * M 0 0 := by simp [flip2]
    rw [e, one_div, one_div, norm_inv, norm_inv, norm_mul, inv_pow, inv_pow, mul_pow, mul_inv]
    have hz : qs / q = (q / qs)⁻¹ := by rw [inv_div]
    rw [hz]
    have hne : q / qs ≠ 0 := div_ne_zero hq hq'
    rw [inv_re, ← Complex.sq_norm]
    field_simp
  · rw [A, B]

/-- **C80**: a coating without absorption between transparent media also reflects the same in both
directions. -/
theorem C80_reflection {w : ℝ} (hw : 0 < w) (pol : Bool) {n c cs : ℝ} {front back : Stack}
    {sub amb : Option Layer} (hfront : front.Counted) (hback : back.Counted)
    (hflat : back.flat = front.flat.reverse) (hl : ∀ l ∈ front.flat, l.Transparent w)
    (hs : (substrateLayer sub).Transparent w) (hat : (substrateLayer amb).Transparent w)
    (ha : (substrateLayer amb).n w = n) (hn : 0 < n) (hc : 0 < c) (hc1 : c ≤ 1)
    (hcs : Refracted n c ((substrateLayer sub).n w) cs) (hcs0 : 0 < cs) (hcs1 : cs ≤ 1)
    {R T R' T' : ℝ}
    (h : multilayerEfficiency w pol c n front sub = some (R, T))
    (h' : multilayerEfficiency w pol cs ((substrateLayer sub).n w) back amb = some (R', T')) :
    R = R' := by
  have e := C80_reciprocity pol hfront hback hflat (fun l h => ⟨(hl l h).ne, (hl l h).ideal⟩)
    ⟨hs.ne, hs.ideal⟩ ha (by exact_mod_cast hn.ne') hat.ideal (by rw [ofReal_re]; exact hc) hcs h h'
  have h1 := C32_transparent_partial hw hn hc hc1 pol front sub hfront hl hs h
  have hns : ((substrateLayer sub).n w) = (((substrateLayer sub).n w).re : ℝ) := by
    apply Complex.ext <;> simp [hs.real]
  have hpos : 0 < ((substrateLayer sub).n w).re := by
    rcases hs.re.lt_or_eq with h | h
    · exact h
    · exact absurd (Complex.ext h.symm (by simp [hs.real])) hs.ne
  rw [hns] at h'
  have h2 := C32_transparent_partial hw hpos hcs0 hcs1 pol back amb hback (by
    intro l hl'
    rw [hflat, List.mem_reverse] at hl'
    exact hl l hl') hat h'
  linarith

/-- **C80**: turning a film around does not change what it transmits. -/
theorem C80_film {ray : Ray} {normal : V3} {front back : Stack} (hfront : front.Counted)
    (hback : back.Counted) (hflat : back.flat = front.flat.reverse)
    (hl : ∀ l ∈ front.flat, l.n ray.wavelength ≠ 0 ∧ l.interface = none)
    (hi : ray.index = 1) (ha : ray.attenuation = 0) (hc : ray.direction.dot normal < 0) {e e' : ℝ}
    (h : multilayerFilmEfficiency front ray normal = some e)
    (h' : multilayerFilmEfficiency back ray normal = some e') : e = e' := by
  have hr : rayIndex ray = 1 := by simp [rayIndex, hi, ha]
  unfold multilayerFilmEfficiency multilayerAverage at h h'
  rw [hr] at h h'
  simp only [Option.bind_eq_bind, Option.map_eq_some_iff, Option.bind_eq_some_iff,
    Option.pure_def, Option.some.injEq] at h h'
  obtain ⟨x, ⟨s, hs, p, hp, rfl⟩, rfl⟩ := h
  obtain ⟨x', ⟨s', hs', p', hp', rfl⟩, rfl⟩ := h'
  have hsub : (substrateLayer none).n ray.wavelength = 1 := rfl
  have hR : Refracted 1 ((-(ray.direction.dot normal) : ℝ) : ℂ)
      ((substrateLayer none).n ray.wavelength) ((-(ray.direction.dot normal) : ℝ) : ℂ) := by
    refine ⟨by rw [hsub], ?_, ?_⟩
    · rw [ofReal_re]; linarith
    · rw [ofReal_re, ofReal_im]; intro; exact le_rfl
  have key := fun (pol : Bool) (x x' : ℝ × ℝ) hx hx' => C80_reciprocity (R := x.1) (T := x.2)
    (R' := x'.1) (T' := x'.2) pol hfront hback hflat hl (sub := none) (amb := none)
    ⟨by rw [hsub]; exact one_ne_zero, rfl⟩ hsub one_ne_zero rfl (by rw [ofReal_re]; linarith) hR hx hx'
  have e1 := key true s s' hs hs'
  have e2 := key false p p' hp hp'
  simp only [e1, e2]

/-- Aluminium-like and glass-like layers on a substrate, perpendicular light: both directions are finite,
and the same. -/
example : ∃ R T R' T', multilayerEfficiency 1 true ((1 : ℝ) : ℂ) ((1 : ℝ) : ℂ)
      (.sequence [.layer ⟨fun _ => 1 + I, 1 / 100, none⟩, .layer ⟨fun _ => 2, 1, none⟩])
      (some ⟨fun _ => 3 / 2, 0, none⟩) = some (R, T) ∧
    multilayerEfficiency 1 true ((1 : ℝ) : ℂ) ((3 / 2 : ℝ) : ℂ)
      (.sequence [.layer ⟨fun _ => 2, 1, none⟩, .layer ⟨fun _ => 1 + I, 1 / 100, none⟩]) none =
        some (R', T') ∧ T = T' := by
  have snell1 : ∀ n m : ℂ, snellsLawScalar ((1 : ℝ) : ℂ) n m = 1 := by
    intro n m
    rw [snellsLawScalar_eq]
    exact csqrt_unique (by simp) (by simp) (by simp)
  have hA : (⟨fun _ => 1 + I, 1 / 100, none⟩ : Layer).Passive 1 :=
    ⟨fun h => by have := congrArg Complex.re h; simp at this, by simp, by simp, by norm_num, rfl⟩
  have hB : (⟨fun _ => 2, 1, none⟩ : Layer).Passive 1 :=
    ⟨two_ne_zero, by simp, by simp, by norm_num, rfl⟩
  have hs : (substrateLayer (some ⟨fun _ => 3 / 2, 0, none⟩)).Passive 1 :=
    ⟨by simp [substrateLayer], by simp [substrateLayer]; norm_num, by simp [substrateLayer],
      by simp [substrateLayer], rfl⟩
  have hv : (substrateLayer none).Passive 1 :=
    ⟨by simp [substrateLayer], by simp [substrateLayer], by simp [substrateLayer],
      by simp [substrateLayer], rfl⟩
  obtain ⟨R, T, h⟩ := C32_finite (w := 1) one_pos (n := 1) one_pos (c := 1) one_pos le_rfl true
    (.sequence [.layer ⟨fun _ => 1 + I, 1 / 100, none⟩, .layer ⟨fun _ => 2, 1, none⟩])
    (some ⟨fun _ => 3 / 2, 0, none⟩) (by simp [Stack.Counted, CountedAll]) (by
      simp only [Stack.flat, flatAll, List.cons_append, List.nil_append, List.mem_cons,
        List.not_mem_nil, or_false]
      rintro l (rfl | rfl)
      exacts [hA, hB]) hs (fun l _ => by rw [snell1]; exact one_ne_zero)
  obtain ⟨R', T', h'⟩ := C32_finite (w := 1) one_pos (n := 3 / 2) (by norm_num) (c := 1) one_pos le_rfl
    true (.sequence [.layer ⟨fun _ => 2, 1, none⟩, .layer ⟨fun _ => 1 + I, 1 / 100, none⟩])
    none (by simp [Stack.Counted, CountedAll]) (by
      simp only [Stack.flat, flatAll, List.cons_append, List.nil_append, List.mem_cons,
        List.not_mem_nil, or_false]
      rintro l (rfl | rfl)
      exacts [hB, hA]) hv (fun l _ => by rw [snell1]; exact one_ne_zero)
  refine ⟨R, T, R', T', h, h', ?_⟩
  have e : (substrateLayer (some ⟨fun _ => 3 / 2, 0, none⟩)).n 1 = ((3 / 2 : ℝ) : ℂ) := by
    simp [substrateLayer]
  rw [← e] at h'
  refine C80_reciprocity true (by simp [Stack.Counted, CountedAll])
    (by simp [Stack.Counted, CountedAll]) (by simp [Stack.flat, flatAll]) ?_ ⟨hs.ne, rfl⟩
    (by simp [substrateLayer]) (by simp) rfl (by simp) ⟨by simp, by simp, by simp⟩ h h'
  simp only [Stack.flat, flatAll, List.cons_append, List.nil_append, List.mem_cons,
    List.not_mem_nil, or_false]
  rintro l (rfl | rfl)
  exacts [⟨hA.ne, rfl⟩, ⟨hB.ne, rfl⟩]

end Optika
