import Verif.Props.Multilayer

/-!
# C33: absorbances of groups of layers
-/

namespace Optika

open Complex

mutual
/-- No sequence in a stack is empty. -/
def Stack.Filled : Stack → Prop
  | .layer _ => True
  | .sequence ls => FilledAll ls
  | .periodic ls _ => FilledAll ls
/-- See `Stack.Filled`. -/
def FilledAll : List Stack → Prop
  | [] => False
  | [l] => l.Filled
  | l :: k :: ls => l.Filled ∧ FilledAll (k :: ls)
end

mutual
theorem filled_first (w : ℝ) : (s : Stack) → s.Counted → s.Filled →
    ∃ l ls, s.flat = l :: ls ∧ s.index? w = some (l.n w) ∧ s.interface? = some l.interface
  | .layer l, _, _ => ⟨l, [], rfl, rfl, rfl⟩
  | .sequence ls, hc, hf => by
    simp only [Stack.Counted, Stack.Filled] at hc hf
    obtain ⟨l, rest, h1, h2, h3⟩ := filledAll_first w ls hc hf
    exact ⟨l, rest, by rw [Stack.flat, h1], by rw [Stack.index?, h2], by rw [Stack.interface?, h3]⟩
  | .periodic ls num, hc, hf => by
    simp only [Stack.Counted, Stack.Filled] at hc hf
    obtain ⟨l, rest, h1, h2, h3⟩ := filledAll_first w ls hc.2 hf
    obtain ⟨k, rfl⟩ : ∃ k, num = k + 1 := ⟨num - 1, by omega⟩
    refine ⟨l, rest ++ (List.replicate k (flatAll ls)).flatten, ?_, by rw [Stack.index?, h2],
      by rw [Stack.interface?, h3]⟩
    rw [Stack.flat, List.replicate_succ, List.flatten_cons, h1, List.cons_append]
theorem filledAll_first (w : ℝ) : (ls : List Stack) → CountedAll ls → FilledAll ls →
    ∃ l rest, flatAll ls = l :: rest ∧ indexAll? w ls = some (l.n w)
      ∧ interfaceAll? ls = some l.interface
  | [], _, hf => by simp [FilledAll] at hf
  | [s], hc, hf => by
    simp only [CountedAll, FilledAll] at hc hf
    obtain ⟨l, rest, h1, h2, h3⟩ := filled_first w s hc.1 hf
    exact ⟨l, rest ++ [], by rw [flatAll, h1, flatAll, List.cons_append], by rw [indexAll?, h2],
      by rw [interfaceAll?, h3]⟩
  | s :: k :: ls, hc, hf => by
    simp only [CountedAll, FilledAll] at hc hf
    obtain ⟨l, rest, h1, h2, h3⟩ := filled_first w s hc.1 hf.1
    exact ⟨l, rest ++ flatAll (k :: ls), by rw [flatAll, h1, List.cons_append], by rw [indexAll?, h2],
      by rw [interfaceAll?, h3]⟩
end

/-- The flux just inside layer `i`, as the code computes it. -/
theorem left_flux {σ w : ℝ} {c n : ℂ} (hσ : 0 ≤ σ) (hc0 : c ≠ 0)
    (g : Good σ n c) (pol : Bool) (ls : List Layer)
    (hl : ∀ l ∈ ls, l.Passive w ∧ csqrt (1 - σ / (l.n w) ^ 2) ≠ 0) {i : ℕ} (hi : i < ls.length)
    (hclear : ∀ l ∈ ls.take (i + 1), l.Clear w c n) (r : ℂ) {k : M2}
    (hk : (transferAll w pol ((ls.take i).map .layer) ⟨n, c, true⟩ (some 1)).2 = some k) :
    ∃ W v, refraction w
        (transferAll w pol ((ls.take i).map .layer) ⟨n, c, true⟩ (some 1)).1.direction
        (snellsLawScalar c n (ls[i].n w)) pol
        (transferAll w pol ((ls.take i).map .layer) ⟨n, c, true⟩ (some 1)).1.n (ls[i].n w) none
        = some W
      ∧ amplitudes (k * W) r = some v
      ∧ flux pol (ls[i].n w) (snellsLawScalar c n (ls[i].n w)) v.1 v.2
        = prefixFlux w pol c n ls r i := by
  obtain ⟨k0, a, b, hk0, hd, hamp, h1, h2, gi, hci⟩ := prefix_amplitudes hσ pol g hc0 ls hl r i
  obtain rfl : k = k0 := Option.some.inj (hk.symm.trans hk0)
  obtain ⟨k', a', b', hk', hd', hamp', h1', h2', gi', hci'⟩ :=
    prefix_amplitudes hσ pol g hc0 ls hl r (i + 1)
  have hp := prefix_succ w pol ls ⟨n, c, true⟩ hi
  have hvalid : ∀ j ≤ i + 1, (transferAll w pol ((ls.take j).map .layer)
      ⟨n, c, true⟩ (some 1)).1.valid = true := fun j hj =>
    prefix_valid g pol _ (fun l h => (hl l (List.mem_of_mem_take h)).1.ne)
      fun l h => hclear l (List.take_subset_take_left ls hj h)
  have hvi := hvalid i (by omega)
  have hvi' := hvalid (i + 1) le_rfl
  have hli := hl ls[i] (List.getElem_mem hi)
  have hF : prefixFlux w pol c n ls r i = fluxOf (momentum pol
      (transferAll w pol ((ls.take i).map .layer) ⟨n, c, true⟩ (some 1)).1.direction
      (transferAll w pol ((ls.take i).map .layer) ⟨n, c, true⟩ (some 1)).1.n) a b := by
    unfold prefixFlux
    simp only
    rw [hk, Option.bind_some, hamp]
  rw [hF]
  generalize hs : transferAll w pol ((ls.take i).map .layer) ⟨n, c, true⟩ (some 1) = s at *
  generalize hs' : transferAll w pol ((ls.take (i + 1)).map .layer) ⟨n, c, true⟩
    (some 1) = s' at *
  rw [hk] at hp
  have hs1 : s'.1 = ls[i].next w s.1 := by rw [hp]
  have hs2 : s'.2 = mul? (some k) (ls[i].transfer w pol s.1).2 := by rw [hp]
  rw [hk'] at hs2
  cases hT : (ls[i].transfer w pol s.1).2 with
  | none => rw [hT, mul?_none_right] at hs2; simp at hs2
  | some kl =>
    rw [hT, mul?_some] at hs2
    simp only [Option.some.injEq] at hs2
    obtain ⟨p1, p2, p3, p4⟩ := transfer_valid_matrix hli.1.ideal hvi hT
    rw [← hs1, if_pos hvi'] at p4
    have hdl : snellsLawScalar c n (ls[i].n w) = s'.1.direction := by
      rw [hs1]
      show _ = snellsLawScalar _ _ _
      rw [snell_of_good g, snell_of_good gi]
    have hnl : ls[i].n w = s'.1.n := by rw [hs1]; rfl
    have hq' : momentum pol s'.1.direction s'.1.n ≠ 0 := momentum_ne_zero gi'.ne hci' pol
    have hr : refraction w s.1.direction s'.1.direction pol s.1.n s'.1.n none =
        some (interfaceMatrix (momentum pol s.1.direction s.1.n)
          (momentum pol s'.1.direction s'.1.n)) :=
      refraction_eq_some.2 ⟨p1, gi'.ne, momentum_add_ne_zero gi gi' hci pol, p3, rfl⟩
    set W := interfaceMatrix (momentum pol s.1.direction s.1.n)
      (momentum pol s'.1.direction s'.1.n) with hW
    set P := propagation w s'.1.direction ls[i].thickness s'.1.n with hP
    have hdW : (k * W).det ≠ 0 := by
      rw [Matrix.det_mul, hW, interfaceMatrix_det p3]
      exact mul_ne_zero hd (div_ne_zero hq' p3)
    have hleft : amplitudes (k * W) r = some (app1 P a' b', app2 P a' b') := by
      apply amplitudes_spec hdW
      · rw [← app1_mul, mul_assoc, ← p4, ← hs2]; exact h1'
      · rw [← app2_mul, mul_assoc, ← p4, ← hs2]; exact h2'
    have hab : app1 W (app1 P a' b') (app2 P a' b') = a ∧
        app2 W (app1 P a' b') (app2 P a' b') = b := by
      have e1 : amplitudes k r = some (app1 W (app1 P a' b') (app2 P a' b'),
          app2 W (app1 P a' b') (app2 P a' b')) := by
        apply amplitudes_spec hd
        · rw [← app1_mul, ← app1_mul, mul_assoc, ← p4, ← hs2]; exact h1'
        · rw [← app2_mul, ← app2_mul, mul_assoc, ← p4, ← hs2]; exact h2'
      rw [hamp] at e1
      simp only [Option.some.injEq, Prod.mk.injEq] at e1
      exact ⟨e1.1.symm, e1.2.symm⟩
    refine ⟨W, _, ?_, hleft, ?_⟩
    · rw [hdl, hnl]; exact hr
    · rw [hdl, hnl, flux_eq_fluxOf, ← hab.1, ← hab.2, hW, fluxOf_interface p3]

theorem countedAll_append : ∀ {a b : List Stack}, CountedAll (a ++ b) ↔ CountedAll a ∧ CountedAll b
  | [], b => by simp [CountedAll]
  | x :: a, b => by
    simp only [List.cons_append, CountedAll]
    rw [countedAll_append, and_assoc]

theorem nested_flat {σ w : ℝ} (hσ : 0 ≤ σ) (pol : Bool) (xs : List Stack) {m : Medium}
    (hcount : CountedAll xs) (hl : ∀ l ∈ flatAll xs, l.Passive w ∧ csqrt (1 - σ / (l.n w) ^ 2) ≠ 0)
    (g : Good σ m.n m.direction) (hc : m.direction ≠ 0) :
    transferAll w pol xs m (some 1) = transferAll w pol ((flatAll xs).map .layer) m (some 1) := by
  obtain ⟨⟨k, hk, -⟩, -⟩ := stackAll_exists hσ pol xs m hcount hl g hc
  have := transfer_flat w pol (.sequence xs) m (by simpa only [Stack.Counted] using hcount)
    (by simp only [Stack.flat]; exact fun l h => (hl l h).1.ne) (by simp [Stack.transfer, hk])
  simpa only [Stack.transfer, Stack.flat] using this

theorem countedAll_layerSequence : ∀ {layers : Stack}, layers.Counted → CountedAll layers.layerSequence
  | .layer l, _ => by simp [Stack.layerSequence, CountedAll, Stack.Counted]
  | .sequence ls, h => by simpa [Stack.layerSequence, Stack.Counted] using h
  | .periodic ls num, h => by
    simp only [Stack.Counted] at h
    simp only [Stack.layerSequence]
    have := h.2
    clear h
    induction num with
    | zero => simp [CountedAll]
    | succ k ih =>
      rw [List.replicate_succ, List.flatten_cons]
      exact countedAll_append.2 ⟨this, ih⟩

theorem coefficients_flat {w : ℝ} {pol : Bool} {c n : ℂ} {layers : Stack}
    {sub : Option Layer} (hcount : layers.Counted) (hne : ∀ l ∈ layers.flat, l.n w ≠ 0) {r t : ℂ}
    (h : multilayerCoefficients w pol c n layers sub = some (r, t)) :
    multilayerCoefficients w pol c n (.sequence (layers.flat.map .layer)) sub = some (r, t) := by
  obtain ⟨k1, k2, hk1, -⟩ := coefficients_split h
  have e := transfer_flat w pol layers ⟨n, c, true⟩ hcount hne (by rw [hk1]; simp)
  have e' : (Stack.sequence (layers.flat.map .layer)).transfer w pol ⟨n, c, true⟩ =
      layers.transfer w pol ⟨n, c, true⟩ := by rw [e]; simp only [Stack.transfer]
  rw [← h]
  unfold multilayerCoefficients multilayerTransfer
  simp only
  rw [e']

/-- **C33**: for a stack of groups, each of which may be a layer, a sequence or a periodic sequence,
nested to any depth, the absorbance of a group is the sum of the absorbances of its layers. -/
theorem C33_group_partial {w n c : ℝ} (hw : 0 < w) (hn : 0 < n) (hc : 0 < c) (hc1 : c ≤ 1)
    (pol : Bool) (layers : Stack) (a b : List Stack) (group : Stack)
    (hseq : layers.layerSequence = a ++ group :: b) (hcount : layers.Counted)
    (hfill : group.Filled) (sub : Option Layer) (hl : ∀ l ∈ layers.flat, l.Passive w)
    (hcos : ∀ l ∈ layers.flat, snellsLawScalar c n (l.n w) ≠ 0)
    (hclear : ∀ l ∈ layers.flat, l.Clear w c n)
    {R T : ℝ} (h : multilayerEfficiency w pol c n layers sub = some (R, T)) :
    ∃ A : ℕ → ℝ, (∀ i < group.flat.length, layerAbsorbance ((flatAll a).length + i : ℕ) w pol c n
        (.sequence (layers.flat.map .layer)) sub = some ((A i : ℝ) : ℂ) ∧ 0 ≤ A i)
      ∧ layerAbsorbance a.length w pol c n layers sub
        = some ((∑ i ∈ Finset.range group.flat.length, A i : ℝ) : ℂ) := by
  obtain ⟨r, t, hrt, h0, hR, hT⟩ := efficiency_split h
  replace hrt := coefficients_flat hcount (fun l h => (hl l h).ne) hrt
  replace hcount : CountedAll (a ++ group :: b) := hseq ▸ countedAll_layerSequence hcount
  set ls := layers.flat with hls
  have hflat : ls = flatAll a ++ group.flat ++ flatAll b := by
    rw [hls, ← flat_layerSequence, hseq, flatAll_append, flatAll, List.append_assoc]
  set σ := n ^ 2 * (1 - c ^ 2) with hσdef
  have hσ : 0 ≤ σ := mul_nonneg (sq_nonneg n) (by nlinarith)
  have g : Good σ (n : ℂ) (c : ℂ) := good_ambient hn hc.le
  have hl' : ∀ l ∈ ls, l.Passive w ∧ csqrt (1 - σ / (l.n w) ^ 2) ≠ 0 := by
    intro l h
    refine ⟨hl l h, ?_⟩
    have := hcos l h
    rwa [snell_of_good g] at this
  obtain ⟨q, hq, hqv⟩ := momentum_ambient (n := n) (c := c) pol hn
  have hqpos : 0 < q := by
    rw [hqv]; cases pol <;> simp <;> positivity
  have hc0 : (c : ℂ) ≠ 0 := by exact_mod_cast hc.ne'
  obtain ⟨first, rest, hfirst, hindex, hinterface⟩ := filled_first w group
    (by have := (countedAll_append.1 hcount).2; simp only [CountedAll] at this; exact this.1) hfill
  set lo := (flatAll a).length with hlo
  have hlen : ls.length = lo + group.flat.length + (flatAll b).length := by
    rw [hflat]; simp [hlo, add_assoc]
  have hg0 : 0 < group.flat.length := by rw [hfirst]; simp
  refine ⟨fun i => (prefixFlux w pol c n ls r (lo + i) - prefixFlux w pol c n ls r (lo + i + 1)) / q,
    ?_, ?_⟩
  · intro i hi
    obtain ⟨h1, h2⟩ := layerAbsorbance_eq hσ hw hn hc g pol ls (.sequence (ls.map .layer)) rfl sub hl'
      (i := lo + i) (by omega) (fun l h => hclear l (List.mem_of_mem_take h)) hrt hq hqpos
    exact ⟨h1, div_nonneg (by linarith) hqpos.le⟩
  · -- the lists of groups give the same transfer as their layers
    have hmem : ∀ xs : List Stack, (∀ l ∈ flatAll xs, l ∈ ls) → CountedAll xs →
        transferAll w pol xs ⟨(n : ℂ), (c : ℂ), true⟩ (some 1)
          = transferAll w pol ((flatAll xs).map .layer) ⟨(n : ℂ), (c : ℂ), true⟩ (some 1) :=
      fun xs hx hcx => nested_flat hσ pol xs hcx (fun l h => hl' l (hx l h)) g hc0
    have hga : CountedAll a := (countedAll_append.1 hcount).1
    have hgg : CountedAll (a ++ [group]) := by
      have := (countedAll_append.1 hcount).2
      simp only [CountedAll] at this
      exact countedAll_append.2 ⟨hga, by simp only [CountedAll]; exact ⟨this.1, trivial⟩⟩
    have ta := hmem a (fun l h => by rw [hflat]; simp [h]) hga
    have tg := hmem (a ++ [group]) (fun l h => by
      rw [flatAll_append] at h
      rw [hflat]
      simp only [flatAll, List.append_nil, List.mem_append] at h ⊢
      exact Or.inl h) hgg
    have tall := hmem (a ++ group :: b) (fun l h => by
      rw [flatAll_append] at h
      rw [hflat]
      simp only [flatAll, List.mem_append] at h ⊢
      tauto) hcount
    have fa : flatAll a = ls.take lo := by rw [hflat, hlo]; simp
    have fg : flatAll (a ++ [group]) = ls.take (lo + group.flat.length) := by
      rw [hflat, hlo, flatAll_append]
      simp only [flatAll, List.append_nil]
      rw [← List.length_append, List.take_left']
      rfl
    have fall : flatAll (a ++ group :: b) = ls := by
      rw [hflat, flatAll_append, flatAll, List.append_assoc]
    rw [fa] at ta
    rw [fg] at tg
    rw [fall] at tall
    have hrt' : multilayerCoefficients w pol c n (.sequence (a ++ group :: b)) sub = some (r, t) := by
      have e' : (Stack.sequence (a ++ group :: b)).transfer w pol ⟨(n : ℂ), (c : ℂ), true⟩
          = (Stack.sequence (ls.map .layer)).transfer w pol ⟨(n : ℂ), (c : ℂ), true⟩ := by
        simp only [Stack.transfer]; exact tall
      rw [← hrt]
      unfold multilayerCoefficients multilayerTransfer
      simp only
      rw [e']
    have hi : lo < ls.length := by omega
    have hget : ls[lo] = first := by
      have : ls[lo]? = some first := by
        rw [hflat, List.append_assoc, List.getElem?_append_right (by rw [hlo]), ← hlo, Nat.sub_self,
          hfirst]
        rfl
      rw [List.getElem?_eq_getElem hi, Option.some.injEq] at this
      exact this
    obtain ⟨k, x, y, hk, hd, hamp, -, -, -, -⟩ := prefix_amplitudes hσ pol g hc0 ls hl' r lo
    obtain ⟨k', x', y', hk', hd', hamp', -, -, -, -⟩ :=
      prefix_amplitudes hσ pol g hc0 ls hl' r (lo + group.flat.length)
    obtain ⟨W, v, hW, hv, hfl⟩ := left_flux hσ hc0 g pol ls hl' hi
      (fun l h => hclear l (List.mem_of_mem_take h)) r hk
    rw [hget] at hW hfl
    have hvalid := prefix_valid g pol (ls.take (lo + group.flat.length))
      (fun l h => (hl l (List.mem_of_mem_take h)).ne) fun l h => hclear l (List.mem_of_mem_take h)
    have hright : flux pol
        (transferAll w pol ((ls.take (lo + group.flat.length)).map .layer) ⟨(n : ℂ), (c : ℂ), true⟩
          (some 1)).1.n
        (transferAll w pol ((ls.take (lo + group.flat.length)).map .layer) ⟨(n : ℂ), (c : ℂ), true⟩
          (some 1)).1.direction x' y' = prefixFlux w pol c n ls r (lo + group.flat.length) := by
      unfold prefixFlux
      simp only
      rw [hk', Option.bind_some, hamp', flux_eq_fluxOf]
    have hq1 : (if pol = true then (n : ℂ) else 1 / n) * (c : ℂ) = (q : ℂ) := by
      rw [← hq]; cases pol <;> simp [momentum, polarizedDirection, mul_comm]
    have hq0 : ¬ ((if pol = true then (n : ℂ) else 1 / n) * (c : ℂ) = 0) := by
      rw [hq1]; exact_mod_cast hqpos.ne'
    have hsum : ∑ i ∈ Finset.range group.flat.length,
        (prefixFlux w pol c n ls r (lo + i) - prefixFlux w pol c n ls r (lo + i + 1)) / q
        = (prefixFlux w pol c n ls r lo - prefixFlux w pol c n ls r (lo + group.flat.length)) / q := by
      rw [← Finset.sum_div]
      congr 1
      exact Finset.sum_range_sub' (fun i => prefixFlux w pol c n ls r (lo + i)) _
    have hgeta : pyGet? (a ++ group :: b) (a.length : ℤ) = some group := by
      rw [pyGet_nat, List.getElem?_append_right le_rfl, Nat.sub_self]
      rfl
    have hsa : pySlice (a ++ group :: b) (a.length : ℤ) = a := by
      rw [pySlice_nat]; simp
    have hsg : pySlice (a ++ group :: b) ((a.length : ℤ) + 1) = a ++ [group] := by
      rw [show ((a.length : ℤ) + 1) = ((a.length + 1 : ℕ) : ℤ) by push_cast; ring, pySlice_nat,
        List.take_append]
      simp
    have hideal : first.interface = none := by
      rw [← hget]
      exact (hl _ (List.getElem_mem hi)).ideal
    unfold layerAbsorbance
    simp only [hseq, hrt', hgeta, hsa, hsg, Stack.transfer, ta, tg, hk, hk', hindex, hinterface,
      hideal, Option.bind_eq_bind, Option.bind_some, hW, hamp', hv, hvalid, if_true]
    rw [if_neg hq0, hq1, hfl, hright, hsum]
    simp only [Option.pure_def]
    push_cast
    rfl

/-- The sums over consecutive groups make up the sum over all. -/
theorem sum_groups (A : ℕ → ℝ) : ∀ xs : List Stack,
    ∑ j ∈ Finset.range xs.length, ∑ i ∈ Finset.range ((xs[j]?).elim 0 fun g => g.flat.length),
        A ((flatAll (xs.take j)).length + i)
      = ∑ i ∈ Finset.range (flatAll xs).length, A i := by
  intro xs
  induction xs using List.reverseRecOn with
  | nil => simp [flatAll]
  | append_singleton xs g ih =>
    rw [List.length_append, List.length_singleton, Finset.sum_range_succ, flatAll_append,
      List.length_append, Finset.sum_range_add, ← ih]
    congr 1
    · apply Finset.sum_congr rfl
      intro j hj
      have hj' := Finset.mem_range.1 hj
      rw [List.getElem?_append_left hj', List.take_append_of_le_length hj'.le]
    · rw [List.getElem?_append_right le_rfl, Nat.sub_self, List.take_left']
      · simp [flatAll]
      · rfl

/-- **C33**: the absorbances of the groups of a stack are real and non-negative, and together with
reflectivity and transmissivity they add up to one. -/
theorem C33_groups_sum_partial {w n c : ℝ} (hw : 0 < w) (hn : 0 < n) (hc : 0 < c) (hc1 : c ≤ 1)
    (pol : Bool) (layers : Stack) (hcount : layers.Counted)
    (hfill : ∀ g ∈ layers.layerSequence, g.Filled) (sub : Option Layer)
    (hl : ∀ l ∈ layers.flat, l.Passive w) (hs : (substrateLayer sub).Passive w)
    (hcos : ∀ l ∈ layers.flat, snellsLawScalar c n (l.n w) ≠ 0)
    (hclear : ∀ l ∈ layers.flat, l.Clear w c n)
    {R T : ℝ} (h : multilayerEfficiency w pol c n layers sub = some (R, T)) :
    ∃ B : ℕ → ℝ, (∀ j < layers.layerSequence.length,
        layerAbsorbance j w pol c n layers sub = some ((B j : ℝ) : ℂ) ∧ 0 ≤ B j)
      ∧ (∑ j ∈ Finset.range layers.layerSequence.length, B j) + R + T = 1 := by
  have h' : multilayerEfficiency w pol c n (.sequence (layers.flat.map .layer)) sub = some (R, T) := by
    obtain ⟨r, t, hrt, -⟩ := efficiency_split h
    rw [← h]
    unfold multilayerEfficiency
    rw [hrt, coefficients_flat hcount (fun l h => (hl l h).ne) hrt]
  have hcountf : ∀ ls : List Layer, (Stack.sequence (ls.map .layer)).Counted := by
    intro ls
    simp only [Stack.Counted]
    induction ls with
    | nil => simp [CountedAll]
    | cons k ks ih => rw [List.map_cons]; simp only [CountedAll, Stack.Counted]; exact ⟨trivial, ih⟩
  obtain ⟨A, hA, hsum⟩ := C33_sum_is_one_partial hw hn hc hc1 pol layers.flat
    (.sequence (layers.flat.map .layer)) (hcountf _) rfl sub hl hs hcos hclear h'
  refine ⟨fun j => ∑ i ∈ Finset.range ((layers.layerSequence[j]?).elim 0 fun g => g.flat.length),
        A ((flatAll (layers.layerSequence.take j)).length + i), ?_, ?_⟩
  · intro j hj
    obtain ⟨A', h1, h2⟩ := C33_group_partial hw hn hc hc1 pol layers (layers.layerSequence.take j)
      (layers.layerSequence.drop (j + 1)) layers.layerSequence[j] (by simp) hcount
      (hfill _ (List.getElem_mem hj)) sub hl hcos hclear h
    have hlen : (flatAll (layers.layerSequence.take j)).length + layers.layerSequence[j].flat.length
        ≤ layers.flat.length := by
      have e : layers.flat = flatAll (layers.layerSequence.take j) ++ (layers.layerSequence[j].flat
          ++ flatAll (layers.layerSequence.drop (j + 1))) := by
        rw [← flat_layerSequence, ← flatAll, ← flatAll_append]
        simp
      rw [e]
      simp
    have hA' : ∀ i ∈ Finset.range layers.layerSequence[j].flat.length,
        A' i = A ((flatAll (layers.layerSequence.take j)).length + i) := by
      intro i hi
      have hi' := Finset.mem_range.1 hi
      have e := (h1 i hi').1.symm.trans (hA _ (by omega)).1
      rw [Option.some.injEq] at e
      exact_mod_cast e
    rw [List.length_take, min_eq_left hj.le] at h2
    beta_reduce
    rw [h2, Finset.sum_congr rfl hA', List.getElem?_eq_getElem hj]
    refine ⟨rfl, Finset.sum_nonneg fun i hi => ?_⟩
    rw [← hA' i hi]
    exact (h1 i (Finset.mem_range.1 hi)).2
  · rw [sum_groups, flat_layerSequence]
    exact hsum

/-- A layer and a doublet that is repeated twice, all absorbing. -/
example : ∃ R T : ℝ, ∃ B : ℕ → ℝ,
    multilayerEfficiency 1 true (1 : ℝ) (1 : ℝ)
      (.sequence [.layer ⟨fun _ => 1 + I, 1 / 1000, none⟩,
        .periodic [.layer ⟨fun _ => 1 + I, 1 / 1000, none⟩, .layer ⟨fun _ => 1 + I, 1 / 1000, none⟩] 2])
      none = some (R, T) ∧
    (∀ j : ℕ, j < 2 → layerAbsorbance j 1 true (1 : ℝ) (1 : ℝ)
      (.sequence [.layer ⟨fun _ => 1 + I, 1 / 1000, none⟩,
        .periodic [.layer ⟨fun _ => 1 + I, 1 / 1000, none⟩, .layer ⟨fun _ => 1 + I, 1 / 1000, none⟩] 2])
      none = some ((B j : ℝ) : ℂ) ∧ 0 ≤ B j) ∧ B 0 + B 1 + R + T = 1 := by
  set layers : Stack := .sequence [.layer ⟨fun _ => 1 + I, 1 / 1000, none⟩,
        .periodic [.layer ⟨fun _ => 1 + I, 1 / 1000, none⟩, .layer ⟨fun _ => 1 + I, 1 / 1000, none⟩] 2]
    with hlayers
  have hflat : layers.flat = List.replicate 5 ⟨fun _ => 1 + I, 1 / 1000, none⟩ := by
    simp [hlayers, Stack.flat, flatAll, List.replicate_succ]
  have hsn : ∀ n' : ℂ, snellsLawScalar ((1 : ℝ) : ℂ) ((1 : ℝ) : ℂ) n' = 1 := by
    intro n'; push_cast; exact snell_normal
  have hp : Layer.Passive 1 ⟨fun _ => 1 + I, 1 / 1000, none⟩ :=
    ⟨one_add_I_ne, by simp, by simp, by norm_num, rfl⟩
  have hs : (substrateLayer none).Passive 1 :=
    ⟨by simp [substrateLayer], by simp [substrateLayer], by simp [substrateLayer],
      by simp [substrateLayer], rfl⟩
  have hcnt : layers.Counted := by
    simp [hlayers, Stack.Counted, CountedAll]
  have hmem : ∀ l ∈ layers.flat, l = ⟨fun _ => 1 + I, 1 / 1000, none⟩ := by
    intro l hl
    rw [hflat] at hl
    exact List.eq_of_mem_replicate hl
  have hclear : Layer.Clear 1 ((1 : ℝ) : ℂ) ((1 : ℝ) : ℂ) ⟨fun _ => 1 + I, 1 / 1000, none⟩ := by
    unfold Layer.Clear
    rw [hsn]
    have h1 : Real.exp 1 < 3 := by have := Real.exp_one_lt_d9; linarith
    have h2 : 2 * Real.pi * (1 / 1000) / 1 * ((1 + I) * 1).im ≤ 1 := by
      have := Real.pi_le_four
      simp only [mul_one, add_im, one_im, I_im, zero_add, div_one]
      linarith
    have h3 := Real.exp_le_exp.2 h2
    refine lt_of_le_of_lt h3 (h1.trans (by norm_num))
  obtain ⟨R, T, h⟩ := C32_finite (w := 1) (n := 1) (c := 1) one_pos one_pos one_pos le_rfl true
    layers none hcnt (fun l hl => by rw [hmem l hl]; exact hp) hs
    (by intro l _; rw [hsn]; exact one_ne_zero)
  obtain ⟨B, hB, hsum⟩ := C33_groups_sum_partial (w := 1) (n := 1) (c := 1) one_pos one_pos one_pos
    le_rfl true layers hcnt
    (by
      intro g hg
      simp only [hlayers, Stack.layerSequence, List.mem_cons, List.not_mem_nil, or_false] at hg
      rcases hg with rfl | rfl <;> simp [Stack.Filled, FilledAll])
    none (fun l hl => by rw [hmem l hl]; exact hp) hs
    (by intro l _; rw [hsn]; exact one_ne_zero) (fun l hl => by rw [hmem l hl]; exact hclear) h
  refine ⟨R, T, B, h, fun j hj => hB j (by simpa [hlayers, Stack.layerSequence] using hj), ?_⟩
  have : layers.layerSequence.length = 2 := rfl
  rw [this, Finset.sum_range_succ, Finset.sum_range_one] at hsum
  exact hsum

end Optika
