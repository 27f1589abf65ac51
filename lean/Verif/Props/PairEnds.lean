import Verif.Props.Ramanathan

/-!
# C58 beyond the ends of the table
-/

namespace Optika

/-- The table is in increasing order of energy. -/
theorem first_le_last {l : List PairRow} (hs : l.Pairwise fun a b => a.energy ≤ b.energy)
    (hne : l ≠ []) : (l.head hne).energy ≤ (l.getLast hne).energy := by
  cases l with
  | nil => exact absurd rfl hne
  | cons r l =>
    rcases List.mem_cons.1 (List.getLast_mem hne) with h | h
    · rw [h]; simp
    · rw [List.head_cons]; exact (List.pairwise_cons.1 hs).1 _ h

theorem interpInf_above {f : PairRow → Option ℝ} {l : List PairRow} {v : Option (Option ℝ)}
    (hs : l.Pairwise fun a b => a.energy ≤ b.energy) (hne : l ≠ []) {E : ℝ}
    (hE : (l.getLast hne).energy < E) :
    interpInf v (l.map fun r => (r.energy, f r)) E = v.getD (f (l.getLast hne)) := by
  have h0 := first_le_last hs hne
  cases l with
  | nil => exact absurd rfl hne
  | cons r l =>
    have hlast : ((r :: l).map fun r => (r.energy, f r)).getLast (by simp)
        = (((r :: l).getLast hne).energy, f ((r :: l).getLast hne)) := by
      rw [List.getLast_map]
    simp only [List.map_cons] at hlast ⊢
    simp only [List.head_cons] at h0
    simp only [interpInf]
    rw [if_neg (by linarith), hlast, if_pos hE]

theorem interpInf_below {f : PairRow → Option ℝ} {l : List PairRow} {v : Option (Option ℝ)}
    (hne : l ≠ []) {E : ℝ} (hE : E < (l.head hne).energy) :
    interpInf v (l.map fun r => (r.energy, f r)) E = f (l.head hne) := by
  cases l with
  | nil => exact absurd rfl hne
  | cons r l =>
    simp only [List.map_cons, List.head_cons] at hE ⊢
    simp only [interpInf]
    rw [if_pos hE]

/-- **C58**: for photons above the table the Fano factor at the temperatures of the table is that of
the limit of high energies, `-0.028 E_g(T) + 0.0015 A + 0.14` with `A = 5.2` and the band gap `E_g`. -/
theorem C58_fano_high {table : List PairRow} (hs : table.Pairwise fun a b => a.energy ≤ b.energy)
    (hne : table ≠ []) {E : ℝ} (hE : (table.getLast hne).energy < E) {T : ℝ}
    (hT : T = 0 ∨ T = 100 ∨ T = 300) :
    fanoFactor table E T
      = some (-0.028 * (1.1692 - 4.9e-4 * T ^ 2 / (T + 655)) + 0.0015 * 5.2 + 0.14) := by
  unfold fanoFactor
  simp only [interpInf_above hs hne hE, Option.getD_some]
  have key : some (fanoFactorInf T)
      = some (-0.028 * (1.1692 - 4.9e-4 * T ^ 2 / (T + 655)) + 0.0015 * 5.2 + 0.14) := rfl
  rw [← key]
  rcases hT with rfl | rfl | rfl <;> norm_num [interpInf, interpInfFrom, lerpInf]

theorem interp_below {f : PairRow → ℝ} {l : List PairRow} (hne : l ≠ []) {E : ℝ}
    (hE : E < (l.head hne).energy) :
    interp none none (l.map fun r => (r.energy, f r)) E = some (f (l.head hne)) := by
  cases l with
  | nil => exact absurd rfl hne
  | cons r l =>
    simp only [List.map_cons, List.head_cons] at hE ⊢
    simp only [interp]
    rw [if_pos hE]
    rfl

/-- **C58**: for photons below the table the simulation keeps the probabilities of the first row, and
`quantum_yield_ideal` is smaller than their mean by the ratio of the energies. -/
theorem C58_low {table : List PairRow} {num : ℕ}
    {T : ℝ} {g : PairRow → List ℝ} (hT : TableTemperature T g) (hne : table ≠ [])
    (hp : (table.head hne).Proper num) {E : ℝ} (hE : E < (table.head hne).energy)
    (h0 : (table.head hne).energy ≠ 0) :
    pairProbabilities table num E T = g (table.head hne)
      ∧ quantumYieldIdeal table E T = E / (table.head hne).energy
        * pairMean num (distributionOf (pairProbabilities table num E T)) (fun k => k) := by
  have hd := hp.of hT
  have hprob : ∀ k, probabilityOfPairs table E T k = some ((g (table.head hne)).getD k 0) := by
    intro k
    unfold probabilityOfPairs
    rw [interp_below hne hE]
    cases hT <;> norm_num [tempInterp, interp, interpFrom]
  have e : pairProbabilities table num E T = g (table.head hne) := by
    apply List.ext_getElem
    · simp [pairProbabilities, hd.length]
    · intro k h1 h2
      simp [pairProbabilities, hprob, List.getD_eq_getElem?_getD, List.getElem?_eq_getElem h2]
  refine ⟨e, ?_⟩
  have hm : rowMean (g (table.head hne)) ≠ 0 := by
    rw [rowMean_eq hd.length]
    have := hd.mean_ge_one
    linarith
  have hW : energyPair table E T
      = some ((table.head hne).energy / rowMean (g (table.head hne))) := by
    unfold energyPair
    simp only [energyPair_table hT]
    rw [interpInf_below (f := fun r => div? r.energy (rowMean (g r))) hne hE, div?_of_ne hm]
  unfold quantumYieldIdeal
  rw [hW, e, ← rowMean_eq hd.length]
  simp only
  field_simp

/-- A table of one row. -/
example : quantumYieldIdeal [⟨4, [1, 0], [1, 0], [1, 0]⟩] 2 300 = 1 / 2
    ∧ pairProbabilities [⟨4, [1, 0], [1, 0], [1, 0]⟩] 2 2 300 = [1, 0]
    ∧ fanoFactor [⟨4, [1, 0], [1, 0], [1, 0]⟩] 5 0
      = some (-0.028 * 1.1692 + 0.0015 * 5.2 + 0.14) := by
  have hrow : IsDistribution 2 [1, 0] := ⟨rfl, fun k => by
    rcases k with _ | _ | k <;> norm_num, by norm_num⟩
  have hp : PairRow.Proper 2 ⟨4, [1, 0], [1, 0], [1, 0]⟩ := ⟨hrow, hrow, hrow⟩
  obtain ⟨h1, h2⟩ := C58_low (table := [⟨4, [1, 0], [1, 0], [1, 0]⟩]) .room (by simp) hp (E := 2)
    (by norm_num) (by norm_num)
  refine ⟨?_, h1, ?_⟩
  · rw [h2, h1]
    norm_num [pairMean, Finset.sum_range_succ, distributionOf]
  · rw [C58_fano_high (by simp) (by simp) (by norm_num) (Or.inl rfl)]
    norm_num

end Optika
