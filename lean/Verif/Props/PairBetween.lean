import Verif.Props.PairEnds

/-!
# The energy of a pair between the entries of the tables
-/

namespace Optika

theorem interpInfFrom_between {p : ℝ × Option ℝ} {r : List (ℝ × Option ℝ)}
    (h : (p :: r).Pairwise fun a b => a.1 < b.1) {i : ℕ} (hi : i + 1 < (p :: r).length) {a b x : ℝ}
    (ha : ((p :: r)[i]).2 = some a) (hb : ((p :: r)[i + 1]).2 = some b) (h1 : ((p :: r)[i]).1 ≤ x)
    (h2 : x < ((p :: r)[i + 1]).1) :
    interpInfFrom p r x = some (((((p :: r)[i + 1]).1 - x) * a + (x - ((p :: r)[i]).1) * b) /
      (((p :: r)[i + 1]).1 - ((p :: r)[i]).1)) := by
  induction r generalizing p i with
  | nil => simp at hi
  | cons q r ih =>
    unfold interpInfFrom
    cases i with
    | zero =>
      simp only [List.getElem_cons_zero, List.getElem_cons_succ] at ha hb h1 h2 ⊢
      rw [if_pos h2]
      have hne : q.1 - p.1 ≠ 0 := by linarith
      unfold lerpInf
      split_ifs with hx
      · subst hx
        rw [ha]
        congr 1
        field_simp
        ring
      · rw [ha, hb]
        simp only [Option.bind_eq_bind, Option.bind_some, Option.pure_def]
        congr 1
        field_simp
        ring
    | succ i =>
      simp only [List.getElem_cons_succ] at ha hb h1 h2 ⊢
      have hi' : i + 1 < (q :: r).length := by simpa using hi
      have hle : q.1 ≤ (q :: r)[i].1 := by
        cases i with
        | zero => exact le_rfl
        | succ i =>
          rw [List.pairwise_cons, List.pairwise_cons] at h
          exact (h.2.1 _ (List.getElem_mem (by simp at hi' ⊢; omega))).le
      rw [if_neg (not_lt.2 (hle.trans h1))]
      rw [List.pairwise_cons] at h
      exact ih h.2 hi' ha hb h1 h2

theorem interpInf_between {t : List (ℝ × Option ℝ)} (h : t.Pairwise fun a b => a.1 < b.1) (right : Option (Option ℝ)) {i : ℕ}
    (hi : i + 1 < t.length) {a b x : ℝ} (ha : (t[i]).2 = some a) (hb : (t[i + 1]).2 = some b) (h1 : (t[i]).1 ≤ x)
    (h2 : x < (t[i + 1]).1) :
    interpInf right t x = some (((t[i + 1].1 - x) * a + (x - t[i].1) * b) / (t[i + 1].1 - t[i].1)) := by
  cases t with
  | nil => simp at hi
  | cons p r =>
    have hle : ∀ {i j : ℕ} (hij : i ≤ j) (hj : j < (p :: r).length),
        ((p :: r)[i]'(by omega)).1 ≤ (p :: r)[j].1 := by
      intro i j hij hj
      rcases eq_or_lt_of_le hij with rfl | hlt
      · exact le_rfl
      · exact (List.pairwise_iff_getElem.1 h i j (by omega) hj hlt).le
    unfold interpInf
    dsimp only
    have h0 : p.1 ≤ (p :: r)[i].1 := hle (Nat.zero_le i) (by omega)
    rw [if_neg (by linarith), if_neg, interpInfFrom_between h hi ha hb h1 h2]
    rw [not_lt, List.getLast_eq_getElem]
    exact h2.le.trans (hle (by simp at hi ⊢; omega) (by simp))

/-- **C58**: between two energies of the tables, at a temperature of the tables, the energy of a pair is the mean of the
energies of a pair at the two, weighted with the distances to the other one; the energy of a pair of a row is the energy of
the photon divided by the mean number of pairs. -/
theorem C58_between_energies {table : List PairRow} (hs : table.Pairwise fun a b => a.energy < b.energy) {T : ℝ}
    {g : PairRow → List ℝ} (hT : TableTemperature T g) {i : ℕ} (hi : i + 1 < table.length) {E : ℝ}
    (h1 : table[i].energy ≤ E) (h2 : E < table[i + 1].energy) (hm : rowMean (g table[i]) ≠ 0)
    (hm' : rowMean (g table[i + 1]) ≠ 0) :
    energyPair table E T = some (((table[i + 1].energy - E) * (table[i].energy / rowMean (g table[i])) +
      (E - table[i].energy) * (table[i + 1].energy / rowMean (g table[i + 1]))) /
        (table[i + 1].energy - table[i].energy)) := by
  unfold energyPair
  have hs' : (table.map fun r : PairRow => (r.energy, interpInf none
      [(0, div? r.energy (rowMean r.p0)), (100, div? r.energy (rowMean r.p100)),
        (300, div? r.energy (rowMean r.p300))] T)).Pairwise fun a b => a.1 < b.1 := by
    rw [List.pairwise_map]
    exact hs
  have := interpInf_between hs' (some (some (energyPairInf T))) (i := i) (by simpa using hi)
    (a := table[i].energy / rowMean (g table[i])) (b := table[i + 1].energy / rowMean (g table[i + 1])) (x := E)
    (by rw [List.getElem_map]; simp only [energyPair_table hT]; exact div?_of_ne hm)
    (by rw [List.getElem_map]; simp only [energyPair_table hT]; exact div?_of_ne hm')
    (by rw [List.getElem_map]; exact h1) (by rw [List.getElem_map]; exact h2)
  simp only [List.getElem_map] at this
  exact this

/-- **C58**: so it lies between the energies of a pair at the two. -/
theorem C58_between_bounds {table : List PairRow} (hs : table.Pairwise fun a b => a.energy < b.energy) {T : ℝ}
    {g : PairRow → List ℝ} (hT : TableTemperature T g) {i : ℕ} (hi : i + 1 < table.length) {E : ℝ}
    (h1 : table[i].energy ≤ E) (h2 : E < table[i + 1].energy) (hm : rowMean (g table[i]) ≠ 0)
    (hm' : rowMean (g table[i + 1]) ≠ 0) {w : ℝ} (h : energyPair table E T = some w) :
    min (table[i].energy / rowMean (g table[i])) (table[i + 1].energy / rowMean (g table[i + 1])) ≤ w ∧
      w ≤ max (table[i].energy / rowMean (g table[i])) (table[i + 1].energy / rowMean (g table[i + 1])) := by
  rw [C58_between_energies hs hT hi h1 h2 hm hm', Option.some.injEq] at h
  subst h
  set a := table[i].energy / rowMean (g table[i])
  set b := table[i + 1].energy / rowMean (g table[i + 1])
  have hd : 0 < table[i + 1].energy - table[i].energy := by linarith
  rw [le_div_iff₀ hd, div_le_iff₀ hd]
  have e : ∀ m : ℝ, m * (table[i + 1].energy - table[i].energy) =
      (table[i + 1].energy - E) * m + (E - table[i].energy) * m := fun m => by ring
  rw [e, e]
  have p1 : 0 ≤ table[i + 1].energy - E := by linarith
  have p2 : 0 ≤ E - table[i].energy := by linarith
  exact ⟨add_le_add (mul_le_mul_of_nonneg_left (min_le_left a b) p1) (mul_le_mul_of_nonneg_left (min_le_right a b) p2),
    add_le_add (mul_le_mul_of_nonneg_left (le_max_left a b) p1) (mul_le_mul_of_nonneg_left (le_max_right a b) p2)⟩

/-- A photon of 3 eV between rows of 2 eV (one pair) and 4 eV (one pair) makes a pair of 3 eV. -/
example : energyPair [⟨2, [1], [1], [1]⟩, ⟨4, [1], [1], [1]⟩] 3 0 = some 3 := by
  have := C58_between_energies (table := [⟨2, [1], [1], [1]⟩, ⟨4, [1], [1], [1]⟩]) (by simp; norm_num) TableTemperature.cold
    (i := 0) (by simp) (E := 3) (by norm_num) (by norm_num) (by norm_num [rowMean]) (by norm_num [rowMean])
  rw [this]
  norm_num [rowMean]

end Optika
